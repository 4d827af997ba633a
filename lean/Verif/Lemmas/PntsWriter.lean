import Verif.Spec.Pnts
import Verif.Lemmas.Fill
import Verif.Lemmas.LasWriter
import Verif.Props.Ascii

/-!
# Lemmas on the writer of 3D Tiles point clouds: layouts, conversions, the cache
-/

namespace Pasture.Tiles3d

open Spec Spec.Pnts BorrowedBuffer BorrowedMutBuffer Props Las

/-- The cache attribute for an attribute of the points. -/
def cacheDef (m : Member) : Option AttrDef := (supportedAttributes.lookup m.name).map fun ty => ⟨m.name, ty⟩

/-- The converter fits the types. -/
def Suits (c : Option Converter) (a b : DataType) (f : Bytes → Bytes) : Prop :=
  c = none ∧ a = b ∧ f = id ∨ ∃ conv, c = some conv ∧ Converts conv a b f

theorem suits_same (a : DataType) : Suits none a a id := .inl ⟨rfl, rfl, rfl⟩

theorem getConverter_suits {s t : AttrDef} (hn : s.name = t.name) {f : Bytes → Bytes}
    (hf : conversion s.datatype t.datatype = some f) :
    ∃ c, getConverterForAttributes s t = .ok c ∧ Suits c s.datatype t.datatype f := by
  by_cases h : s.datatype = t.datatype
  · refine ⟨none, ?_, .inl ⟨rfl, h, ?_⟩⟩
    · unfold getConverterForAttributes
      rw [assertThat_true (decide_eq_true hn), if_pos h]
      rfl
    · unfold conversion at hf
      rw [if_pos h] at hf
      exact (Option.some.inj hf).symm
  · obtain ⟨c, h1, h2⟩ := (generic_spec h).2 f hf
    exact ⟨some c, by rw [getConverter_ne hn h, h1], .inr ⟨c, rfl, h2⟩⟩

/-- The values a plan computes for attribute `d` from the points from `a` on. -/
def planValue (plan : Plan) (ps : List Point) (a : Nat) (d : AttrDef) (k : Nat) : Bytes :=
  ((plan d).bind fun r => (ps[a + k]?).bind fun p => (p.get r.source).map r.value).getD []

theorem filled_plan {plan : Plan} {ps : List Point} {ds : List AttrDef} {a n c : Nat} {qs : List Point}
    (hds : ∀ q ∈ qs, ∀ kv ∈ q, kv.1 ∈ ds ↔ (plan kv.1).isSome)
    (hsrc : ∀ q ∈ qs, ∀ kv ∈ q, ∀ r, plan kv.1 = some r → ∀ p ∈ ps, ∃ v, p.get r.source = some v)
    (hn : a + n ≤ ps.length) :
    filled ds (planValue plan ps a) c n qs = plan.convert ps ⟨a, a + n⟩ qs ⟨c, c + n⟩ := by
  apply List.ext_getElem?
  intro j
  simp only [filled, Plan.convert, List.getElem?_mapIdx]
  cases hq : qs[j]? with
  | none => rfl
  | some q =>
    simp only [Option.map_some]
    by_cases hc : c ≤ j ∧ j < c + n
    · have hk : a + (j - c) < ps.length := by omega
      rw [if_pos hc, if_pos hc]
      simp only [List.getElem?_eq_getElem hk]
      unfold Plan.apply
      congr 1
      apply List.map_congr_left
      rintro ⟨d, old⟩ hkv
      have hqm := List.mem_of_getElem? hq
      have h1 := hds q hqm _ hkv
      have h2 := hsrc q hqm _ hkv
      dsimp only at h1 h2 ⊢
      cases hp : plan d with
      | none =>
        rw [hp] at h1
        rw [if_neg (by rw [h1]; simp)]
      | some r =>
        rw [hp] at h1
        obtain ⟨v, hv⟩ := h2 r hp _ (List.getElem_mem hk)
        rw [if_pos (h1.2 rfl)]
        unfold planValue
        simp only [hp, Option.bind_some, List.getElem?_eq_getElem hk, hv, Option.map_some, Option.getD_some]
    · rw [if_neg hc, if_neg hc]

/-! ## The layout of the cache -/

theorem supported_mem {n : String} {ty : DataType} (h : supportedAttributes.lookup n = some ty) :
    (n, ty) ∈ supportedAttributes := by
  unfold supportedAttributes at h ⊢
  simp only [List.lookup_cons] at h
  grind

theorem mapname_filterMap (ms : List Member) :
    ((ms.filterMap cacheDef).map AttrDef.name).Sublist (ms.map Member.name) := by
  induction ms with
  | nil => simp
  | cons m ms ih =>
    unfold cacheDef at ih ⊢
    cases h : supportedAttributes.lookup m.name with
    | none => simp only [List.filterMap_cons, h, Option.map_none, List.map_cons]; exact ih.cons _
    | some ty =>
      simp only [List.filterMap_cons, h, Option.map_some, List.map_cons]
      exact ih.cons_cons _

theorem getByName_add {l l' : PointLayout} {d : AttrDef} {fa : FieldAlignment} (h : l.addAttribute d fa = .ok l') :
    ∃ o, l'.getAttributeByName d.name = some ⟨d, o⟩ := by
  obtain ⟨h1, _, _, h4⟩ := PointLayout.addAttribute_ok.1 h
  subst h4
  refine ⟨alignTo l.packedOffsetOfNextField (PointLayout.fieldAlign d fa), ?_⟩
  unfold PointLayout.getAttributeByName
  dsimp only
  rw [List.find?_append]
  have : l.attributes.find? (fun a => a.name = d.name) = none := by
    rw [List.find?_eq_none]
    intro m hm hn
    exact h1 (List.mem_map.2 ⟨m, hm, by simpa using hn⟩)
  rw [this]
  simp [Member.name]

/-- The converters of the entries. -/
def Entries (ms : List Member) (fns : Converters) : Prop :=
  ∀ e ∈ fns, ∃ m ∈ ms, ∃ ty f, m.name = e.1 ∧ supportedAttributes.lookup m.name = some ty ∧
    conversion m.datatype ty = some f ∧ Suits e.2 m.datatype ty f

theorem insertEntry_new {α : Type} {t : List (String × α)} {k : String} (h : k ∉ t.map Prod.fst) (v : α) :
    insertEntry t k v = (k, v) :: t := by
  unfold insertEntry
  congr 1
  rw [List.filter_eq_self]
  intro e he
  simp only [ne_eq, decide_not, Bool.not_eq_eq_eq_not, Bool.not_true, decide_eq_false_iff_not]
  intro hk
  exact h (List.mem_map.2 ⟨e, he, hk⟩)

theorem compatible_loop (all : List Member) : ∀ (ms : List Member), (∀ m ∈ ms, m ∈ all) → (ms.map Member.name).Nodup →
    (∀ m ∈ ms, ∀ ty, supportedAttributes.lookup m.name = some ty → (conversion m.datatype ty).isSome) →
    ∀ (s l : PointLayout) (fns : Converters), (∀ m ∈ ms, m.name ∉ fns.map Prod.fst) → Entries all fns →
    forLoop (ms.filterMap cacheDef) s (fun l d => l.addAttribute d .default) = .ok l →
    ∃ fns', forLoop ms (s, fns) compatibleStep = .ok (l, fns') ∧ Entries all fns' ∧
      fns'.map Prod.fst = ((ms.filterMap cacheDef).map AttrDef.name).reverse ++ fns.map Prod.fst := by
  intro ms
  induction ms with
  | nil => intro _ _ _ s l fns _ he h; cases h; exact ⟨fns, rfl, he, by simp⟩
  | cons m ms ih =>
    intro hsub hn hconv s l fns hfresh he h
    rw [List.map_cons, List.nodup_cons] at hn
    have ih := ih (fun m hm => hsub m (by simp [hm])) hn.2 (fun m hm => hconv m (by simp [hm]))
    cases hs : supportedAttributes.lookup m.name with
    | none =>
      have hc : cacheDef m = none := by unfold cacheDef; rw [hs]; rfl
      simp only [List.filterMap_cons, hc] at h ⊢
      obtain ⟨fns', g1, g2, g3⟩ := ih s l fns (fun m hm => hfresh m (by simp [hm])) he h
      refine ⟨fns', ?_, g2, g3⟩
      have : compatibleStep (s, fns) m = .ok (s, fns) := by unfold compatibleStep; rw [hs]; rfl
      rw [forLoop_cons, this]
      exact g1
    | some ty =>
      have hc : cacheDef m = some ⟨m.name, ty⟩ := by unfold cacheDef; rw [hs]; rfl
      simp only [List.filterMap_cons, hc] at h ⊢
      rw [forLoop_cons] at h
      cases hadd : s.addAttribute ⟨m.name, ty⟩ .default with
      | error e => rw [hadd] at h; cases h
      | ok s' =>
        rw [hadd] at h
        obtain ⟨o, ho⟩ := getByName_add hadd
        obtain ⟨f, hf⟩ := Option.isSome_iff_exists.1 (hconv m (by simp) ty hs)
        have hfm := hfresh m (by simp)
        obtain ⟨c, hstep, hsuit⟩ : ∃ c, compatibleStep (s, fns) m = .ok (s', insertEntry fns m.name c) ∧
            Suits c m.datatype ty f := by
          obtain ⟨c, hc1, hc2⟩ := getConverter_suits (s := m.definition) (t := ⟨m.name, ty⟩) rfl hf
          by_cases hdt : m.datatype = ty
          · refine ⟨none, ?_, ?_⟩
            · unfold compatibleStep
              simp only [hs, hadd, bind, Except.bind, ho, expectSome]
              exact if_pos hdt
            · refine .inl ⟨rfl, hdt, ?_⟩
              unfold conversion at hf
              rw [if_pos hdt] at hf
              exact (Option.some.inj hf).symm
          · refine ⟨c, ?_, hc2⟩
            unfold compatibleStep
            simp only [hs, hadd, bind, Except.bind, ho, expectSome]
            refine (if_neg hdt).trans ?_
            simp only [hc1]
            rfl
        rw [insertEntry_new hfm] at hstep
        obtain ⟨fns', g1, g2, g3⟩ := ih s' l ((m.name, c) :: fns) (by
          intro m' hm' hin
          rw [List.map_cons, List.mem_cons] at hin
          rcases hin with hin | hin
          · exact hn.1 (List.mem_map.2 ⟨m', hm', hin⟩)
          · exact hfresh m' (by simp [hm']) hin) (by
          intro e hin
          rcases List.mem_cons.1 hin with rfl | hin
          · exact ⟨m, hsub m (by simp), ty, f, rfl, hs, hf, hsuit⟩
          · exact he e hin) h
        refine ⟨fns', ?_, g2, ?_⟩
        · rw [forLoop_cons, hstep]
          exact g1
        · rw [g3]
          simp

/-- The points of the layout can be stored. -/
theorem supported_iff (n : String) (ty : DataType) :
    supportedAttributes.lookup n = some ty ↔ ∃ s ∈ semantics, s.2 = ⟨n, ty⟩ := by
  constructor
  · intro h
    have := supported_mem h
    simp only [supportedAttributes, List.mem_cons, Prod.mk.injEq, List.not_mem_nil, or_false] at this
    rcases this with ⟨rfl, rfl⟩ | ⟨rfl, rfl⟩ | ⟨rfl, rfl⟩ | ⟨rfl, rfl⟩ <;>
      simp [semantics, position3D, colorRgb, colorRgba, normal]
  · rintro ⟨s, hs, he⟩
    simp only [semantics, List.mem_cons, List.not_mem_nil, or_false] at hs
    rcases hs with rfl | rfl | rfl | rfl <;> cases he <;> decide

theorem storable_iff {l : PointLayout} (hl : Solid l) :
    Storable l ↔ ∀ m ∈ l.attributes, ∀ ty, supportedAttributes.lookup m.name = some ty →
      (conversion m.datatype ty).isSome := by
  have hplan : ∀ m ∈ l.attributes, ∀ ty, defaultPlan l ⟨m.name, ty⟩ =
      (conversion m.datatype ty).map fun f => ⟨m.definition, f⟩ := by
    intro m hm ty
    unfold defaultPlan
    rw [show l.attributes.find? (fun m' => m'.name = (⟨m.name, ty⟩ : AttrDef).name) = some m from
      (getByName_iff l hl.names m.name m).2 ⟨hm, rfl⟩]
  have hsem := supported_iff
  unfold Storable storedAttributes
  constructor
  · intro h m hm ty hty
    obtain ⟨s, hs, he⟩ := (hsem _ _).1 hty
    have := h s (List.mem_filter.2 ⟨hs, by rw [he]; exact decide_eq_true ⟨m, hm, rfl⟩⟩)
    rw [he, hplan m hm ty] at this
    simpa using this
  · intro h s hs
    obtain ⟨h1, h2⟩ := List.mem_filter.1 hs
    obtain ⟨m, hm, hmn⟩ := of_decide_eq_true h2
    have := h m hm s.2.datatype (by rw [hmn]; exact (hsem _ _).2 ⟨s, h1, rfl⟩)
    rw [show s.2 = ⟨m.name, s.2.datatype⟩ by rw [hmn], hplan m hm]
    simpa using this

theorem makeCompatible_ok {l : PointLayout} (hl : Solid l) (hs : Storable l) :
    ∃ cl fns, makeCompatibleLayout l = .ok (cl, fns) ∧
      cl.attributes.map Member.definition = l.attributes.filterMap cacheDef ∧
      (cl.attributes ≠ [] → Solid cl) ∧ Entries l.attributes fns ∧
      fns.map Prod.fst = (cl.attributes.map Member.name).reverse := by
  have hn : ((l.attributes.filterMap cacheDef).map AttrDef.name).Nodup :=
    (mapname_filterMap _).nodup hl.names
  have hmem : ∀ d ∈ l.attributes.filterMap cacheDef, (d.name, d.datatype) ∈ supportedAttributes := by
    intro d hd
    obtain ⟨m, hm, hmd⟩ := List.mem_filterMap.1 hd
    unfold cacheDef at hmd
    cases h : supportedAttributes.lookup m.name with
    | none => rw [h] at hmd; cases hmd
    | some ty => rw [h] at hmd; cases hmd; exact supported_mem h
  have htab : ∀ s ∈ supportedAttributes, (∃ k ≤ 3, s.2.minAlignment = 2 ^ k) ∧ s.2.size ≤ 24 ∧ 0 < s.2.size := by
    decide
  have hlen : (l.attributes.filterMap cacheDef).length ≤ 1000 := by
    have h1 : ((l.attributes.filterMap cacheDef).map AttrDef.name) ⊆ supportedAttributes.map Prod.fst := by
      intro n hn
      obtain ⟨d, hd, rfl⟩ := List.mem_map.1 hn
      exact List.mem_map.2 ⟨_, hmem d hd, rfl⟩
    have := (List.subperm_of_subset hn h1).length_le
    rw [List.length_map] at this
    have h4 : (supportedAttributes.map Prod.fst).length = 4 := rfl
    omega
  obtain ⟨cl, e1, e2⟩ := fromAttributes_fits _ hn (fun d hd => (htab _ (hmem d hd)).1)
    (fun d hd => (htab _ (hmem d hd)).2.1) hlen
  obtain ⟨fns, g1, g2, g3⟩ := compatible_loop l.attributes l.attributes (fun _ h => h) hl.names
    ((storable_iff hl).1 hs) PointLayout.default cl [] (by simp) (by intro e he; cases he) e1
  refine ⟨cl, fns, g1, e2, ?_, g2, ?_⟩
  · intro hne
    refine solid_of_fromAttributes ?_ (fun d hd => (htab _ (hmem d hd)).2.2) e1
    intro hc
    rw [hc] at e2
    exact hne (by simpa using e2)
  · rw [g3, ← e2]
    simp [List.map_map, Function.comp_def, Member.name]

end Pasture.Tiles3d
