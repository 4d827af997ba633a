import Verif.Spec.LasExtra
import Verif.Lemmas.LasPlan

/-!
# Layouts with extra bytes, and reading records with extra bytes
-/

namespace Pasture.Las

open BorrowedBuffer Spec Props PointLayout

/-- A layout with more attributes behind it. -/
def extendWith (l : PointLayout) (ds : List AttrDef) : PointLayout :=
  ⟨l.attributes ++ membersFrom l.size ds, l.size + bytesOf ds, l.align⟩

theorem extraAttribute_eq (e : ExtraEntry) {d : AttrDef} (h : extraAttribute e = some d) :
    e.getPointAttribute = .ok d ∧ 1 ≤ d.datatype.minAlignment ∧ 0 < d.size := by
  unfold extraAttribute at h
  unfold ExtraEntry.getPointAttribute
  cases ht : e.dataType <;> rw [ht] at h <;> cases h <;>
    exact ⟨rfl, Nat.le_of_ble_eq_true rfl, Nat.lt_of_lt_of_le Nat.zero_lt_one (Nat.le_of_ble_eq_true rfl)⟩

theorem extraAttributes_eq : ∀ {entries : List ExtraEntry} {ds : List AttrDef}, entries.mapM extraAttribute = some ds →
    entries.mapM ExtraEntry.getPointAttribute = .ok ds ∧ ∀ d ∈ ds, 1 ≤ d.datatype.minAlignment ∧ 0 < d.size
  | [], ds, h => by cases h; exact ⟨rfl, by simp⟩
  | e :: es, ds, h => by
    rw [List.mapM_cons] at h
    obtain ⟨d, h1, h⟩ := Option.bind_eq_some_iff.1 h
    obtain ⟨ds', h2, h⟩ := Option.bind_eq_some_iff.1 h
    cases h
    obtain ⟨g1, g2⟩ := extraAttribute_eq e h1
    obtain ⟨g3, g4⟩ := extraAttributes_eq h2
    refine ⟨?_, List.forall_mem_cons.2 ⟨g2, g4⟩⟩
    rw [List.mapM_cons, g1, g3]
    rfl

/-- The layout of a file whose extra bytes are all described. -/
theorem described_layout (n : Nat) (hn : n ≤ 10) (exact : Bool) {entries : List ExtraEntry} {ds : List AttrDef}
    (hd : entries.mapM extraAttribute = some ds) (h0 : 0 < bytesOf ds) (h16 : bytesOf ds < 2 ^ 16) :
    ∃ f base, Format.new n = .ok f ∧ pointLayoutFromMetadata ⟨f, none⟩ exact = .ok base ∧
      ((base.attributes.map Member.name ++ ds.map AttrDef.name).Nodup →
        pointLayoutFromMetadata (fileWith f (bytesOf ds) (some entries)) exact = .ok (extendWith base ds)) := by
  obtain ⟨f, base, h1, h2, h3, h4, h5⟩ := base_tight n hn exact
  obtain ⟨e1, e2⟩ := extraAttributes_eq hd
  have hx : f.extraBytes = 0 := by
    unfold Format.new at h1
    rw [if_neg (by omega)] at h1
    injection h1 with h1
    rw [← h1]
  refine ⟨f, base, h1, ?_, ?_⟩
  · unfold pointLayoutFromMetadata
    rw [h2]
    show (if f.extraBytes = 0 then _ else _) = _
    rw [if_pos hx]
    rfl
  · intro hnames
    obtain ⟨l1, a1, a2, a3, a4⟩ := addPacked_tight h3 ds (fun d h => (e2 d h).1) hnames (by unfold bytesOf at h16; omega)
    have hl : l1 = extendWith base ds := by
      obtain ⟨as, s, al⟩ := l1
      have := a2.align
      have := h3.align
      simp only at a3 a4 this
      unfold extendWith bytesOf
      rw [a3, a4]
      simp_all
    unfold pointLayoutFromMetadata fileWith
    dsimp only
    have hb : pointLayoutFromFormat { f with extraBytes := bytesOf ds } exact = .ok base := h2
    rw [hb]
    show (if bytesOf ds = 0 then _ else _) = _
    rw [if_neg (by omega)]
    show (entries.mapM ExtraEntry.getPointAttribute).bind _ = _
    rw [e1]
    show (addPacked base ds).bind _ = _
    rw [a1]
    show (if bytesOf ds < bytesOf ds then _ else if bytesOf ds - bytesOf ds > 0 then _ else _) = _
    rw [if_neg (by omega), if_neg (by omega), hl]
    rfl

/-! ## Extended layouts -/

theorem membersFrom_mem : ∀ {ds : List AttrDef} {o : Nat} {m : Member}, m ∈ membersFrom o ds →
    m.definition ∈ ds ∧ o ≤ m.offset ∧ m.offset + m.size ≤ o + bytesOf ds
  | [], _, _, h => by cases h
  | d :: ds, o, m, h => by
    unfold bytesOf
    rw [List.map_cons, List.sum_cons]
    rcases List.mem_cons.1 h with rfl | h
    · exact ⟨List.mem_cons_self, Nat.le_refl _, by show o + d.size ≤ _; omega⟩
    · obtain ⟨h1, h2, h3⟩ := membersFrom_mem h
      unfold bytesOf at h3
      exact ⟨List.mem_cons_of_mem _ h1, by omega, by omega⟩

theorem membersFrom_apart : ∀ (ds : List AttrDef) (o : Nat), (membersFrom o ds).Pairwise
    fun a b => a.offset + a.size ≤ b.offset ∨ b.offset + b.size ≤ a.offset
  | [], _ => .nil
  | d :: ds, o => by
    refine .cons ?_ (membersFrom_apart ds _)
    intro m hm
    exact .inl (membersFrom_mem hm).2.1

theorem extend_names (l : PointLayout) (ds : List AttrDef) :
    (extendWith l ds).attributes.map Member.name = l.attributes.map Member.name ++ ds.map AttrDef.name := by
  unfold extendWith
  dsimp only
  rw [List.map_append, membersFrom_names]

theorem extend_solid {l : PointLayout} (hl : Solid l) {ds : List AttrDef} (hp : ∀ d ∈ ds, 0 < d.size)
    (hn : (l.attributes.map Member.name ++ ds.map AttrDef.name).Nodup) : Solid (extendWith l ds) where
  nonempty := by
    intro h
    exact hl.nonempty (List.append_eq_nil_iff.1 h).1
  names := by rw [extend_names]; exact hn
  positive := by
    intro m hm
    rcases List.mem_append.1 hm with h | h
    · exact hl.positive m h
    · exact hp _ (membersFrom_mem h).1
  inside := by
    intro m hm
    show _ ≤ l.size + bytesOf ds
    rcases List.mem_append.1 hm with h | h
    · have := hl.inside m h; omega
    · exact (membersFrom_mem h).2.2
  apart := by
    refine List.pairwise_append.2 ⟨hl.apart, membersFrom_apart ds _, ?_⟩
    intro a ha b hb
    have := hl.inside a ha
    have := (membersFrom_mem hb).2.1
    exact .inl (by omega)

/-- Looking for a name that is not one of the extra attributes. -/
theorem extend_find {l : PointLayout} {ds : List AttrDef} {name : String} (h : name ∉ ds.map AttrDef.name) :
    (extendWith l ds).attributes.find? (fun m => m.name = name) = l.attributes.find? fun m => m.name = name := by
  unfold extendWith
  dsimp only
  rw [List.find?_append]
  have : (membersFrom l.size ds).find? (fun m => decide (m.name = name)) = none := by
    rw [List.find?_eq_none]
    intro m hm hc
    have hc := of_decide_eq_true hc
    exact h (List.mem_map.2 ⟨m.definition, (membersFrom_mem hm).1, hc⟩)
  rw [this, Option.or_none]

theorem membersFrom_find : ∀ {ds : List AttrDef} (o : Nat) {d : AttrDef}, (ds.map AttrDef.name).Nodup → d ∈ ds →
    ∃ m, (membersFrom o ds).find? (fun m => m.name = d.name) = some m ∧ m.definition = d
  | e :: ds, o, d, hn, h => by
    rw [List.map_cons, List.nodup_cons] at hn
    unfold membersFrom
    by_cases he : e.name = d.name
    · rcases List.mem_cons.1 h with rfl | h
      · exact ⟨⟨d, o⟩, by rw [List.find?_cons_of_pos (by simp [Member.name])], rfl⟩
      · exact absurd (List.mem_map.2 ⟨d, h, he.symm⟩) hn.1
    · rcases List.mem_cons.1 h with rfl | h
      · exact absurd rfl he
      · obtain ⟨m, h1, h2⟩ := membersFrom_find (o + e.size) hn.2 h
        refine ⟨m, ?_, h2⟩
        rw [List.find?_cons_of_neg (by simp [Member.name, he])]
        exact h1

/-- Looking for the name of an extra attribute. -/
theorem extend_find_extra {l : PointLayout} {ds : List AttrDef}
    (hn : (l.attributes.map Member.name ++ ds.map AttrDef.name).Nodup) {d : AttrDef} (h : d ∈ ds) :
    ∃ m, (extendWith l ds).attributes.find? (fun m => m.name = d.name) = some m ∧ m.definition = d := by
  obtain ⟨_, n2, n3⟩ := List.nodup_append.1 hn
  obtain ⟨m, h1, h2⟩ := membersFrom_find l.size n2 h
  refine ⟨m, ?_, h2⟩
  unfold extendWith
  dsimp only
  rw [List.find?_append, h1]
  have : l.attributes.find? (fun m => decide (m.name = d.name)) = none := by
    rw [List.find?_eq_none]
    intro x hx hc
    exact n3 _ (List.mem_map.2 ⟨x, hx, rfl⟩) _ (List.mem_map.2 ⟨d, h, rfl⟩) (of_decide_eq_true hc)
  rw [this, Option.none_or]

theorem extend_definitions (l : PointLayout) (ds : List AttrDef) :
    (extendWith l ds).attributes.map Member.definition = l.attributes.map Member.definition ++ ds := by
  unfold extendWith
  dsimp only
  rw [List.map_append]
  congr 1
  generalize l.size = o
  induction ds generalizing o with
  | nil => rfl
  | cons d ds ih => rw [membersFrom, List.map_cons, ih]

theorem membersFrom_values (rec : Bytes) : ∀ (ds : List AttrDef) (o : Nat),
    (membersFrom o ds).map (fun m => (m.definition, window rec m.offset m.size)) = valuesFrom o ds rec
  | [], _ => rfl
  | d :: ds, o => by
    rw [membersFrom, List.map_cons, membersFrom_values rec ds, valuesFrom]
    rfl

theorem window_take {rec : Bytes} {o s k : Nat} (h : o + s ≤ k) : window (rec.take k) o s = window rec o s := by
  unfold window
  rw [List.drop_take, List.take_take, Nat.min_eq_left (by omega)]

/-- A record with extra bytes. -/
theorem pointOf_extend {l : PointLayout} (hl : Solid l) (ds : List AttrDef) (rec : Bytes) :
    pointOf (extendWith l ds) rec = pointOf l (rec.take l.size) ++ valuesFrom l.size ds rec := by
  unfold pointOf extendWith
  dsimp only
  rw [List.map_append, membersFrom_values]
  congr 1
  apply List.map_congr_left
  intro m hm
  rw [window_take (hl.inside m hm)]

theorem valuesFrom_get (rec : Bytes) : ∀ {ds : List AttrDef} {o : Nat} {d : AttrDef}, d.name ∉ ds.map AttrDef.name →
    (valuesFrom o ds rec).lookup d = none
  | [], _, _, _ => rfl
  | e :: ds, o, d, h => by
    rw [List.map_cons, List.mem_cons, not_or] at h
    rw [valuesFrom, List.lookup_cons, beq_eq_false_iff_ne.2 (fun he => h.1 (congrArg AttrDef.name he))]
    exact valuesFrom_get rec h.2

/-! ## Calls and plans -/

theorem customise_extend {target : PointLayout} {ds : List AttrDef} {name : String} (h : name ∉ ds.map AttrDef.name)
    (call : AttrDef → List MappingCall) : customise (extendWith target ds) name call = customise target name call := by
  unfold customise
  rw [extend_find h]

/-- The names of the extra attributes do not disturb how a reader fills the other attributes. -/
structure Undisturbed (raw target : PointLayout) (ds : List AttrDef) : Prop where
  rawNames : (raw.attributes.map Member.name ++ ds.map AttrDef.name).Nodup
  targetNames : (target.attributes.map Member.name ++ ds.map AttrDef.name).Nodup
  position : "Position3D" ∉ ds.map AttrDef.name
  flags : "LASBasicFlags" ∉ ds.map AttrDef.name
  basic : basicFlags ∈ raw.attributes.map Member.definition → ∀ fd ∈ packedBasic, fd.1 ∉ ds.map AttrDef.name
  extended : basicFlags ∉ raw.attributes.map Member.definition → ∀ fd ∈ packedExtended, fd.1 ∉ ds.map AttrDef.name

theorem lasCalls_extend {raw target : PointLayout} {ds : List AttrDef} (h : Undisturbed raw target ds) (t : Transforms) :
    lasCalls (extendWith raw ds) (extendWith target ds) t = lasCalls raw target t := by
  unfold lasCalls
  rw [customise_extend h.position]
  congr 1
  have hb : basicFlags ∈ (extendWith raw ds).attributes.map Member.definition ↔
      basicFlags ∈ raw.attributes.map Member.definition := by
    rw [extend_definitions, List.mem_append]
    refine ⟨fun hc => hc.resolve_right fun hc => h.flags (List.mem_map.2 ⟨_, hc, rfl⟩), .inl⟩
  by_cases hc : basicFlags ∈ raw.attributes.map Member.definition
  · rw [if_pos (hb.2 hc), if_pos hc]
    apply List.flatMap_congr
    rintro ⟨name, shift, width⟩ hm
    exact customise_extend (h.basic hc _ hm) _
  · rw [if_neg (fun x => hc (hb.1 x)), if_neg hc]
    apply List.flatMap_congr
    rintro ⟨name, shift, width⟩ hm
    exact customise_extend (h.extended hc _ hm) _

theorem allowed_extend {raw target : PointLayout} {ds : List AttrDef} {c : MappingCall} (h : c.allowed raw target) :
    c.allowed (extendWith raw ds) (extendWith target ds) := by
  obtain ⟨h1, h2, h3⟩ := h
  refine ⟨?_, ?_, h3⟩
  · rw [extend_definitions]; exact List.mem_append_left _ h1
  · rw [extend_definitions]; exact List.mem_append_left _ h2

theorem defaultPlan_extend {raw : PointLayout} {ds : List AttrDef} {d : AttrDef} (h : d.name ∉ ds.map AttrDef.name) :
    defaultPlan (extendWith raw ds) d = defaultPlan raw d := by
  unfold defaultPlan
  rw [extend_find h]

theorem defaultPlan_extra {raw : PointLayout} {ds : List AttrDef}
    (hn : (raw.attributes.map Member.name ++ ds.map AttrDef.name).Nodup) {d : AttrDef} (h : d ∈ ds) :
    defaultPlan (extendWith raw ds) d = some ⟨d, id⟩ := by
  obtain ⟨m, h1, h2⟩ := extend_find_extra hn h
  unfold defaultPlan
  rw [h1]
  subst h2
  show (conversion m.definition.datatype m.definition.datatype).map _ = _
  rw [conversion_same']
  rfl

theorem not_extra {l : PointLayout} {ds : List AttrDef} (hn : (l.attributes.map Member.name ++ ds.map AttrDef.name).Nodup)
    {m : Member} (hm : m ∈ l.attributes) : m.name ∉ ds.map AttrDef.name := by
  intro hc
  exact (List.nodup_append.1 hn).2.2 _ (List.mem_map.2 ⟨m, hm, rfl⟩) _ hc rfl

/-- Points with extra attributes can be read as they can without. -/
theorem readable_extend {raw target : PointLayout} {ds : List AttrDef} (h : Undisturbed raw target ds) {t : Transforms}
    (hr : Readable raw target t) : Readable (extendWith raw ds) (extendWith target ds) t := by
  obtain ⟨h1, h2, h3⟩ := hr
  refine ⟨?_, ?_, ?_⟩
  · intro m hm he
    rcases List.mem_append.1 hm with hm | hm
    · exact h1 m hm he
    · exact absurd (List.mem_map.2 ⟨m.definition, (membersFrom_mem hm).1, he⟩) h.position
  · intro m hm hname
    rcases List.mem_append.1 hm with hm | hm
    · have hne := not_extra h.targetNames hm
      rw [defaultPlan_extend hne]
      apply h2 m hm
      obtain ⟨x, hx, he⟩ := hname
      rcases List.mem_append.1 hx with hx | hx
      · exact ⟨x, hx, he⟩
      · exact absurd (List.mem_map.2 ⟨x.definition, (membersFrom_mem hx).1, he⟩) hne
    · rw [defaultPlan_extra h.rawNames (membersFrom_mem hm).1]
      rfl
  · rw [lasCalls_extend h]
    intro c hc
    exact allowed_extend (h3 c hc)

theorem fold_update (d : AttrDef) : ∀ (calls : List MappingCall) (p q : Plan), p d = q d →
    calls.foldl Plan.update p d = calls.foldl Plan.update q d
  | [], _, _, h => h
  | c :: calls, p, q, h => by
    rw [List.foldl_cons, List.foldl_cons]
    apply fold_update d calls
    unfold Plan.update
    rw [h]

theorem fold_other (d : AttrDef) : ∀ (calls : List MappingCall) (p : Plan), (∀ c ∈ calls, c.target ≠ d) →
    calls.foldl Plan.update p d = p d
  | [], _, _ => rfl
  | c :: calls, p, h => by
    rw [List.foldl_cons, fold_other d calls _ fun c hc => h c (List.mem_cons_of_mem _ hc)]
    unfold Plan.update
    rw [if_neg fun e => h c List.mem_cons_self e.symm]

theorem rule_source {c : MappingCall} {r : Rule} (h : c.rule = some r) : r.source = c.source := by
  unfold MappingCall.rule at h
  obtain ⟨f, _, rfl⟩ := Option.map_eq_some_iff.1 h
  cases c with
  | plain s t => rfl
  | transformed s t ty g b => cases b <;> rfl

theorem fold_source {S : AttrDef → Prop} (d : AttrDef) : ∀ (calls : List MappingCall) (p : Plan),
    (∀ c ∈ calls, S c.source) → (∀ r, p d = some r → S r.source) → ∀ r, calls.foldl Plan.update p d = some r → S r.source
  | [], _, _, h, r, hr => h r hr
  | c :: calls, p, hc, h, r, hr => by
    rw [List.foldl_cons] at hr
    refine fold_source d calls _ (fun c h => hc c (List.mem_cons_of_mem _ h)) ?_ r hr
    intro r' hr'
    unfold Plan.update at hr'
    split at hr'
    · rw [rule_source hr']; exact hc c List.mem_cons_self
    · exact h r' hr'

/-- The attribute a rule reads is one of the records. -/
theorem plan_source {raw target : PointLayout} {t : Transforms} (hr : Readable raw target t) {d : AttrDef} {r : Rule}
    (h : lasPlan raw target t d = some r) : r.source ∈ raw.attributes.map Member.definition := by
  refine fold_source d _ _ (fun c hc => (hr.2.2 c hc).1) ?_ r h
  intro r' hr'
  unfold defaultPlan at hr'
  cases hf : raw.attributes.find? (fun m => m.name = d.name) with
  | none => rw [hf] at hr'; cases hr'
  | some m =>
    rw [hf] at hr'
    obtain ⟨g, _, rfl⟩ := Option.map_eq_some_iff.1 hr'
    exact List.mem_map.2 ⟨m, List.mem_of_find?_eq_some hf, rfl⟩

theorem extend_ne {a b : PointLayout} (ds : List AttrDef) (h : a ≠ b) : extendWith a ds ≠ extendWith b ds := by
  intro he
  apply h
  obtain ⟨as, s, al⟩ := a
  obtain ⟨bs, s', al'⟩ := b
  unfold extendWith at he
  simp only [PointLayout.mk.injEq] at he ⊢
  obtain ⟨h1, h2, h3⟩ := he
  have hs : s = s' := by omega
  exact ⟨(List.append_inj' h1 (by rw [hs])).1, hs, h3⟩

theorem valuesFrom_self (rec : Bytes) : ∀ {ds : List AttrDef} (o : Nat), (ds.map AttrDef.name).Nodup →
    ∀ a ∈ valuesFrom o ds rec, a.1 ∈ ds ∧ (valuesFrom o ds rec).lookup a.1 = some a.2
  | [], _, _, _, h => by cases h
  | d :: ds, o, hn, a, h => by
    rw [List.map_cons, List.nodup_cons] at hn
    rw [valuesFrom] at h ⊢
    rcases List.mem_cons.1 h with rfl | h
    · exact ⟨List.mem_cons_self, by rw [List.lookup_cons, beq_self_eq_true]⟩
    · obtain ⟨h1, h2⟩ := valuesFrom_self rec (o + d.size) hn.2 a h
      refine ⟨List.mem_cons_of_mem _ h1, ?_⟩
      rw [List.lookup_cons, beq_eq_false_iff_ne.2]
      · exact h2
      · intro e
        exact hn.1 (List.mem_map.2 ⟨a.1, h1, congrArg AttrDef.name e⟩)

theorem zeros_extend (l : PointLayout) (ds : List AttrDef) :
    zeroPoint (extendWith l ds) = zeroPoint l ++ ds.map fun d => (d, List.replicate d.size 0) := by
  unfold zeroPoint extendWith
  dsimp only
  rw [List.map_append]
  congr 1
  generalize l.size = o
  induction ds generalizing o with
  | nil => rfl
  | cons d ds ih => rw [membersFrom, List.map_cons, ih]; rfl

theorem valuesFrom_map (rec : Bytes) : ∀ (ds : List AttrDef) (o : Nat), (valuesFrom o ds rec).map (·.1) = ds
  | [], _ => rfl
  | d :: ds, o => by rw [valuesFrom, List.map_cons, valuesFrom_map rec ds]

theorem map_lookup {vs : List (AttrDef × Bytes)} {g : AttrDef → AttrDef × Bytes} (h : ∀ a ∈ vs, g a.1 = a) :
    (vs.map (·.1)).map g = vs := by
  rw [List.map_map]
  conv => rhs; rw [← List.map_id vs]
  exact List.map_congr_left h

/-- A record with extra bytes, read into a fresh point of a layout with the extra attributes: the values of the record
    without the extra bytes, then the extra values. -/
theorem readPoint_extend {raw target : PointLayout} (hraw : Solid raw) {ds : List AttrDef} (t : Transforms)
    (hr : target = raw ∧ (raw.attributes.map Member.name ++ ds.map AttrDef.name).Nodup ∨
      target ≠ raw ∧ Readable raw target t ∧ Undisturbed raw target ds) (rec : Bytes) :
    readPoint (extendWith raw ds) (extendWith target ds) t rec (zeroPoint (extendWith target ds)) =
      readPoint raw target t (rec.take raw.size) (zeroPoint target) ++ valuesFrom raw.size ds rec := by
  rcases hr with ⟨rfl, hn⟩ | ⟨hne, hr, hu⟩
  · unfold readPoint
    rw [if_pos rfl, if_pos rfl, pointOf_extend hraw]
  · unfold readPoint
    rw [if_neg (extend_ne ds hne), if_neg hne, zeros_extend, pointOf_extend hraw]
    unfold Plan.apply
    rw [List.map_append]
    have hn2 := (List.nodup_append.1 hu.rawNames).2.1
    congr 1
    · apply List.map_congr_left
      rintro ⟨d, v⟩ hdv
      obtain ⟨m, hm, he⟩ := List.mem_map.1 hdv
      cases he
      clear hdv
      have hd := not_extra hu.targetNames hm
      have hplan : lasPlan (extendWith raw ds) (extendWith target ds) t m.definition = lasPlan raw target t m.definition := by
        unfold lasPlan planOf
        rw [lasCalls_extend hu]
        exact fold_update _ _ _ _ (defaultPlan_extend hd)
      simp only [hplan]
      cases hp : lasPlan raw target t m.definition with
      | none => rfl
      | some r =>
        have hs := plan_source hr hp
        obtain ⟨x, hx, he⟩ := List.mem_map.1 hs
        have hnone : (valuesFrom raw.size ds rec).lookup r.source = none := by
          apply valuesFrom_get
          rw [← he]
          exact not_extra hu.rawNames hx
        have hget : Point.get (pointOf raw (rec.take raw.size) ++ valuesFrom raw.size ds rec) r.source =
            Point.get (pointOf raw (rec.take raw.size)) r.source := by
          unfold Point.get
          rw [List.lookup_append, hnone, Option.or_none]
        simp only [hget]
    · rw [List.map_map]
      refine Eq.trans (congrArg (List.map _) (valuesFrom_map rec ds raw.size).symm) (map_lookup ?_)
      intro a ha
      obtain ⟨h1, h2⟩ := valuesFrom_self rec raw.size hn2 a ha
      have hplan : lasPlan (extendWith raw ds) (extendWith target ds) t a.1 = some ⟨a.1, id⟩ := by
        unfold lasPlan planOf
        rw [lasCalls_extend hu, fold_other, defaultPlan_extra hu.rawNames h1]
        intro c hc he
        obtain ⟨m, hm, hme⟩ := List.mem_map.1 (hr.2.2 c hc).2.1
        refine not_extra hu.targetNames hm (List.mem_map.2 ⟨a.1, h1, ?_⟩)
        rw [← he, ← hme]
        rfl
      have hnone : (pointOf raw (rec.take raw.size)).lookup a.1 = none := by
        have : ∀ ms : List Member, (∀ m ∈ ms, m.definition ≠ a.1) →
            (ms.map fun m => (m.definition, window (rec.take raw.size) m.offset m.size)).lookup a.1 = none := by
          intro ms
          induction ms with
          | nil => intro _; rfl
          | cons m ms ih =>
            intro h
            rw [List.map_cons, List.lookup_cons, beq_eq_false_iff_ne.2 (fun e => h m List.mem_cons_self e.symm)]
            exact ih fun m hm => h m (List.mem_cons_of_mem _ hm)
        apply this
        intro m hm he
        refine not_extra hu.rawNames hm (List.mem_map.2 ⟨a.1, h1, ?_⟩)
        rw [← he]
        rfl
      simp only [Function.comp, hplan]
      unfold Point.get
      rw [List.lookup_append, hnone, Option.none_or, h2]
      rfl

/-! ## The layouts of the formats -/

/-- The names of the formats' layouts, and what the flags are called. -/
theorem format_names (n : Nat) (hn : n ≤ 10) : ∃ f raw l, Format.new n = .ok f ∧
    pointLayoutFromMetadata ⟨f, none⟩ true = .ok raw ∧ pointLayoutFromMetadata ⟨f, none⟩ false = .ok l ∧
    raw.attributes.map Member.name = (lasItems n).map (·.1) ∧
    l.attributes.map Member.name = ((lasItems n).flatMap expandItem).map (·.1) ∧
    (raw.attributes.map Member.name).Nodup ∧ (l.attributes.map Member.name).Nodup ∧
    "Position3D" ∈ takenNames n ∧
    (basicFlags ∈ raw.attributes.map Member.definition → ∀ fd ∈ packedBasic, fd.1 ∈ takenNames n) ∧
    (basicFlags ∉ raw.attributes.map Member.definition → ∀ fd ∈ packedExtended, fd.1 ∈ takenNames n) := by
  have key : ∀ n : Fin 11, ∃ f raw l, Format.new n = .ok f ∧
    pointLayoutFromMetadata ⟨f, none⟩ true = .ok raw ∧ pointLayoutFromMetadata ⟨f, none⟩ false = .ok l ∧
    raw.attributes.map Member.name = (lasItems n).map (·.1) ∧
    l.attributes.map Member.name = ((lasItems n).flatMap expandItem).map (·.1) ∧
    (raw.attributes.map Member.name).Nodup ∧ (l.attributes.map Member.name).Nodup ∧
    "Position3D" ∈ takenNames n ∧
    (basicFlags ∈ raw.attributes.map Member.definition → ∀ fd ∈ packedBasic, fd.1 ∈ takenNames n) ∧
    (basicFlags ∉ raw.attributes.map Member.definition → ∀ fd ∈ packedExtended, fd.1 ∈ takenNames n) := by
    intro n
    match n with
    | 0 | 1 | 2 | 3 | 4 | 5 | 6 | 7 | 8 | 9 | 10 =>
      exact ⟨_, _, _, rfl, rfl, rfl, by decide +kernel, by decide +kernel, by decide +kernel, by decide +kernel,
        by decide +kernel, by decide +kernel, by decide +kernel⟩
  exact key ⟨n, by omega⟩

theorem undisturbed {n : Nat} (hn : n ≤ 10) {f : Format} {raw l : PointLayout} (hf : Format.new n = .ok f)
    (h1 : pointLayoutFromMetadata ⟨f, none⟩ true = .ok raw) (h2 : pointLayoutFromMetadata ⟨f, none⟩ false = .ok l)
    {ds : List AttrDef} (ho : OwnNames n ds) : Undisturbed raw l ds := by
  obtain ⟨f', raw', l', g1, g2, g3, g4, g5, g6, g7, g8, g9, g10⟩ := format_names n hn
  obtain rfl : f = f' := by rw [hf] at g1; cases g1; rfl
  obtain rfl : raw = raw' := by rw [h1] at g2; cases g2; rfl
  obtain rfl : l = l' := by rw [h2] at g3; cases g3; rfl
  obtain ⟨o1, o2⟩ := ho
  have own : ∀ name ∈ takenNames n, name ∉ ds.map AttrDef.name := by
    intro name hm hc
    obtain ⟨d, hd, rfl⟩ := List.mem_map.1 hc
    exact o2 d hd hm
  have nd : ∀ xs : List String, xs.Nodup → (∀ x ∈ xs, x ∈ takenNames n) → (xs ++ ds.map AttrDef.name).Nodup := by
    intro xs hx hsub
    refine List.nodup_append.2 ⟨hx, o1, ?_⟩
    intro a ha b hb he
    subst he
    exact own a (hsub a ha) hb
  refine ⟨nd _ g6 ?_, nd _ g7 ?_, own _ g8, own _ (by simp [takenNames]), fun h fd hfd => own _ (g9 h fd hfd),
    fun h fd hfd => own _ (g10 h fd hfd)⟩
  · intro x hx
    rw [g4] at hx
    unfold takenNames
    exact List.mem_append_left _ (List.mem_append_left _ hx)
  · intro x hx
    rw [g5] at hx
    unfold takenNames
    exact List.mem_append_left _ (List.mem_append_right _ hx)

end Pasture.Las
