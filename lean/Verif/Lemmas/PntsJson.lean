import Verif.Lemmas.PntsFile
import Verif.Props.LasExtraBytes
import Verif.Lemmas.Solid

/-!
# Lemmas on the reader of 3D Tiles point clouds: the feature table
-/

namespace Pasture.Tiles3d

open Spec Spec.Pnts Props Las

theorem lookup_of_mem {κ α : Type} [BEq κ] [LawfulBEq κ] {t : List (κ × α)} (hn : (t.map Prod.fst).Nodup) {k : κ} {v : α}
    (h : (k, v) ∈ t) : t.lookup k = some v := by
  induction t with
  | nil => cases h
  | cons e t ih =>
    obtain ⟨k', v'⟩ := e
    rw [List.map_cons, List.nodup_cons] at hn
    rcases List.mem_cons.1 h with h | h
    · cases h
      simp [List.lookup_cons]
    · have hne : k ≠ k' := fun hk => hn.1 (List.mem_map.2 ⟨_, h, hk⟩)
      rw [List.lookup_cons]
      have : (k == k') = false := by simpa using hne
      rw [this]
      exact ih hn.2 h

theorem mem_of_lookup {α : Type} {t : List (String × α)} {k : String} {v : α} (h : t.lookup k = some v) :
    (k, v) ∈ t := by
  induction t with
  | nil => cases h
  | cons e t ih =>
    obtain ⟨k', v'⟩ := e
    rw [List.lookup_cons] at h
    cases hk : k == k' with
    | true =>
      rw [hk] at h
      cases h
      rw [eq_of_beq hk]
      simp
    | false =>
      rw [hk] at h
      exact List.mem_cons_of_mem _ (ih h)

theorem lookup_perm {α : Type} {t t' : List (String × α)} (hp : t.Perm t') (hn : (t.map Prod.fst).Nodup) (k : String) :
    t.lookup k = t'.lookup k := by
  have hn' : (t'.map Prod.fst).Nodup := (hp.map _).nodup_iff.1 hn
  cases h : t.lookup k with
  | some v => exact (lookup_of_mem hn' (hp.mem_iff.1 (mem_of_lookup h))).symm
  | none =>
    cases h' : t'.lookup k with
    | none => rfl
    | some v =>
      rw [lookup_of_mem hn (hp.mem_iff.2 (mem_of_lookup h'))] at h
      cases h

theorem lookup_none {α : Type} {t : List (String × α)} {k : String} (h : k ∉ t.map Prod.fst) : t.lookup k = none := by
  cases h' : t.lookup k with
  | none => rfl
  | some v => exact absurd (List.mem_map.2 ⟨_, mem_of_lookup h', rfl⟩) h

theorem lookup_map_snd {α γ : Type} (g : α → γ) (t : List (String × α)) (k : String) :
    (t.map fun e => (e.1, g e.2)).lookup k = (t.lookup k).map g := by
  induction t with
  | nil => rfl
  | cons e t ih =>
    rw [List.map_cons, List.lookup_cons, List.lookup_cons]
    cases k == e.1 with
    | true => rfl
    | false => exact ih

theorem mapM_total {α γ : Type} {g : α → Out γ} {h : α → γ} : ∀ (xs : List α), (∀ x ∈ xs, g x = .ok (h x)) →
    xs.mapM g = .ok (xs.map h) := by
  intro xs
  induction xs with
  | nil => intro _; rfl
  | cons x xs ih =>
    intro hx
    rw [List.mapM_cons, hx x (by simp), ih (fun x hm => hx x (by simp [hm]))]
    rfl

/-- The value an entry is read as. -/
def entryOf (v : Json) : FeatureValue :=
  match FeatureValue.ofJson v with
  | .ok x => x
  | .error _ => .single v

theorem depthList_le {n : Nat} : ∀ (xs : List Json), (∀ x ∈ xs, depth x ≤ n) → depthList xs ≤ n
  | [], _ => by rw [depthList]; omega
  | x :: xs, h => by
    have h1 := h x (by simp)
    have h2 := depthList_le xs fun y hy => h y (by simp [hy])
    rw [depthList]
    exact Nat.max_le.2 ⟨h1, h2⟩

theorem depthEntries_le {n : Nat} : ∀ (es : List (String × Json)), (∀ e ∈ es, depth e.2 ≤ n) → depthEntries es ≤ n
  | [], _ => by rw [depthEntries]; omega
  | (k, x) :: es, h => by
    have h1 := h (k, x) (by simp)
    have h2 := depthEntries_le es fun y hy => h y (by simp [hy])
    rw [depthEntries]
    exact Nat.max_le.2 ⟨h1, h2⟩

theorem depth_ofF64 (x : F64) : depth (Json.ofF64 x) = 0 := by
  unfold Json.ofF64
  split <;> rw [depth] <;> simp

/-- The table read when these entries were written. -/
theorem readTable {J : JsonText} {f : F64 → F64} (hJ : Faithful J f) {data : Bytes} {pos size k : Nat}
    {entries : List (String × Json)} (hv : Valid (.object entries))
    (hd : depth (.object entries) ≤ 127) (hsize : pos + size ≤ data.length)
    (htext : window data pos size = J.toText (.object entries) ++ List.replicate k 0x20#8)
    (hok : ∀ key x y, entries.lookup key = some x → ReadsBack f x y → ∃ v, FeatureValue.ofJson y = .ok v) :
    ∃ t, readFeatureTable J data pos size = .ok t ∧
      (∀ key, entries.lookup key = none → t.lookup key = none) ∧
      (∀ key x, entries.lookup key = some x → ∃ y v, ReadsBack f x y ∧ FeatureValue.ofJson y = .ok v ∧
        t.lookup key = some v) := by
  obtain ⟨j, h1, h2⟩ := hJ _ k hv hd
  cases h2 with
  | object _ es' hn hdom hval =>
    have hent : ∀ e ∈ es', FeatureValue.ofJson e.2 = .ok (entryOf e.2) := by
      rintro ⟨key, y⟩ he
      have hl := lookup_of_mem hn he
      have hd := hdom key
      rw [hl] at hd
      obtain ⟨x, hx⟩ := Option.isSome_iff_exists.1 hd
      obtain ⟨v, hv⟩ := hok key x y hx (hval key x y hx hl)
      unfold entryOf
      rw [hv]
    refine ⟨es'.map fun e => (e.1, entryOf e.2), ?_, ?_, ?_⟩
    · unfold readFeatureTable readJsonHeader readAt
      rw [if_pos hsize]
      show ((orErr (J.fromText (window data pos size))).bind _) = _
      rw [htext, h1]
      show es'.mapM _ = _
      apply mapM_total
      rintro ⟨key, y⟩ he
      show (FeatureValue.ofJson y).bind _ = _
      rw [show FeatureValue.ofJson y = _ from hent _ he]
      rfl
    · intro key hk
      rw [lookup_map_snd]
      have := hdom key
      rw [hk] at this
      cases hl : es'.lookup key with
      | none => rfl
      | some y => rw [hl] at this; cases this
    · intro key x hx
      have hd := hdom key
      rw [hx] at hd
      obtain ⟨y, hy⟩ := Option.isSome_iff_exists.1 hd.symm
      refine ⟨y, entryOf y, hval key x y hx hy, hent _ (mem_of_lookup hy), ?_⟩
      rw [lookup_map_snd, hy]
      rfl

theorem readsBack_int {f : F64 → F64} {z : Int} {y : Json} (h : ReadsBack f (.int z) y) : y = .int z := by
  cases h; rfl

theorem readsBack_float {f : F64 → F64} {x : F64} {y : Json} (h : ReadsBack f (.float x) y) : y = .float (f x) := by
  cases h; rfl

theorem readsBack_three {f : F64 → F64} {a b c y : Json} (h : ReadsBack f (.array [a, b, c]) y) :
    ∃ a' b' c', y = .array [a', b', c'] ∧ ReadsBack f a a' ∧ ReadsBack f b b' ∧ ReadsBack f c c' := by
  cases h with
  | array _ ys hl he =>
    match ys, hl, he with
    | [a', b', c'], _, he =>
      exact ⟨a', b', c', rfl, he 0 _ _ rfl rfl, he 1 _ _ rfl rfl, he 2 _ _ rfl rfl⟩

theorem readsBack_reference {f : F64 → F64} {o : Nat} {y : Json}
    (h : ReadsBack f (.object [("byteOffset", .int o)]) y) : FeatureValue.ofJson y = .ok (.reference o none) := by
  cases h with
  | object _ es hn hd hv =>
    have h1 := hd "byteOffset"
    have h2 := hd "componentType"
    rw [show ([("byteOffset", Json.int o)] : List (String × Json)).lookup "byteOffset" = some (.int o) from rfl] at h1
    rw [show ([("byteOffset", Json.int o)] : List (String × Json)).lookup "componentType" = none from rfl] at h2
    obtain ⟨y, hy⟩ := Option.isSome_iff_exists.1 h1.symm
    have := readsBack_int (hv "byteOffset" _ _ rfl hy)
    subst this
    have hc : es.lookup "componentType" = none := by
      cases hc : es.lookup "componentType" with
      | none => rfl
      | some _ => rw [hc] at h2; cases h2
    simp only [FeatureValue.ofJson, hy, Option.isSome_some, if_true, referenceOfJson, hc, Option.bind_some, Json.asU64,
      Int.natCast_nonneg, orErr, bind, Except.bind, Int.toNat_natCast]
    rfl

/-! ## What the reader makes of the table -/

/-- The attributes of the table, with their offsets. -/
def presentIn (t : FeatureTable) (as : List (String × AttrDef)) : List (AttrDef × Nat) :=
  as.filterMap fun a => match t.lookup a.1 with
    | some (.reference o _) => some (a.2, o)
    | _ => none

theorem present_names (t : FeatureTable) (as : List (String × AttrDef)) :
    ((presentIn t as).map fun e => e.1.name).Sublist (as.map fun a => a.2.name) := by
  induction as with
  | nil => exact .slnil
  | cons a as ih =>
    unfold presentIn at ih ⊢
    rw [List.filterMap_cons]
    split
    · exact ih.cons _
    · rename_i e he
      split at he
      · cases he
        exact ih.cons_cons _
      · cases he

theorem layout_loop {t : FeatureTable} : ∀ (as : List (String × AttrDef)) (s l : PointLayout) (offs : List (String × Nat)),
    (∀ a ∈ as, t.lookup a.1 = none ∨ ∃ o c, t.lookup a.1 = some (.reference o c)) →
    (as.map fun a => a.2.name).Nodup → (∀ a ∈ as, a.2.name ∉ offs.map Prod.fst) →
    forLoop (presentIn t as) s (fun l e => l.addAttribute e.1 (.packed 1)) = .ok l →
    forLoop as (s, offs) (layoutStep t) =
      .ok (l, ((presentIn t as).map fun e => (e.1.name, e.2)).reverse ++ offs) := by
  intro as
  induction as with
  | nil => intro s l offs _ _ _ h; cases h; rfl
  | cons a as ih =>
    intro s l offs ht hn hf h
    rw [List.map_cons, List.nodup_cons] at hn
    rw [forLoop_cons]
    rcases ht a (by simp) with hl | ⟨o, c, hl⟩
    · have hp : presentIn t (a :: as) = presentIn t as := by
        unfold presentIn; rw [List.filterMap_cons]; simp only [hl]
      rw [hp] at h ⊢
      rw [show layoutStep t (s, offs) a = .ok (s, offs) by unfold layoutStep; rw [hl]; rfl]
      exact ih s l offs (fun a ha => ht a (by simp [ha])) hn.2 (fun a ha => hf a (by simp [ha])) h
    · have hp : presentIn t (a :: as) = (a.2, o) :: presentIn t as := by
        unfold presentIn; rw [List.filterMap_cons]; simp only [hl]
      rw [hp] at h ⊢
      rw [forLoop_cons] at h
      cases hadd : s.addAttribute a.2 (.packed 1) with
      | error e => rw [hadd] at h; cases h
      | ok s' =>
        rw [hadd] at h
        have step : layoutStep t (s, offs) a = .ok (s', (a.2.name, o) :: offs) := by
          unfold layoutStep
          rw [hl]
          show (s.addAttribute a.2 (.packed 1)).bind _ = _
          rw [hadd]
          show Except.ok (s', insertEntry offs a.2.name o) = _
          rw [insertEntry_new (hf a (by simp))]
        rw [step]
        refine (ih s' l _ (fun a ha => ht a (by simp [ha])) hn.2 ?_ h).trans ?_
        · intro a' ha' hin
          rw [List.map_cons, List.mem_cons] at hin
          rcases hin with hin | hin
          · exact hn.1 (List.mem_map.2 ⟨a', ha', hin⟩)
          · exact hf a' (by simp [ha']) hin
        · simp

/-- The layout of the reader. -/
theorem layoutFromTable {t : FeatureTable}
    (ht : ∀ a ∈ readAttributes, t.lookup a.1 = none ∨ ∃ o c, t.lookup a.1 = some (.reference o c)) :
    ∃ l, layoutFromFeatureTable t = .ok (l, ((presentIn t readAttributes).map fun e => (e.1.name, e.2)).reverse) ∧
      l.attributes.map Member.definition = (presentIn t readAttributes).map Prod.fst ∧
      (presentIn t readAttributes ≠ [] → Solid l) := by
  have hnames : (readAttributes.map fun a => a.2.name).Nodup := by decide
  have hmem : ∀ e ∈ presentIn t readAttributes, ∃ a ∈ readAttributes, a.2 = e.1 := by
    intro e he
    obtain ⟨a, ha, h⟩ := List.mem_filterMap.1 he
    split at h
    · cases h; exact ⟨a, ha, rfl⟩
    · cases h
  have htab : ∀ a ∈ readAttributes, 1 ≤ a.2.datatype.minAlignment ∧ 0 < a.2.size ∧ a.2.size ≤ 24 := by decide
  have hn : ((presentIn t readAttributes).map fun e => e.1.name).Nodup := (present_names t _).nodup hnames
  have hlen : (presentIn t readAttributes).length ≤ 4 := List.length_filterMap_le _ _
  have hsum : ∀ es : List (AttrDef × Nat), (∀ e ∈ es, e.1.size ≤ 24) →
      ((es.map Prod.fst).map AttrDef.size).sum ≤ 24 * es.length := by
    intro es
    induction es with
    | nil => intro _; simp
    | cons e es ih =>
      intro h
      have := ih (fun e he => h e (by simp [he]))
      have := h e (by simp)
      simp only [List.map_cons, List.sum_cons, List.length_cons]
      omega
  have hs := hsum (presentIn t readAttributes) (by
    intro e he
    obtain ⟨a, ha, h⟩ := hmem e he
    rw [← h]; exact (htab a ha).2.2)
  obtain ⟨l, h1, _, _, h4⟩ := addPacked_tight (l := PointLayout.default) ⟨rfl, rfl⟩
    ((presentIn t readAttributes).map Prod.fst) (by
      intro d hd
      obtain ⟨e, he, rfl⟩ := List.mem_map.1 hd
      obtain ⟨a, ha, h⟩ := hmem e he
      rw [← h]; exact (htab a ha).1) (by
      rw [List.map_map]
      exact hn) (by
      show 0 + _ + 1 ≤ _
      omega)
  have hloop : forLoop (presentIn t readAttributes) PointLayout.default (fun l e => l.addAttribute e.1 (.packed 1)) =
      .ok l := by
    rw [← h1]
    unfold addPacked forLoop
    rw [List.foldlM_map]
  refine ⟨l, ?_, ?_, ?_⟩
  · have := layout_loop readAttributes PointLayout.default l [] ht hnames (by simp) hloop
    rw [List.append_nil] at this
    exact this
  · rw [h4]
    have : ∀ (ds : List AttrDef) (o : Nat), (membersFrom o ds).map Member.definition = ds := by
      intro ds
      induction ds with
      | nil => intro o; rfl
      | cons d ds ih => intro o; simp only [membersFrom, List.map_cons, ih]
    rw [List.map_append, this]
    rfl
  · intro hne
    refine solid_of_history (calls := (presentIn t readAttributes).map fun e => (e.1, .packed 1)) (by simpa using hne)
      ?_ ?_
    · intro c hc
      obtain ⟨e, he, rfl⟩ := List.mem_map.1 hc
      obtain ⟨a, ha, h⟩ := hmem e he
      show 0 < e.1.size
      rw [← h]; exact (htab a ha).2.1
    · rw [← hloop]
      unfold forLoop
      rw [List.foldlM_map]

end Pasture.Tiles3d
