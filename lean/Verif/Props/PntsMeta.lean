import Verif.Props.Malformed
import Verif.Props.Serde
import Verif.Spec.PntsMeta

/-!
# C96: what a PNTS reader tells about its file
-/

namespace Pasture.Props

open Spec Spec.Pnts Tiles3d Las PntsReader BorrowedBuffer

section
variable {J : JsonText} {file : Bytes}

/-! ## The entries -/

theorem asU64_iff (v : Json) (n : Nat) : v.asU64 = some n ↔ v = .int n := by
  cases v with
  | int z =>
    unfold Json.asU64
    by_cases hz : 0 ≤ z
    · simp only [if_pos hz, Option.some.injEq, Json.int.injEq]; omega
    · simp only [if_neg hz, Json.int.injEq]
      constructor
      · intro h; cases h
      · intro h; omega
  | _ => simp [Json.asU64]

theorem vec3_iff (xs : List Json) (p : P3 F64) : vec3OfJson xs = .ok p ↔ DescribesPoint (.array xs) p := by
  unfold DescribesPoint
  match xs with
  | [x, y, z] =>
    simp only [vec3OfJson, bind_iff, orErr_ok, asF64_iff, pure, Except.pure, Except.ok.injEq]
    constructor
    · rintro ⟨a, ha, b, hb, c, hc, rfl⟩
      exact ⟨x, y, z, rfl, ha, hb, hc⟩
    · rintro ⟨x', y', z', h, ha, hb, hc⟩
      cases h
      exact ⟨_, ha, _, hb, _, hc, rfl⟩
  | [] | [_] | [_, _] | _ :: _ :: _ :: _ :: _ => simp [vec3OfJson]

theorem vec3f32_iff (xs : List Json) (p : P3 F32) : vec3f32OfJson xs = .ok p ↔ DescribesSingle (.array xs) p := by
  unfold vec3f32OfJson DescribesSingle
  simp only [bind_iff, vec3_iff, pure, Except.pure, Except.ok.injEq]
  constructor
  · rintro ⟨q, h, rfl⟩; exact ⟨q, h, rfl⟩
  · rintro ⟨q, h, rfl⟩; exact ⟨q, h, rfl⟩

theorem byte_iff (n : Nat) (b : Byte) :
    (if n < 256 then (.ok (BitVec.ofNat 8 n) : Out Byte) else .error .err) = .ok b ↔ n = b.toNat := by
  by_cases h : n < 256
  · rw [if_pos h, Except.ok.injEq]
    constructor
    · rintro rfl
      rw [BitVec.toNat_ofNat, Nat.mod_eq_of_lt (by simpa using h)]
    · intro hn
      rw [hn, BitVec.ofNat_toNat, BitVec.setWidth_eq]
  · rw [if_neg h]
    constructor
    · intro h; cases h
    · rintro rfl
      exact absurd b.isLt (by simpa using h)

theorem vec4_iff (xs : List Json) (c : List Byte) : vec4OfJson xs = .ok c ↔ DescribesColor (.array xs) c := by
  unfold vec4OfJson DescribesColor
  simp only [bind_iff, mapM_forall₂, orErr_ok, asU64_iff, byte_iff, Json.array.injEq]
  constructor
  · rintro ⟨_, hl, ns, h1, h2⟩
    have hl : xs.length = 4 := by
      apply Decidable.byContradiction
      intro hn
      rw [decide_eq_true hn] at hl
      cases hl
    match xs, hl with
    | [x, y, z, w], _ =>
      rcases h1 with _ | ⟨rfl, h1⟩
      rcases h1 with _ | ⟨rfl, h1⟩
      rcases h1 with _ | ⟨rfl, h1⟩
      rcases h1 with _ | ⟨rfl, h1⟩
      cases h1
      rcases h2 with _ | ⟨rfl, h2⟩
      rcases h2 with _ | ⟨rfl, h2⟩
      rcases h2 with _ | ⟨rfl, h2⟩
      rcases h2 with _ | ⟨rfl, h2⟩
      cases h2
      exact ⟨_, _, _, _, rfl, rfl⟩
  · rintro ⟨r, g, b, a, rfl, rfl⟩
    exact ⟨(), rfl, [r.toNat, g.toNat, b.toNat, a.toNat],
      .cons rfl (.cons rfl (.cons rfl (.cons rfl .nil))), .cons rfl (.cons rfl (.cons rfl (.cons rfl .nil)))⟩

theorem reference_iff {es : List (String × Json)} :
    (∃ w, referenceOfJson es = .ok w) ↔ IsReference (.object es) := by
  unfold IsReference
  constructor
  · rintro ⟨w, h⟩
    obtain ⟨z, hz, _⟩ := reference_offset h
    refine ⟨es, rfl, ⟨z, hz⟩, ?_⟩
    unfold referenceOfJson at h
    obtain ⟨_, _, h⟩ := bind_iff.1 h
    split at h
    · exact .inl (by assumption)
    · exact .inr (.inl (by assumption))
    · exact .inr (.inr ⟨_, by assumption⟩)
    · cases h
  · rintro ⟨es', h, ⟨o, ho⟩, hc⟩
    cases h
    unfold referenceOfJson
    rw [ho]
    rcases hc with hc | hc | ⟨s, hc⟩ <;> rw [hc] <;> exact ⟨_, rfl⟩

theorem ofJson_object (es : List (String × Json)) : FeatureValue.ofJson (.object es) =
    if (es.lookup "byteOffset").isSome then referenceOfJson es else .ok (.single (.object es)) := rfl

theorem value_iff (v : Json) : (∃ w, FeatureValue.ofJson v = .ok w) ↔ IsEntry v := by
  unfold IsEntry
  cases v with
  | object es =>
    rw [ofJson_object]
    cases hb : es.lookup "byteOffset" with
    | none =>
      simp only [Option.isSome_none, Bool.false_eq_true, if_false]
      constructor
      · rintro _ es' h hn
        cases h
        exact absurd hb hn
      · intro _; exact ⟨_, rfl⟩
    | some o =>
      simp only [Option.isSome_some, if_true]
      rw [reference_iff]
      constructor
      · intro h _ _ _; exact h
      · intro h; exact h es rfl (by rw [hb]; simp)
  | _ =>
    constructor
    · intro _ _ h; cases h
    · intro _; exact ⟨_, rfl⟩

/-- References are read as such, and nothing else is. -/
theorem value_reference {v : Json} {w : FeatureValue} (h : FeatureValue.ofJson v = .ok w) :
    (∃ o c, w = .reference o c) ↔ IsReference v := by
  cases v with
  | object es =>
    rw [ofJson_object] at h
    cases hb : es.lookup "byteOffset" with
    | none =>
      rw [hb] at h
      cases h
      constructor
      · rintro ⟨_, _, h⟩; cases h
      · rintro ⟨es', h, ⟨o, ho⟩, _⟩
        cases h
        rw [hb] at ho
        cases ho
    | some o =>
      rw [hb] at h
      simp only [Option.isSome_some, if_true] at h
      constructor
      · intro _; exact reference_iff.1 ⟨w, h⟩
      · intro _
        obtain ⟨z, _, c, hc⟩ := reference_offset h
        exact ⟨z, c, hc⟩
  | _ =>
    cases h
    constructor
    · rintro ⟨_, _, h⟩; cases h
    · rintro ⟨_, h, _⟩; cases h

/-- The table of the reader is the one in the file. -/
def ReadAs (es : List (String × Json)) (t : FeatureTable) : Prop :=
  (es.mapM fun (k, v) => do
      let v ← FeatureValue.ofJson v
      pure (k, v)) = .ok t

theorem entries_iff (es : List (String × Json)) : (∃ t, ReadAs es t) ↔ ∀ e ∈ es, IsEntry e.2 := by
  unfold ReadAs
  induction es with
  | nil => exact ⟨fun _ e he => absurd he List.not_mem_nil, fun _ => ⟨[], rfl⟩⟩
  | cons e es ih =>
    rw [List.mapM_cons]
    constructor
    · rintro ⟨t, h⟩
      obtain ⟨kw, h1, h2⟩ := bind_iff.1 h
      obtain ⟨w, h3, _⟩ := bind_iff.1 h1
      obtain ⟨t', h4, _⟩ := bind_iff.1 h2
      intro x hx
      rcases List.mem_cons.1 hx with rfl | hx
      · exact (value_iff _).1 ⟨w, h3⟩
      · exact ih.1 ⟨t', h4⟩ x hx
    · intro h
      obtain ⟨w, hw⟩ := (value_iff e.2).2 (h e (by simp))
      obtain ⟨t, ht⟩ := ih.2 (fun x hx => h x (by simp [hx]))
      refine ⟨(e.1, w) :: t, ?_⟩
      rw [ht]
      simp only [hw, bind, Except.bind, pure, Except.pure]

theorem array_iff {α : Type} {t : FeatureTable} {f : List Json → Out α} {P : Json → α → Prop}
    (hf : ∀ xs a, f xs = .ok a ↔ P (.array xs) a) (hP : ∀ v a, P v a → ∃ xs, v = .array xs)
    {es : List (String × Json)} (ht : ReadAs es t) (key : String) (x : Option α) :
    arrayEntry t key f = .ok x ↔ Told P (es.lookup key) x := by
  unfold arrayEntry Told
  rcases entries_lookup ht key with ⟨h1, h2⟩ | ⟨v, w, h1, h2, h3⟩
  · simp [h1, h2, pure, Except.pure, eq_comm]
  · rw [h1, h3]
    by_cases hv : ∃ xs, v = .array xs
    · obtain ⟨xs, rfl⟩ := hv
      cases h2
      simp only [bind_iff, hf, pure, Except.pure, Except.ok.injEq]
      constructor
      · rintro ⟨a, h, rfl⟩; exact .inr ⟨_, a, rfl, rfl, h⟩
      · rintro (⟨h, _⟩ | ⟨j, a, h, rfl, hp⟩)
        · cases h
        · cases h; exact ⟨a, hp, rfl⟩
    · have hr : ¬ Told P (some v) x := by
        rintro (⟨h, _⟩ | ⟨j, a, h, _, hp⟩)
        · cases h
        · cases h; exact hv (hP _ _ hp)
      constructor
      · intro h
        exfalso
        cases w with
        | array vs =>
          cases v with
          | array xs => exact hv ⟨xs, rfl⟩
          | object es' =>
            rw [ofJson_object] at h2
            split at h2
            · obtain ⟨_, _, c, hc⟩ := reference_offset h2
              cases hc
            · cases h2
          | _ => cases h2
        | _ => cases h
      · intro h; exact absurd h hr

theorem integer_iff {t : FeatureTable} {es : List (String × Json)} (ht : ReadAs es t) (key : String) (x : Option Nat) :
    integerEntry t key = .ok x ↔ Told DescribesCount (es.lookup key) x := by
  unfold integerEntry Told DescribesCount
  rcases entries_lookup ht key with ⟨h1, h2⟩ | ⟨v, w, h1, h2, h3⟩
  · simp [h1, h2, pure, Except.pure, eq_comm]
  · rw [h1, h3]
    have hint : ∀ n : Nat, v = .int n → w = .single (.int n) := by
      rintro n rfl
      cases h2
      rfl
    constructor
    · intro h
      cases w with
      | single u =>
        obtain ⟨n, hn, hx⟩ := bind_iff.1 h
        rw [orErr_ok, asU64_iff] at hn
        cases hx
        refine .inr ⟨v, n, rfl, rfl, ?_⟩
        rw [← hn]
        unfold FeatureValue.ofJson at h2
        split at h2
        · cases h2
        · split at h2
          · obtain ⟨_, _, c, hc⟩ := reference_offset h2
            cases hc
          · cases h2; rfl
        · cases h2; rfl
      | _ => cases h
    · rintro (⟨h, _⟩ | ⟨j, n, h, rfl, hj⟩)
      · cases h
      · cases h
        rw [hint n hj]
        show (orErr (Json.asU64 (.int n)) >>= fun n => pure (some n)) = _
        rw [(asU64_iff (.int n) n).2 rfl]
        rfl

theorem metadata_iff {t : FeatureTable} {es : List (String × Json)} (ht : ReadAs es t) (he : tableOf J file = some es)
    (md : PntsMetadata) : metadataFromFeatureTable t = .ok md ↔ TellsMetadata J file md := by
  have hent : ∀ key, entry J file key = es.lookup key := by intro key; unfold entry; rw [he]; rfl
  have hsingle : ∀ v (p : P3 F32), DescribesSingle v p → ∃ xs, v = .array xs := by
    rintro v p ⟨q, ⟨x, y, z, rfl, _⟩, _⟩; exact ⟨_, rfl⟩
  have hpoint : ∀ v (p : P3 F64), DescribesPoint v p → ∃ xs, v = .array xs := by
    rintro v p ⟨x, y, z, rfl, _⟩; exact ⟨_, rfl⟩
  have hcolor : ∀ v (c : List Byte), DescribesColor v c → ∃ xs, v = .array xs := by
    rintro v c ⟨r, g, b, a, rfl, _⟩; exact ⟨_, rfl⟩
  unfold metadataFromFeatureTable
  simp only [bind_iff, orErr_ok, integer_iff ht, array_iff vec3_iff hpoint ht, array_iff vec3f32_iff hsingle ht,
    array_iff vec4_iff hcolor ht, pure, Except.pure, Except.ok.injEq, ← hent]
  constructor
  · rintro ⟨n, h1, n', rfl, c, h2, o, h3, s, h4, g, h5, b, h6, rfl⟩
    refine ⟨?_, h2, h3, h4, h5, h6⟩
    rcases h1 with ⟨_, h⟩ | ⟨j, a, h, h', hj⟩
    · cases h
    · cases h'
      rw [h]
      exact congrArg some hj
  · rintro ⟨h1, h2, h3, h4, h5, h6⟩
    exact ⟨_, .inr ⟨_, _, h1, rfl, rfl⟩, _, rfl, _, h2, _, h3, _, h4, _, h5, _, h6, rfl⟩

/-! ## Opening -/

/-- The reader of a file, from its parts. -/
theorem open_of {t : FeatureTable} {l : PointLayout} {offs : List (String × Nat)} {md : PntsMetadata}
    (h1 : 28 + field file 3 ≤ file.length) (h2 : window file 0 4 = magicBytes)
    (h3 : readFeatureTable J file 28 (field file 3) = .ok t) (h4 : layoutFromFeatureTable t = .ok (l, offs))
    (h5 : metadataFromFeatureTable t = .ok md) : ∃ r, fromRead J file = .ok r ∧ r.metadata = md := by
  unfold fromRead PntsHeader.read
  have hread : readAt file 0 headerLength = .ok (window file 0 28) := by
    unfold readAt headerLength
    rw [if_pos (by omega)]
    rfl
  have hw : ∀ o n, o + n ≤ 28 → ((window file 0 28).drop o).take n = window file o n := by
    intro o n ho
    unfold window
    rw [List.drop_zero, List.drop_take, List.take_take, Nat.min_eq_left (by omega)]
  have hf : leNat (((window file 0 28).drop 12).take 4) = field file 3 := by
    rw [hw 12 4 (by omega)]
    unfold field
    exact leNat_eq _
  have hm : (window file 0 28).take 4 = window file 0 4 := hw 0 4 (by omega)
  have hb : bailIf (decide (window file 0 4 ≠ magicBytes)) = .ok () := by
    rw [decide_eq_false (by simpa using h2)]; rfl
  rw [hread]
  simp only [bind, Except.bind, pure, Except.pure, hf, hm, hb, show headerLength = 28 from rfl, h3, h4, h5]
  exact ⟨_, rfl, rfl⟩

theorem table_of_entries {es : List (String × Json)} {t : FeatureTable} (hin : 28 + field file 3 ≤ file.length)
    (he : tableOf J file = some es) (ht : ReadAs es t) : readFeatureTable J file 28 (field file 3) = .ok t := by
  unfold readFeatureTable readJsonHeader readAt
  rw [if_pos hin]
  simp only [bind, Except.bind]
  rw [take_drop_window]
  unfold tableOf at he
  split at he
  · rename_i es' hj
    cases he
    rw [hj]
    exact ht
  · cases he

theorem references_iff {t : FeatureTable} {es : List (String × Json)} (ht : ReadAs es t) (he : tableOf J file = some es) :
    References t readAttributes ↔ ∀ s ∈ semantics, ∀ v, entry J file s.1 = some v → IsReference v := by
  have hent : ∀ key, entry J file key = es.lookup key := by intro key; unfold entry; rw [he]; rfl
  unfold References
  show (∀ a ∈ semantics, _) ↔ _
  refine forall₂_congr fun s _ => ?_
  rw [hent]
  rcases entries_lookup ht s.1 with ⟨h1, h2⟩ | ⟨v, w, h1, h2, h3⟩
  · simp [h1, h2]
  · rw [h1, h3]
    have := value_reference h2
    constructor
    · rintro (h | ⟨o, c, h⟩) v' hv'
      · cases h
      · cases h; cases hv'
        exact this.1 ⟨o, c, rfl⟩
    · intro h
      obtain ⟨o, c, rfl⟩ := this.2 (h v rfl)
      exact .inr ⟨o, c, rfl⟩

theorem fromRead_iff (md : PntsMetadata) :
    (∃ r, fromRead J file = .ok r ∧ r.metadata = md) ↔ ReadablePnts J file ∧ TellsMetadata J file md := by
  constructor
  · rintro ⟨r, h, rfl⟩
    obtain ⟨t, l, offs, h1, h2, h3, h4, h5, _⟩ := open_parts h
    obtain ⟨es, he, ht⟩ := table_entries h1 h3
    refine ⟨⟨h1, h2, ⟨es, he, (entries_iff es).1 ⟨t, ht⟩⟩, (references_iff ht he).1 ?_⟩, (metadata_iff ht he _).1 h5⟩
    apply Classical.byContradiction
    intro hn
    rw [layout_err hn] at h4
    cases h4
  · rintro ⟨⟨h1, h2, ⟨es, he, hes⟩, hc⟩, hmd⟩
    obtain ⟨t, ht⟩ := (entries_iff es).2 hes
    obtain ⟨l, hl, _⟩ := layoutFromTable ((references_iff ht he).2 hc)
    exact open_of h1 h2 (table_of_entries h1 he ht) hl ((metadata_iff ht he md).2 hmd)

/-- **C96, opening**: exactly the `.pnts` files of the specification whose attributes begin below 2⁶⁴ are opened, and the
    metadata are those in their table. -/
theorem C96_opens (J : JsonText) (file : Bytes) (md : PntsMetadata) :
    (∃ c, CheckedPnts.fromRead J file 0 = .ok c ∧ c.reader.metadata = md) ↔
      ReadablePnts J file ∧ Addressable J file ∧ TellsMetadata J file md := by
  rw [header_start]
  constructor
  · rintro ⟨c, h, rfl⟩
    cases hr : fromRead J file with
    | error e => rw [hr] at h; cases h
    | ok r =>
      rw [hr] at h
      have h : (if (r.attributeOffsets.all fun e => decide (e.2 < 2 ^ 64)) then (.ok ⟨r⟩ : Out CheckedPnts) else panicked) =
        .ok c := h
      split at h
      · rename_i hs
        cases h
        obtain ⟨h1, h2⟩ := (fromRead_iff r.metadata).1 ⟨r, hr, rfl⟩
        exact ⟨h1, (offsets_small (open_any hr)).1 hs, h2⟩
      · cases h
  · rintro ⟨h1, h2, h3⟩
    obtain ⟨r, hr, hm⟩ := (fromRead_iff md).2 ⟨h1, h3⟩
    refine ⟨⟨r⟩, ?_, hm⟩
    rw [hr]
    show (if _ then _ else _) = _
    rw [if_pos ((offsets_small (open_any hr)).2 h2)]

/-- **C96, refusals**: every other file is refused with an error, unless an attribute begins at 2⁶⁴ or later. -/
theorem C96_refuses (J : JsonText) (file : Bytes) (h : ¬ (ReadablePnts J file ∧ ∃ md, TellsMetadata J file md)) :
    CheckedPnts.fromRead J file 0 = .error .err := by
  rw [header_start]
  rcases returns_fromRead J file with ⟨r, hr⟩ | hr
  · obtain ⟨h1, h2⟩ := (fromRead_iff r.metadata).1 ⟨r, hr, rfl⟩
    exact absurd ⟨h1, _, h2⟩ h
  · rw [hr]; rfl

/-! ## The default layout -/

theorem layout_size {t : FeatureTable} {l : PointLayout} {offs : List (String × Nat)}
    (h : layoutFromFeatureTable t = .ok (l, offs)) :
    l.size = ((presentIn t readAttributes).map fun e => e.1.size).sum ∧
      l.attributes = membersFrom 0 ((presentIn t readAttributes).map Prod.fst) := by
  have ht : References t readAttributes := by
    apply Classical.byContradiction
    intro hn
    rw [layout_err hn] at h
    cases h
  have hnames : (readAttributes.map fun a => a.2.name).Nodup := by decide
  have htab : ∀ a ∈ readAttributes, 1 ≤ a.2.datatype.minAlignment ∧ a.2.size ≤ 24 := by decide
  have hmem : ∀ e ∈ presentIn t readAttributes, ∃ a ∈ readAttributes, a.2 = e.1 := by
    intro e he
    obtain ⟨a, ha, h⟩ := List.mem_filterMap.1 he
    split at h
    · cases h; exact ⟨a, ha, rfl⟩
    · cases h
  have hlen : (presentIn t readAttributes).length ≤ 4 := List.length_filterMap_le _ _
  have hsum : ∀ es : List (AttrDef × Nat), (∀ e ∈ es, e.1.size ≤ 24) →
      ((es.map Prod.fst).map AttrDef.size).sum ≤ 24 * es.length := by
    intro es
    induction es with
    | nil => intro _; simp
    | cons e es ih =>
      intro h
      have := ih (fun e he => h e (by simp [he]))
      have := h e (by simp)
      simp only [List.map_cons, List.sum_cons, List.length_cons]
      omega
  have hs := hsum (presentIn t readAttributes) (by
    intro e he
    obtain ⟨a, ha, h⟩ := hmem e he
    rw [← h]; exact (htab a ha).2)
  obtain ⟨l', h1, _, h3, h4⟩ := addPacked_tight (l := PointLayout.default) ⟨rfl, rfl⟩
    ((presentIn t readAttributes).map Prod.fst) (by
      intro d hd
      obtain ⟨e, he, rfl⟩ := List.mem_map.1 hd
      obtain ⟨a, ha, h⟩ := hmem e he
      rw [← h]; exact (htab a ha).1) (by
      rw [List.map_map]
      exact (present_names t _).nodup hnames) (by
      show 0 + _ + 1 ≤ _
      omega)
  have hloop : forLoop (presentIn t readAttributes) PointLayout.default (fun l e => l.addAttribute e.1 (.packed 1)) =
      .ok l' := by
    rw [← h1]
    unfold addPacked forLoop
    rw [List.foldlM_map]
  have := layout_loop readAttributes PointLayout.default l' [] ht hnames (by simp) hloop
  unfold layoutFromFeatureTable at h
  rw [h] at this
  cases this
  refine ⟨?_, h4⟩
  rw [h3, List.map_map]
  exact Nat.zero_add _

theorem membersFrom_offset : ∀ (ds : List AttrDef) (o k : Nat) (m : Member), (membersFrom o ds)[k]? = some m →
    m.offset = o + ((ds.take k).map AttrDef.size).sum := by
  intro ds
  induction ds with
  | nil => intro o k m h; cases h
  | cons d ds ih =>
    intro o k m h
    cases k with
    | zero => cases h; simp
    | succ k =>
      rw [ih _ _ _ h, List.take_succ_cons, List.map_cons, List.sum_cons]
      omega

theorem membersFrom_definitions : ∀ (ds : List AttrDef) (o : Nat), (membersFrom o ds).map Member.definition = ds := by
  intro ds
  induction ds with
  | nil => intro o; rfl
  | cons d ds ih => intro o; simp only [membersFrom, List.map_cons, ih]

theorem column_of_reference {v : Json} {key : String} (he : entry J file key = some v) (hv : IsReference v) :
    (columnStart J file key).isSome := by
  obtain ⟨es, rfl, ⟨o, ho⟩, _⟩ := hv
  unfold columnStart
  unfold entry at he
  rw [he]
  dsimp only
  rw [ho]
  rfl

/-- **C96, the layout**: the default layout of a reader has the attributes that are stored in the file, in the order of the
    specification, one directly behind the other. -/
theorem C96_layout {c : CheckedPnts} (h : CheckedPnts.fromRead J file 0 = .ok c) :
    c.reader.layout.attributes.map Member.definition = fileAttributes J file ∧
      (∀ k m, c.reader.layout.attributes[k]? = some m → m.offset = (((fileAttributes J file).take k).map AttrDef.size).sum) ∧
      c.reader.layout.size = ((fileAttributes J file).map AttrDef.size).sum := by
  obtain ⟨hp, _, _⟩ := (C96_opens J file c.reader.metadata).1 ⟨c, h, rfl⟩
  rw [header_start] at h
  cases hr : fromRead J file with
  | error e => rw [hr] at h; cases h
  | ok r =>
    rw [hr] at h
    have h : (if (r.attributeOffsets.all fun e => decide (e.2 < 2 ^ 64)) then (.ok ⟨r⟩ : Out CheckedPnts) else panicked) =
      .ok c := h
    split at h
    case isFalse => cases h
    cases h
    have hdef : r.layout.attributes.map Member.definition = fileAttributes J file := by
      rw [(open_any hr).definitions]
      unfold fileAttributes
      rw [← List.filterMap_eq_filter, List.map_filterMap]
      apply List.filterMap_congr
      intro s hs
      cases he : entry J file s.1 with
      | none =>
        have : columnStart J file s.1 = none := by
          unfold columnStart
          unfold entry at he
          rw [he]
        rw [this]
        simp [Option.guard, he]
      | some v =>
        obtain ⟨o, ho⟩ := Option.isSome_iff_exists.1 (column_of_reference he (hp.columns s hs v he))
        rw [ho]
        simp [Option.guard, he]
    obtain ⟨t, l, offs, _, _, _, h4, _, _, h6, _⟩ := open_parts hr
    obtain ⟨h7, h8⟩ := layout_size h4
    have hds : (presentIn t readAttributes).map Prod.fst = fileAttributes J file := by
      rw [← hdef, h6, h8, membersFrom_definitions]
    refine ⟨hdef, ?_, ?_⟩
    · intro k m hm
      have hm : r.layout.attributes[k]? = some m := hm
      rw [h6, h8, hds] at hm
      rw [membersFrom_offset _ _ _ _ hm, Nat.zero_add]
    · show r.layout.size = _
      rw [h6, h7, ← hds, List.map_map]
      rfl

/-! ## The fields -/

theorem told_map {α : Type} {P : Json → α → Prop} {Q : Json → PntsField → Prop} {v : Option Json} {x : Option α}
    {f : α → PntsField} (h : Told P v x) (hq : ∀ j a, P j a → Q j (f a)) : Told Q v (x.map f) := by
  rcases h with ⟨rfl, rfl⟩ | ⟨j, a, rfl, rfl, h⟩
  · exact .inl ⟨rfl, rfl⟩
  · exact .inr ⟨j, f a, rfl, rfl, hq j a h⟩

/-- **C96, fields**: the metadata of a reader have the number of points, no bounds, and exactly the fields that are in the
    table of the file, with the values they have there. Missing is what fails: the number of batches of files that tell none
    (`C96_batch_length_violated`). -/
theorem C96_fields_partial {c : CheckedPnts} (h : CheckedPnts.fromRead J file 0 = .ok c) :
    (∃ n, c.reader.metadata.numberOfPoints = some n ∧ entry J file "POINTS_LENGTH" = some (.int n)) ∧
      c.reader.metadata.bounds = none ∧
      (∀ name ∈ fieldNames, (name = "BATCH_LENGTH" → entry J file name ≠ none) →
        Told (FieldTells name) (entry J file name) (c.reader.metadata.getNamedField name)) ∧
      ∀ name ∉ fieldNames, c.reader.metadata.getNamedField name = none := by
  obtain ⟨_, _, hm⟩ := (C96_opens J file c.reader.metadata).1 ⟨c, h, rfl⟩
  refine ⟨⟨_, rfl, hm.points⟩, rfl, ?_, ?_⟩
  · intro name hn hb
    simp only [fieldNames, List.mem_cons, List.not_mem_nil, or_false] at hn
    rcases hn with rfl | rfl | rfl | rfl | rfl
    · exact told_map hm.center fun j a ha => .inl ⟨rfl, a, rfl, ha⟩
    · exact told_map hm.offset fun j a ha => .inr (.inl ⟨.inl rfl, a, rfl, ha⟩)
    · exact told_map hm.scale fun j a ha => .inr (.inl ⟨.inr rfl, a, rfl, ha⟩)
    · exact told_map hm.color fun j a ha => .inr (.inr (.inl ⟨rfl, a, rfl, ha⟩))
    · rcases hm.batch with ⟨h1, _⟩ | ⟨j, a, h1, h2, h3⟩
      · exact absurd h1 (hb rfl)
      · refine .inr ⟨j, .length (some a), h1, ?_, .inr (.inr (.inr ⟨rfl, a, rfl, h3⟩))⟩
        show some (PntsField.length c.reader.metadata.batchLength) = _
        rw [h2]
  · intro name hn
    simp only [fieldNames, List.mem_cons, List.not_mem_nil, or_false, not_or] at hn
    obtain ⟨h1, h2, h3, h4, h5⟩ := hn
    unfold PntsMetadata.getNamedField
    rw [if_neg h1, if_neg h2, if_neg h3, if_neg h4, if_neg h5]

/-- **C96, the number of batches**: the claim is false for every file that does not tell one: its metadata have a field of
    that name nevertheless, which holds no number. -/
theorem C96_batch_length_violated :
    (∀ (J : JsonText) (file : Bytes) (c : CheckedPnts), CheckedPnts.fromRead J file 0 = .ok c →
      entry J file "BATCH_LENGTH" = none → c.reader.metadata.getNamedField "BATCH_LENGTH" = some (.length none)) ∧
    ∃ c, CheckedPnts.fromRead Codec.codec soundFile 0 = .ok c ∧ entry Codec.codec soundFile "BATCH_LENGTH" = none := by
  constructor
  · intro J file c h hb
    obtain ⟨_, _, hm⟩ := (C96_opens J file c.reader.metadata).1 ⟨c, h, rfl⟩
    rcases hm.batch with ⟨_, h2⟩ | ⟨j, a, h1, _⟩
    · show some (PntsField.length c.reader.metadata.batchLength) = _
      rw [h2]
    · rw [hb] at h1; cases h1
  · obtain ⟨c, hc, _⟩ := open_sound
    refine ⟨c, hc, ?_⟩
    unfold entry
    rw [show tableOf Codec.codec soundFile = _ from sound_window sound_read sound_field]
    rfl

/-- **C96, centers in the binary part**: the 3D Tiles specification allows global values in the binary part of the table. The
    claim is false for files that store their center there: they are refused. -/
theorem C96_center_violated (J : JsonText) (file : Bytes) {v : Json} (he : entry J file "RTC_CENTER" = some v)
    (hv : IsReference v) : CheckedPnts.fromRead J file 0 = .error .err := by
  refine C96_refuses J file ?_
  rintro ⟨_, md, hm⟩
  rcases hm.center with ⟨h, _⟩ | ⟨j, p, h, _, x, y, z, hj, _⟩
  · rw [he] at h; cases h
  · rw [he] at h
    cases h
    obtain ⟨es, rfl, _⟩ := hv
    cases hj

/-- **C96, quantized positions**: the format has two kinds of positions. The claim is false for files with the other one: they
    are opened (see the example below), but the layout of the reader has no positions. -/
theorem C96_quantized_violated {c : CheckedPnts} (h : CheckedPnts.fromRead J file 0 = .ok c)
    (_hq : ∃ v, entry J file "POSITION_QUANTIZED" = some v ∧ IsReference v) (hp : entry J file "POSITION" = none) :
    ∀ m ∈ c.reader.layout.attributes, m.name ≠ "Position3D" := by
  intro m hm
  have hd : m.definition ∈ fileAttributes J file := by
    rw [← (C96_layout h).1]
    exact List.mem_map_of_mem hm
  obtain ⟨s, hs, e⟩ := List.mem_map.1 hd
  obtain ⟨h1, h2⟩ := List.mem_filter.1 hs
  show m.definition.name ≠ _
  rw [← e]
  simp only [semantics, List.mem_cons, List.not_mem_nil, or_false] at h1
  rcases h1 with rfl | rfl | rfl | rfl
  · rw [hp] at h2; cases h2
  · decide
  · decide
  · decide

/-! ## The hypotheses can be met -/

/-- A table with all the values. -/
def richTable : Json :=
  .object [("POINTS_LENGTH", .int 2), ("RTC_CENTER", .array [.int 1, .int 2, .int 3]),
    ("CONSTANT_RGBA", .array [.int 255, .int 128, .int 0, .int 7]), ("BATCH_LENGTH", .int 1),
    ("QUANTIZED_VOLUME_SCALE", .array [.int 1, .int 1, .int 1]),
    ("NORMAL", .object [("byteOffset", .int 24)]),
    ("POSITION", .object [("byteOffset", .int 0), ("componentType", .null)]),
    ("extra", .object [("anything", .bool true)])]

/-- A reader of text that finds a given value everywhere. -/
def alwaysFinds (j : Json) : JsonText := ⟨fun _ => [], fun _ => some j⟩

/-- A header with a table of four bytes. -/
def shortFile : Bytes := PntsHeader.bytes ⟨magicBytes, 1, 32, 4, 0, 0, 0⟩ ++ [0x20#8, 0x20#8, 0x20#8, 0x20#8]

example : ∃ c, CheckedPnts.fromRead (alwaysFinds richTable) shortFile 0 = .ok c ∧
    c.reader.metadata.pointsLength = 2 ∧ c.reader.metadata.constantRgba = some [255, 128, 0, 7] ∧
    c.reader.metadata.batchLength = some 1 ∧ c.reader.metadata.rtcCenter.isSome ∧
    c.reader.layout.attributes.map Member.definition = [⟨"Position3D", .vec3f32⟩, ⟨"Normal", .vec3f32⟩] ∧
    c.reader.layout.size = 24 := ⟨_, rfl, rfl, rfl, rfl, rfl, rfl, rfl⟩

example : ∃ c, CheckedPnts.fromRead (alwaysFinds (.object [("POINTS_LENGTH", .int 2),
    ("POSITION_QUANTIZED", .object [("byteOffset", .int 0)])])) shortFile 0 = .ok c ∧
    c.reader.metadata.numberOfPoints = some 2 ∧ c.reader.layout.attributes = [] := ⟨_, rfl, rfl, rfl⟩

/-- The color of a file that is no color, and a center in the binary part. -/
example : CheckedPnts.fromRead (alwaysFinds (.object [("POINTS_LENGTH", .int 2),
    ("CONSTANT_RGBA", .array [.int 256, .int 128, .int 0, .int 7])])) shortFile 0 = .error .err := rfl

example : ∃ v, entry (alwaysFinds (.object [("POINTS_LENGTH", .int 2), ("RTC_CENTER", .object [("byteOffset", .int 0)])]))
    shortFile "RTC_CENTER" = some v ∧ IsReference v :=
  ⟨_, rfl, _, rfl, ⟨0, rfl⟩, .inl rfl⟩

end

end Pasture.Props
