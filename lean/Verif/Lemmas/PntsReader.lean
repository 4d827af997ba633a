import Verif.Lemmas.PntsJson
import Verif.Props.LasReader
import Verif.Props.UntypedPoint

/-!
# Lemmas on the reader of 3D Tiles point clouds: opening a file, reading points
-/

namespace Pasture.Tiles3d

open Spec Spec.Pnts Props Las PntsReader BorrowedBuffer BorrowedMutBuffer OwningBuffer

/-! ## Opening -/

theorem take_drop_window (b : Bytes) (o n : Nat) : (b.drop o).take n = window b o n := rfl

theorem field_lt (file : Bytes) (k : Nat) (h : 4 * k + 4 ≤ file.length) : field file k < 2 ^ 32 := by
  unfold field
  rw [← leNat_eq]
  have h4 : (window file (4 * k) 4).length = 4 := length_window h
  have e := leNat_natLE 4 (leNat (window file (4 * k) 4))
  have := natLE_leNat (window file (4 * k) 4)
  rw [h4] at this
  rw [this] at e
  rw [e]
  exact Nat.mod_lt _ (by decide)

theorem header_read {J : JsonText} {file : Bytes} {n : Nat} {center : Option (P3 F64)} {parts : List Part}
    (h : IsPnts J file n center parts) :
    ∃ hd, PntsHeader.read file = .ok hd ∧ hd.magic = magicBytes ∧ hd.featureTableJson = field file 3 := by
  have hl := h.lengths
  unfold PntsHeader.read readAt headerLength
  rw [if_pos (by omega)]
  refine ⟨_, rfl, ?_, ?_⟩
  · show ((file.drop 0).take 28).take 4 = _
    rw [List.take_take]
    exact h.magic
  · show leNat ((((file.drop 0).take 28).drop 12).take 4) = _
    unfold field
    rw [leNat_eq]
    congr 1
    exact Ascii.window_window (b := file) (o := 0) (n := 28) (k := 12) (j := 4) (by omega)

theorem valid_ofF64 (x : F64) : Valid (Json.ofF64 x) := by
  unfold Json.ofF64
  split
  · exact .float x (by assumption)
  · exact .null

theorem centerEntry_valid (center : Option (P3 F64)) : ∀ e ∈ centerEntry center, Valid e.2 := by
  intro e he
  cases center with
  | none => cases he
  | some c =>
    simp only [centerEntry, List.mem_singleton] at he
    subst he
    refine .array _ ?_
    intro x hx
    simp only [List.mem_cons, List.not_mem_nil, or_false] at hx
    rcases hx with rfl | rfl | rfl <;> exact valid_ofF64 _

/-- Names of attributes in a file. -/
def KnownNames (parts : List Part) : Prop :=
  (parts.map Part.semantic).Nodup ∧ ∀ p ∈ parts, p.semantic ∈ ["POSITION", "RGBA", "RGB", "NORMAL"]

theorem table_keys {n : Nat} {center : Option (P3 F64)} {parts : List Part} (h : KnownNames parts) :
    ((tableEntries n center parts).map Prod.fst).Nodup := by
  have hp : (parts.map fun p => (p.semantic, Json.object [("byteOffset", .int p.offset)])).map Prod.fst =
      parts.map Part.semantic := by rw [List.map_map]; rfl
  have hnot : ∀ k, k ∉ ["POSITION", "RGBA", "RGB", "NORMAL"] → k ∉ parts.map Part.semantic := by
    intro k hk hin
    obtain ⟨p, hp, rfl⟩ := List.mem_map.1 hin
    exact hk (h.2 p hp)
  unfold tableEntries
  rw [List.map_append, List.map_cons, hp]
  cases center with
  | none =>
    simp only [centerEntry, List.map_nil, List.cons_append, List.nil_append, List.nodup_cons]
    exact ⟨hnot _ (by decide), h.1⟩
  | some c =>
    simp only [centerEntry, List.map_cons, List.map_nil, List.cons_append, List.nil_append, List.nodup_cons, List.mem_cons]
    refine ⟨?_, hnot _ (by decide), h.1⟩
    rintro (hc | hc)
    · exact absurd hc (by decide)
    · exact hnot _ (by decide) hc

theorem table_lookup_part {n : Nat} {center : Option (P3 F64)} {parts : List Part} (h : KnownNames parts) {p : Part}
    (hp : p ∈ parts) : (tableEntries n center parts).lookup p.semantic = some (.object [("byteOffset", .int p.offset)]) := by
  apply lookup_of_mem (table_keys h)
  unfold tableEntries
  apply List.mem_append_right
  exact List.mem_map.2 ⟨p, hp, rfl⟩

theorem table_lookup_count {n : Nat} {center : Option (P3 F64)} {parts : List Part} :
    (tableEntries n center parts).lookup "POINTS_LENGTH" = some (.int n) := rfl

theorem table_lookup_center {n : Nat} {c : P3 F64} {parts : List Part} :
    (tableEntries n (some c) parts).lookup "RTC_CENTER" =
      some (.array [Json.ofF64 c.x, Json.ofF64 c.y, Json.ofF64 c.z]) := rfl

theorem table_lookup_none {n : Nat} {center : Option (P3 F64)} {parts : List Part} {k : String}
    (h1 : k ≠ "POINTS_LENGTH") (h2 : k ≠ "RTC_CENTER" ∨ center = none) (h3 : k ∉ parts.map Part.semantic) :
    (tableEntries n center parts).lookup k = none := by
  apply lookup_none
  unfold tableEntries
  rw [List.map_append, List.map_cons, List.map_map, List.mem_append, List.mem_cons]
  rintro ((h | h) | h)
  · exact h1 h
  · cases center with
    | none => cases h
    | some c =>
      simp only [centerEntry, List.map_cons, List.map_nil, List.mem_singleton] at h
      rcases h2 with h2 | h2
      · exact h2 h
      · cases h2
  · exact h3 h

/-- What kinds of values are in the table. -/
theorem table_values {n : Nat} {center : Option (P3 F64)} {parts : List Part} {k : String} {x : Json}
    (h : (tableEntries n center parts).lookup k = some x) :
    (∃ z : Nat, x = .int z) ∨ (∃ a b c, x = .array [a, b, c]) ∨ ∃ o : Nat, x = .object [("byteOffset", .int o)] := by
  have hm := mem_of_lookup h
  unfold tableEntries at hm
  rcases List.mem_append.1 hm with hm | hm
  · rcases List.mem_cons.1 hm with hm | hm
    · cases hm; exact .inl ⟨n, rfl⟩
    · cases center with
      | none => cases hm
      | some c =>
        simp only [centerEntry, List.mem_singleton, Prod.mk.injEq] at hm
        exact .inr (.inl ⟨_, _, _, hm.2⟩)
  · obtain ⟨p, _, hp⟩ := List.mem_map.1 hm
    cases hp
    exact .inr (.inr ⟨_, rfl⟩)

/-- The table the reader sees. -/
structure TableRead (f : F64 → F64) (n : Nat) (center : Option (P3 F64)) (parts : List Part) (t : FeatureTable) : Prop where
  count : t.lookup "POINTS_LENGTH" = some (.single (.int n))
  part : ∀ p ∈ parts, t.lookup p.semantic = some (.reference p.offset none)
  absent : ∀ k, k ≠ "POINTS_LENGTH" → k ≠ "RTC_CENTER" ∨ center = none → k ∉ parts.map Part.semantic → t.lookup k = none
  center : ∀ c, center = some c → ∃ a b d, t.lookup "RTC_CENTER" = some (.array [a, b, d]) ∧
    ReadsBack f (Json.ofF64 c.x) a ∧ ReadsBack f (Json.ofF64 c.y) b ∧ ReadsBack f (Json.ofF64 c.z) d

theorem table_depth {n : Nat} {center : Option (P3 F64)} {parts : List Part} {e : String × Json}
    (he : e ∈ tableEntries n center parts) : depth e.2 = 0 ∨ depth e.2 = 1 := by
  unfold tableEntries at he
  rcases List.mem_append.1 he with he | he
  · rcases List.mem_cons.1 he with rfl | he
    · exact .inl (by rw [depth] <;> simp)
    · unfold centerEntry at he
      split at he
      · cases he
      · rw [List.mem_singleton] at he
        subst he
        right
        simp only [depth, depthList, depth_ofF64]
        rfl
  · obtain ⟨p, hp, rfl⟩ := List.mem_map.1 he
    right
    simp only [depth, depthEntries]
    rfl

theorem table_read {J : JsonText} {f : F64 → F64} (hJ : Faithful J f) {file : Bytes} {n : Nat} {center : Option (P3 F64)}
    {parts : List Part} (h : IsPnts J file n center parts) (hk : KnownNames parts) (hn : n < 2 ^ 64) :
    ∃ t, readFeatureTable J file headerLength (field file 3) = .ok t ∧ TableRead f n center parts t := by
  obtain ⟨entries, k, hperm, htext⟩ := h.table
  have hl := h.lengths
  have hkeys : (entries.map Prod.fst).Nodup := (hperm.map _).nodup_iff.2 (table_keys hk)
  have hf4 : field file 4 < 2 ^ 32 := field_lt _ _ (by omega)
  have hvalid : Valid (.object entries) := by
    refine .object _ hkeys ?_
    intro e he
    have he := hperm.mem_iff.1 he
    unfold tableEntries at he
    rcases List.mem_append.1 he with he | he
    · rcases List.mem_cons.1 he with rfl | he
      · exact .int _ (by omega) (by omega)
      · exact centerEntry_valid _ e he
    · obtain ⟨p, hp, rfl⟩ := List.mem_map.1 he
      have := h.inside p hp
      refine .object _ (by simp) ?_
      intro e he
      rw [List.mem_singleton] at he
      subst he
      exact .int _ (by omega) (by omega)
  have hlook : ∀ key, entries.lookup key = (tableEntries n center parts).lookup key := lookup_perm hperm hkeys
  have hdepth : depth (.object entries) ≤ 127 := by
    rw [depth]
    refine Nat.succ_le_succ (depthEntries_le (n := 126) _ ?_)
    intro e he
    rcases table_depth (hperm.mem_iff.1 he) with h | h <;> omega
  obtain ⟨t, h1, h2, h3⟩ := readTable hJ hvalid hdepth (pos := 28) (size := field file 3) (by omega) htext (by
    intro key x y hx hxy
    rw [hlook] at hx
    rcases table_values hx with ⟨z, rfl⟩ | ⟨a, b, c, rfl⟩ | ⟨o, rfl⟩
    · rw [readsBack_int hxy]; exact ⟨_, rfl⟩
    · obtain ⟨a', b', c', rfl, _⟩ := readsBack_three hxy; exact ⟨_, rfl⟩
    · exact ⟨_, readsBack_reference hxy⟩)
  refine ⟨t, h1, ?_, ?_, ?_, ?_⟩
  · obtain ⟨y, v, g1, g2, g3⟩ := h3 "POINTS_LENGTH" _ ((hlook _).trans table_lookup_count)
    rw [readsBack_int g1] at g2
    cases g2
    exact g3
  · intro p hp
    obtain ⟨y, v, g1, g2, g3⟩ := h3 p.semantic _ ((hlook _).trans (table_lookup_part hk hp))
    rw [readsBack_reference g1] at g2
    cases g2
    exact g3
  · intro k h1 h2' h3'
    exact h2 k ((hlook _).trans (table_lookup_none h1 h2' h3'))
  · rintro c rfl
    obtain ⟨y, v, g1, g2, g3⟩ := h3 "RTC_CENTER" _ ((hlook _).trans table_lookup_center)
    obtain ⟨a, b, d, rfl, r1, r2, r3⟩ := readsBack_three g1
    cases g2
    exact ⟨a, b, d, g3, r1, r2, r3⟩

theorem readsBack_ofF64 {f : F64 → F64} {x : F64} {a : Json} (h : ReadsBack f (Json.ofF64 x) a) :
    a.asF64 = if x.isFinite then some (f x) else none := by
  unfold Json.ofF64 at h
  split at h
  · rename_i hx
    rw [readsBack_float h, if_pos hx]
    rfl
  · rename_i hx
    rw [if_neg hx]
    cases h
    rfl

theorem center_read {f : F64 → F64} {n : Nat} {center : Option (P3 F64)} {parts : List Part} {t : FeatureTable}
    (h : TableRead f n center parts t) (hk : KnownNames parts) :
    arrayEntry t "RTC_CENTER" vec3OfJson = match center with
      | none => .ok none
      | some c => if FiniteCenter c then .ok (some (textCenter f c)) else .error .err := by
  cases center with
  | none =>
    unfold arrayEntry
    rw [h.absent "RTC_CENTER" (by decide) (.inr rfl) (by
      intro hin
      obtain ⟨p, hp, he⟩ := List.mem_map.1 hin
      exact absurd (he ▸ hk.2 p hp) (by decide))]
    rfl
  | some c =>
    obtain ⟨a, b, d, h1, h2, h3, h4⟩ := h.center c rfl
    have e1 := readsBack_ofF64 h2
    have e2 := readsBack_ofF64 h3
    have e3 := readsBack_ofF64 h4
    unfold arrayEntry
    simp only [h1, vec3OfJson, e1, e2, e3]
    unfold FiniteCenter
    by_cases hx : c.x.isFinite <;> by_cases hy : c.y.isFinite <;> by_cases hz : c.z.isFinite <;>
      simp [hx, hy, hz, orErr, bind, Except.bind, pure, Except.pure, textCenter]

theorem metadata_read {f : F64 → F64} {n : Nat} {center : Option (P3 F64)} {parts : List Part} {t : FeatureTable}
    (h : TableRead f n center parts t) (hk : KnownNames parts) :
    metadataFromFeatureTable t = match center with
      | none => .ok ⟨n, none, none, none, none, none⟩
      | some c => if FiniteCenter c then .ok ⟨n, some (textCenter f c), none, none, none, none⟩ else .error .err := by
  have hnone : ∀ k, k ∈ ["QUANTIZED_VOLUME_OFFSET", "QUANTIZED_VOLUME_SCALE", "CONSTANT_RGBA", "BATCH_LENGTH"] →
      t.lookup k = none := by
    intro k hk'
    apply h.absent k
    · rintro rfl; exact absurd hk' (by decide)
    · left; rintro rfl; exact absurd hk' (by decide)
    · intro hin
      obtain ⟨p, hp, rfl⟩ := List.mem_map.1 hin
      have := hk.2 p hp
      simp only [List.mem_cons, List.not_mem_nil, or_false] at this
      rcases this with e | e | e | e <;> rw [e] at hk' <;> exact absurd hk' (by decide)
  have hc := center_read h hk
  unfold metadataFromFeatureTable
  have h1 : integerEntry t "POINTS_LENGTH" = .ok (some n) := by
    unfold integerEntry
    simp only [h.count, Json.asU64, Int.natCast_nonneg, if_true, orErr, bind, Except.bind, Int.toNat_natCast]
    rfl
  have h2 : arrayEntry t "QUANTIZED_VOLUME_OFFSET" vec3f32OfJson = .ok none := by
    unfold arrayEntry; rw [hnone _ (by decide)]; rfl
  have h3 : arrayEntry t "QUANTIZED_VOLUME_SCALE" vec3f32OfJson = .ok none := by
    unfold arrayEntry; rw [hnone _ (by decide)]; rfl
  have h4 : arrayEntry t "CONSTANT_RGBA" vec4OfJson = .ok none := by
    unfold arrayEntry; rw [hnone _ (by decide)]; rfl
  have h5 : integerEntry t "BATCH_LENGTH" = .ok none := by
    unfold integerEntry; rw [hnone _ (by decide)]; rfl
  rw [h1, hc]
  cases center with
  | none => simp only [orErr, bind, Except.bind, h2, h3, h4, h5]; rfl
  | some c =>
    dsimp only
    by_cases hf : FiniteCenter c
    · rw [if_pos hf, if_pos hf]; simp only [orErr, bind, Except.bind, h2, h3, h4, h5]; rfl
    · rw [if_neg hf, if_neg hf]; rfl

/-! ## Columns -/

/-- All points have a value of the right size. -/
def HasValues (d : AttrDef) (ps : List Point) : Prop := ∀ p ∈ ps, ∃ v, p.get d = some v ∧ v.length = d.size

/-- The values. -/
def valuesOf (d : AttrDef) (ps : List Point) : List Bytes := ps.map fun p => (p.get d).getD []

theorem columnOf_values {d : AttrDef} : ∀ {ps : List Point}, HasValues d ps →
    columnOf d ps = (valuesOf d ps).flatten ∧ AllLen d.size (valuesOf d ps) := by
  intro ps
  induction ps with
  | nil => intro _; exact ⟨rfl, AllLen.nil⟩
  | cons p ps ih =>
    intro h
    obtain ⟨h1, h2⟩ := ih (fun p hp => h p (by simp [hp]))
    obtain ⟨v, hv, hl⟩ := h p (by simp)
    unfold columnOf at h1 ⊢
    have e : valuesOf d (p :: ps) = v :: valuesOf d ps := by simp [valuesOf, hv]
    rw [e, List.filterMap_cons, hv]
    refine ⟨by simp only [List.flatten_cons, h1], ?_⟩
    intro r hr
    rcases List.mem_cons.1 hr with rfl | hr
    · exact hl
    · exact h2 r hr

theorem columnOf_length {d : AttrDef} {ps : List Point} (h : HasValues d ps) :
    (columnOf d ps).length = ps.length * d.size := by
  obtain ⟨h1, h2⟩ := columnOf_values h
  rw [h1, h2.flatten_length]
  simp [valuesOf]

theorem column_value {d : AttrDef} (hd : 0 < d.size) {ps : List Point} (h : HasValues d ps) {data : Bytes} {o : Nat}
    (hs : window data o (ps.length * d.size) = columnOf d ps) {k : Nat} {p : Point} (hk : ps[k]? = some p) {v : Bytes}
    (hv : p.get d = some v) : readAt data (o + k * d.size) d.size = .ok v := by
  obtain ⟨h1, h2⟩ := columnOf_values h
  have hlt : k < ps.length := (List.getElem?_eq_some_iff.1 hk).1
  have hlen : (window data o (ps.length * d.size)).length = ps.length * d.size := by rw [hs, columnOf_length h]
  have hks : (k + 1) * d.size ≤ ps.length * d.size := Nat.mul_le_mul_right _ hlt
  rw [Nat.succ_mul] at hks
  have hvk : (valuesOf d ps)[k]? = some v := by
    unfold valuesOf
    rw [List.getElem?_map, hk]
    simp [hv]
  have hw := window_block h2 hvk
  rw [← h1, ← hs, Ascii.window_window hks] at hw
  unfold readAt
  rw [if_pos ?_]
  · rw [take_drop_window, hw]
  · have : (window data o (ps.length * d.size)).length ≤ data.length - o := by
      unfold window; rw [List.length_take, List.length_drop]; omega
    omega

/-! ## Opening a file -/

theorem present_filter {t : FeatureTable} {q : String × AttrDef → Bool} : ∀ (as : List (String × AttrDef)),
    (∀ a ∈ as, if q a then ∃ o, t.lookup a.1 = some (.reference o none) else t.lookup a.1 = none) →
    (presentIn t as).map Prod.fst = (as.filter q).map Prod.snd := by
  intro as
  induction as with
  | nil => intro _; rfl
  | cons a as ih =>
    intro h
    have ih := ih (fun a ha => h a (by simp [ha]))
    have ha := h a (by simp)
    unfold presentIn at ih ⊢
    rw [List.filterMap_cons]
    cases hq : q a with
    | true =>
      rw [hq, if_pos rfl] at ha
      obtain ⟨o, ho⟩ := ha
      simp only [ho, List.map_cons, ih, List.filter_cons_of_pos hq]
    | false =>
      rw [hq, if_neg (by simp)] at ha
      simp only [ha]
      rw [ih, List.filter_cons_of_neg (by simp [hq])]

/-- The points have exactly the attributes `ds`. -/
structure HaveAttributes (ds : List AttrDef) (ps : List Point) : Prop where
  attributes : ∀ p ∈ ps, p.map Prod.fst = ds
  sizes : ∀ p ∈ ps, ∀ kv ∈ p, kv.2.length = kv.1.size

theorem HaveAttributes.values {ds : List AttrDef} {ps : List Point} (h : HaveAttributes ds ps) {d : AttrDef} (hd : d ∈ ds) :
    HasValues d ps := by
  intro p hp
  rw [← h.attributes p hp] at hd
  cases hg : p.get d with
  | none =>
    obtain ⟨kv, hkv, rfl⟩ := List.mem_map.1 hd
    unfold Point.get at hg
    rw [List.lookup_eq_none_iff] at hg
    have := hg kv hkv
    simp at this
  | some v =>
    refine ⟨v, rfl, ?_⟩
    unfold Point.get at hg
    obtain ⟨l1, l2, hp', _⟩ := List.lookup_eq_some_iff.1 hg
    exact h.sizes p hp (d, v) (by rw [hp']; simp)

theorem open_table {J : JsonText} {f : F64 → F64} (hJ : Faithful J f) {file : Bytes} {n : Nat} {center : Option (P3 F64)}
    {parts : List Part} (h : IsPnts J file n center parts) {q : String × AttrDef → Bool} {ps : List Point}
    (hps : ps.length = n) (hne : semantics.filter q ≠ []) (ht : HaveAttributes ((semantics.filter q).map Prod.snd) ps)
    (hparts : (parts.map fun p => (p.semantic, p.data)).Perm
      ((semantics.filter q).map fun s => (s.1, columnOf s.2 ps))) :
    KnownNames parts ∧ n < 2 ^ 64 := by
  have hnames : (semantics.map Prod.fst).Nodup := by decide
  have hsub : ((semantics.filter q).map Prod.fst).Sublist (semantics.map Prod.fst) :=
    (List.filter_sublist (p := q) (l := semantics)).map _
  have hperm : (parts.map Part.semantic).Perm ((semantics.filter q).map Prod.fst) := by
    have := hparts.map Prod.fst
    rw [List.map_map, List.map_map] at this
    exact this
  refine ⟨⟨hperm.nodup_iff.2 (hsub.nodup hnames), ?_⟩, ?_⟩
  · intro p hp
    have := hsub.subset (hperm.mem_iff.1 (List.mem_map_of_mem hp))
    exact this
  · obtain ⟨s, hs⟩ := List.exists_mem_of_ne_nil _ hne
    have hmem : (s.1, columnOf s.2 ps) ∈ parts.map fun p => (p.semantic, p.data) :=
      hparts.mem_iff.2 (List.mem_map.2 ⟨s, hs, rfl⟩)
    obtain ⟨p, hp, he⟩ := List.mem_map.1 hmem
    have hpd : p.data = columnOf s.2 ps := (Prod.mk.inj he).2
    have hl := columnOf_length (ht.values (List.mem_map_of_mem hs))
    have hin := h.inside p hp
    have hl2 := h.lengths
    have hf4 : field file 4 < 2 ^ 32 := field_lt _ _ (by omega)
    have hpos : 0 < s.2.size := by
      have : ∀ s ∈ semantics, 0 < s.2.size := by decide
      exact this s (List.mem_filter.1 hs).1
    rw [hpd, hl] at hin
    have : ps.length ≤ ps.length * s.2.size := Nat.le_mul_of_pos_right _ hpos
    omega

theorem open_file {J : JsonText} {f : F64 → F64} (hJ : Faithful J f) {file : Bytes} {n : Nat} {center : Option (P3 F64)}
    {parts : List Part} (h : IsPnts J file n center parts) {q : String × AttrDef → Bool} {ps : List Point}
    (hps : ps.length = n) (hne : semantics.filter q ≠ []) (ht : HaveAttributes ((semantics.filter q).map Prod.snd) ps)
    (hparts : (parts.map fun p => (p.semantic, p.data)).Perm
      ((semantics.filter q).map fun s => (s.1, columnOf s.2 ps))) (hc : ∀ c, center = some c → FiniteCenter c) :
    ∃ r, fromRead J file = .ok r ∧ Opened r ps (center.map (textCenter f)) 0 ∧ r.mode = .absolute ∧
      r.layout.attributes.map Member.definition = (semantics.filter q).map Prod.snd := by
  obtain ⟨hk, hn⟩ := open_table hJ h hps hne ht hparts
  obtain ⟨t, t1, t2⟩ := table_read hJ h hk hn
  obtain ⟨hd, d1, d2, d3⟩ := header_read h
  have hnames : (semantics.map Prod.fst).Nodup := by decide
  have hin : ∀ a ∈ semantics.filter q, ∃ p ∈ parts, p.semantic = a.1 ∧ p.data = columnOf a.2 ps := by
    intro a ha
    obtain ⟨p, hp, he⟩ := List.mem_map.1 (hparts.mem_iff.2
      (List.mem_map.2 ⟨a, ha, rfl⟩ : (a.1, columnOf a.2 ps) ∈ (semantics.filter q).map fun s => (s.1, columnOf s.2 ps)))
    exact ⟨p, hp, (Prod.mk.inj he).1, (Prod.mk.inj he).2⟩
  have hlook : ∀ a ∈ semantics, if q a then ∃ o, t.lookup a.1 = some (.reference o none) else t.lookup a.1 = none := by
    intro a ha
    cases hq : q a with
    | true =>
      rw [if_pos rfl]
      obtain ⟨p, hp, h1, _⟩ := hin a (List.mem_filter.2 ⟨ha, hq⟩)
      exact ⟨p.offset, h1 ▸ t2.part p hp⟩
    | false =>
      rw [if_neg (by simp)]
      have hmem : a.1 ∈ ["POSITION", "RGBA", "RGB", "NORMAL"] := List.mem_map_of_mem (f := Prod.fst) ha
      apply t2.absent
      · intro e; rw [e] at hmem; exact absurd hmem (by decide)
      · left; intro e; rw [e] at hmem; exact absurd hmem (by decide)
      · intro hin'
        obtain ⟨p, hp, he⟩ := List.mem_map.1 hin'
        have hm := hparts.mem_iff.1 (List.mem_map.2 ⟨p, hp, rfl⟩)
        obtain ⟨s, hs, hse⟩ := List.mem_map.1 hm
        have h1 : s.1 = a.1 := by rw [(Prod.mk.inj hse).1, he]
        obtain ⟨hs1, hs2⟩ := List.mem_filter.1 hs
        have : s = a := List.inj_on_of_nodup_map hnames hs1 ha h1
        rw [this, hq] at hs2
        cases hs2
  obtain ⟨l, l1, l2, l3⟩ := layoutFromTable (t := t) (by
    intro a ha
    have := hlook a ha
    cases hq : q a with
    | true => rw [hq, if_pos rfl] at this; exact .inr (this.imp fun o h => ⟨none, h⟩)
    | false => rw [hq, if_neg (by simp)] at this; exact .inl this)
  have hpres : (presentIn t readAttributes).map Prod.fst = (semantics.filter q).map Prod.snd := present_filter _ hlook
  rw [hpres] at l2
  have hsolid : Solid l := l3 (by
    intro he
    rw [he] at hpres
    exact hne (by simpa using hpres.symm))
  have hmeta := metadata_read t2 hk
  have hmeta : ∃ md, metadataFromFeatureTable t = .ok md ∧ md.pointsLength = n ∧
      md.rtcCenter = center.map (textCenter f) := by
    rw [hmeta]
    cases center with
    | none => exact ⟨_, rfl, rfl, rfl⟩
    | some c =>
      dsimp only
      rw [if_pos (hc c rfl)]
      exact ⟨_, rfl, rfl, rfl⟩
  obtain ⟨md, m1, m2, m3⟩ := hmeta
  refine ⟨⟨file, md, l, 0, (((presentIn t readAttributes).map fun e => (e.1.name, e.2)).reverse).map
    fun e => (e.1, e.2 + (28 + field file 3)), .absolute⟩, ?_, ⟨rfl, Nat.zero_le _, by rw [m2, hps], m3, hsolid,
      fun p hp => by rw [l2]; exact ht.attributes p hp, ht.sizes, ?_⟩, rfl, l2⟩
  · unfold fromRead
    simp only [d1, bind, Except.bind, d2, d3, t1, l1, m1, bailIf, ne_eq, not_true_eq_false, decide_false]
    rfl
  · intro m hm
    dsimp only
    have hmd : m.definition ∈ (semantics.filter q).map Prod.snd := by rw [← l2]; exact List.mem_map_of_mem hm
    obtain ⟨a, ha, had⟩ := List.mem_map.1 hmd
    obtain ⟨p, hp, h1, h2⟩ := hin a ha
    refine ⟨p.offset + (28 + field file 3), ?_, ?_⟩
    · rw [lookup_map_snd (fun o => o + (28 + field file 3))]
      have hmem : (m.name, p.offset) ∈ ((presentIn t readAttributes).map fun e => (e.1.name, e.2)).reverse := by
        rw [List.mem_reverse]
        refine List.mem_map.2 ⟨(a.2, p.offset), ?_, by rw [had]; rfl⟩
        refine List.mem_filterMap.2 ⟨a, (List.mem_filter.1 ha).1, ?_⟩
        have := t2.part p hp
        rw [h1] at this
        simp only [this]
      rw [lookup_of_mem ?_ hmem]
      · rfl
      · rw [List.map_reverse, List.nodup_reverse, List.map_map]
        exact (present_names t readAttributes).nodup (by decide)
    · have hst := h.stored p hp
      have hl := columnOf_length (ht.values (d := a.2) (List.mem_map_of_mem ha))
      rw [h2, hl, had] at hst
      rw [Nat.add_comm p.offset]
      exact hst

/-- A file whose center has a coordinate that is not finite cannot be opened. -/
theorem open_fails {J : JsonText} {f : F64 → F64} (hJ : Faithful J f) {file : Bytes} {n : Nat} {c : P3 F64}
    {parts : List Part} (h : IsPnts J file n (some c) parts) {q : String × AttrDef → Bool} {ps : List Point}
    (hps : ps.length = n) (hne : semantics.filter q ≠ []) (ht : HaveAttributes ((semantics.filter q).map Prod.snd) ps)
    (hparts : (parts.map fun p => (p.semantic, p.data)).Perm
      ((semantics.filter q).map fun s => (s.1, columnOf s.2 ps))) (hc : ¬ FiniteCenter c) :
    fromRead J file = .error .err := by
  obtain ⟨hk, hn⟩ := open_table hJ h hps hne ht hparts
  obtain ⟨t, t1, t2⟩ := table_read hJ h hk hn
  obtain ⟨hd, d1, d2, d3⟩ := header_read h
  obtain ⟨l, l1, _⟩ := layoutFromTable (t := t) (by
    intro a ha
    by_cases hin : a.1 ∈ parts.map Part.semantic
    · obtain ⟨p, hp, he⟩ := List.mem_map.1 hin
      exact .inr ⟨_, _, he ▸ t2.part p hp⟩
    · have hmem : a.1 ∈ ["POSITION", "RGBA", "RGB", "NORMAL"] := List.mem_map_of_mem (f := Prod.fst) ha
      refine .inl (t2.absent _ ?_ (.inl ?_) hin)
      · intro e; rw [e] at hmem; exact absurd hmem (by decide)
      · intro e; rw [e] at hmem; exact absurd hmem (by decide))
  have hmeta := metadata_read t2 hk
  dsimp only at hmeta
  rw [if_neg hc] at hmeta
  unfold fromRead
  simp only [d1, bind, Except.bind, d2, d3, t1, l1, hmeta, bailIf, ne_eq, not_true_eq_false, decide_false]
  rfl

end Pasture.Tiles3d
