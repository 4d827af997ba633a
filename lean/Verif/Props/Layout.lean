import Verif.Lemmas.Layout
import Verif.Model.Derive
import Mathlib.Data.List.Perm.Subperm

/-!
# Properties C01 - C07, C31: point layouts
-/

namespace Pasture.Props
open Spec

/-! ## C31: `align_to` -/

/-- C31. `align_to(a)` with `a > 0` is the least multiple of `a` not below `x`; with `a = 0` it is
    the identity. -/
theorem C31_align_to (x a : Nat) :
    (0 < a → IsLeastMultiple x a (alignTo x a)) ∧ (a = 0 → alignTo x a = x) :=
  ⟨alignTo_isLeast x a, fun h => by simp [alignTo, h]⟩

example : IsLeastMultiple 13 8 (alignTo 13 8) ∧ alignTo 13 8 = 16 :=
  ⟨(C31_align_to 13 8).1 (by decide), by decide⟩

/-- C31. `align_to` is idempotent and monotone. -/
theorem C31_align_to_idem_mono (x y a : Nat) :
    alignTo (alignTo x a) a = alignTo x a ∧ (x ≤ y → alignTo x a ≤ alignTo y a) := by
  rcases Nat.eq_zero_or_pos a with rfl | ha
  · simp [alignTo]
  · refine ⟨Nat.le_antisymm (alignTo_least _ _ _ ha (dvd_alignTo _ _ ha) (Nat.le_refl _))
      (le_alignTo _ _), fun h => ?_⟩
    exact alignTo_least _ _ _ ha (dvd_alignTo _ _ ha) (Nat.le_trans h (le_alignTo _ _))

/-! ## C01: `from_attributes` -/

/-- The fields of a struct with the given attributes. -/
def fieldsOf (ds : List AttrDef) : List Field :=
  ds.map fun d => ⟨d.datatype.size, d.datatype.minAlignment⟩

/-- Every built-in datatype has a power-of-two alignment (only `Custom` may not). -/
def PowerOfTwoAligned (ds : List AttrDef) : Prop := ∀ d ∈ ds, ∃ k, d.datatype.minAlignment = 2 ^ k

/-- C01, first half: the layout `from_attributes` returns is the `repr(C)` layout of the
    attributes, in the given order. -/
theorem C01_from_attributes_is_reprC (ds : List AttrDef) (hp : PowerOfTwoAligned ds)
    (l : PointLayout) (h : PointLayout.fromAttributes ds = .ok l) :
    l.attributes.map Member.definition = ds ∧
    StructLayout (fieldsOf ds) (l.attributes.map Member.offset) l.size l.align := by
  have : PointLayout.ReprC ([] ++ ds) l := by
    have key : ∀ (ds' pre : List AttrDef) (s s' : PointLayout), PowerOfTwoAligned (pre ++ ds') →
        PointLayout.ReprC pre s →
        forLoop ds' s (fun l d => l.addAttribute d .default) = .ok s' →
        PointLayout.ReprC (pre ++ ds') s' := by
      intro ds'
      induction ds' with
      | nil => intro pre s s' _ h0 h; simp at h; subst h; simpa using h0
      | cons x xs ih =>
        intro pre s s' hp h0 h
        obtain ⟨t, h1, h2⟩ := forLoop_cons_ok.1 h
        have h3 := h0.addAttribute (fun d hd => hp d (List.mem_append_left _ hd))
          (hp x (by simp)) h1
        have := ih (pre ++ [x]) t s' (by simpa using hp) h3 h2
        simpa using this
    exact key ds [] _ _ (by simpa using hp) .default h
  exact ⟨by simpa using this.defs, this.layout⟩

/-- C01, second half: `from_attributes` succeeds exactly when the names are distinct and the
    `repr(C)` size fits a Rust memory layout; otherwise it panics. -/
theorem C01_from_attributes_succeeds_iff (ds : List AttrDef) (hp : PowerOfTwoAligned ds) :
    ((∃ l, PointLayout.fromAttributes ds = .ok l) ↔
      (ds.map AttrDef.name).Nodup ∧
      ∃ offs size align, StructLayout (fieldsOf ds) offs size align ∧ size + align ≤ 2 ^ 63) ∧
    (∀ e, PointLayout.fromAttributes ds = .error e → e = .panic) := by
  refine ⟨⟨?_, ?_⟩, ?_⟩
  · rintro ⟨l, h⟩
    obtain ⟨h1, h2⟩ := C01_from_attributes_is_reprC ds hp l h
    have h3 : l.Ordered := by
      have := forLoop_inv (P := fun _ (l : PointLayout) => l.Ordered)
        (f := fun (l : PointLayout) d => l.addAttribute d .default)
        (fun _ _ _ _ h0 h1 => h0.addAttribute h1) ds [] _ _ PointLayout.Ordered.default h
      exact this
    refine ⟨?_, _, _, _, h2, ?_⟩
    · have := h3.names
      rw [← h1, List.map_map]; exact this
    · rcases List.eq_nil_or_concat ds with h0 | ⟨ds', d, h0⟩
      · subst h0; simp [PointLayout.fromAttributes] at h; subst h
        simp [PointLayout.default]
      · rw [List.concat_eq_append] at h0; subst h0
        unfold PointLayout.fromAttributes at h
        rw [forLoop_append] at h
        cases hq : forLoop ds' PointLayout.default (fun l d => l.addAttribute d .default) with
        | error e => rw [hq] at h; simp [Except.bind] at h
        | ok t =>
          rw [hq] at h
          simp only [Except.bind] at h
          obtain ⟨t', h5, h6⟩ := forLoop_cons_ok.1 h
          simp at h6; subst h6
          exact (PointLayout.addAttribute_ok.1 h5).2.2.1
  · rintro ⟨hnd, o, s, a, hsl, hfit⟩
    let P : List AttrDef → PointLayout → Prop := fun pre l =>
      PointLayout.ReprC pre l
    obtain ⟨l, hl, -⟩ := forLoop_total (P := P) (f := fun (l : PointLayout) d => l.addAttribute d .default)
      ds [] PointLayout.default PointLayout.ReprC.default (by
        intro pre d suf l he hP
        simp only [List.nil_append] at he
        have hpp : ∀ x ∈ pre, ∃ k, x.datatype.minAlignment = 2 ^ k := fun x hx =>
          hp x (by rw [he]; simp [hx])
        have hdp : ∃ k, d.datatype.minAlignment = 2 ^ k := hp d (by rw [he]; simp)
        have hname : d.name ∉ l.attributes.map Member.name := by
          have e1 : l.attributes.map Member.name = pre.map AttrDef.name := by
            rw [← hP.defs, List.map_map]; rfl
          rw [e1]
          rw [he] at hnd
          simp only [List.map_append, List.map_cons, List.nodup_append] at hnd
          intro hmem
          exact hnd.2.2 d.name hmem d.name (by simp) rfl
        let l' : PointLayout := ⟨l.attributes ++ [⟨d, alignTo l.packedOffsetOfNextField
            (PointLayout.fieldAlign d .default)⟩],
            alignTo (max l.size (alignTo l.packedOffsetOfNextField
              (PointLayout.fieldAlign d .default) + d.size))
              (l.newAlign d .default), l.newAlign d .default⟩
        have hpow : ∃ k, l.newAlign d .default = 2 ^ k :=
          PointLayout.max_pow2 (hP.align_pow2 hpp) hdp
        -- the layout after this step is the `repr(C)` layout of `pre ++ [d]`
        have hR : PointLayout.ReprC (pre ++ [d]) l' := by
          have hda := pow2_pos hdp
          refine ⟨by simp [l', hP.defs], ?_, ?_, ?_⟩
          · rw [PointLayout.packedOffset_snoc]
            simp only [l', List.map_append, List.map_cons, List.map_nil]
            exact Spec.Placed.snoc hP.placed (f := d.field) (alignTo_isLeast _ _ hda)
          · simp only [l', List.map_append, List.map_cons, List.map_nil]
            exact hP.maxAlign.snoc d.field
          · rw [PointLayout.packedOffset_snoc]
            simp only [l', PointLayout.newAlign, PointLayout.fieldAlign, Member.stop, Member.size]
            rw [hP.size]
            obtain ⟨i, hi⟩ := hP.align_pow2 hpp
            obtain ⟨j, hj⟩ := PointLayout.max_pow2 (hP.align_pow2 hpp) hdp
            apply alignTo_max_alignTo
            · rw [hj, hi]; apply pow2_dvd_of_le; rw [← hj, ← hi]; omega
            · exact hP.maxAlign.1
            · rw [hj]; exact Nat.two_pow_pos j
            · have := le_alignTo l.packedOffsetOfNextField d.datatype.minAlignment
              omega
        have hmono := Spec.StructLayout.mono (fs := fieldsOf (pre ++ [d])) (gs := fieldsOf suf)
          (by
            intro f hf
            have : f ∈ fieldsOf ds := by rw [he]; simpa [fieldsOf] using hf
            obtain ⟨x, hx, rfl⟩ := List.mem_map.1 this
            exact hp x hx)
          hR.layout (by
            have e : fieldsOf (pre ++ [d]) ++ fieldsOf suf = fieldsOf ds := by
              rw [he]; simp [fieldsOf]
            rw [e]; exact hsl)
        exact ⟨l', PointLayout.addAttribute_ok.2 ⟨hname, hpow, by omega, rfl⟩, hR⟩)
    exact ⟨l, hl⟩
  · intro e h
    exact forLoop_fault (e := .panic) (fun _ _ _ h => PointLayout.addAttribute_error h) _ _ _ h

/-- Non-vacuity: [u8, Vec3f64, u16] gets offsets 0, 8, 32, size 40, alignment 8. -/
example : PowerOfTwoAligned [⟨"a", .u8⟩, ⟨"p", .vec3f64⟩, ⟨"i", .u16⟩] ∧
    (PointLayout.fromAttributes [⟨"a", .u8⟩, ⟨"p", .vec3f64⟩, ⟨"i", .u16⟩]).map
      (fun l => (l.attributes.map Member.offset, l.size, l.align)) = .ok ([0, 8, 32], 40, 8) := by
  refine ⟨?_, by decide⟩
  intro d hd
  simp only [List.mem_cons, List.not_mem_nil, or_false] at hd
  rcases hd with rfl | rfl | rfl
  · exact ⟨0, rfl⟩
  · exact ⟨3, rfl⟩
  · exact ⟨1, rfl⟩

/-! ## C02: any history of `add_attribute` -/

/-- C02. After any successful sequence of `add_attribute` calls with any field alignments the
    attributes are the added ones in order, have distinct names, occupy disjoint byte ranges in
    insertion order and lie inside the point. -/
theorem C02_add_attribute_history (calls : List (AttrDef × FieldAlignment)) (l : PointLayout)
    (h : forLoop calls PointLayout.default (fun l c => l.addAttribute c.1 c.2) = .ok l) :
    l.attributes.map Member.definition = calls.map Prod.fst ∧
    (l.attributes.map Member.name).Nodup ∧
    l.attributes.Pairwise (fun a b => a.offset + a.size ≤ b.offset) ∧
    ∀ m ∈ l.attributes, m.offset + m.size ≤ l.size := by
  have := forLoop_inv
    (P := fun pre (l : PointLayout) => l.Ordered ∧ l.attributes.map Member.definition = pre.map Prod.fst)
    (f := fun (l : PointLayout) (c : AttrDef × FieldAlignment) => l.addAttribute c.1 c.2)
    (fun pre x s s' h0 h1 => ⟨h0.1.addAttribute h1, by
      obtain ⟨-, -, -, rfl⟩ := PointLayout.addAttribute_ok.1 h1
      simp [h0.2]⟩) calls [] _ _ ⟨PointLayout.Ordered.default, rfl⟩ h
  exact ⟨by simpa using this.2, this.1.names, this.1.ordered, this.1.inside⟩

example : (forLoop [((⟨"a", .u8⟩ : AttrDef), FieldAlignment.default), (⟨"p", .vec3f64⟩, .default),
    (⟨"i", .u16⟩, .packed 1), (⟨"t", .f64⟩, .packed 4)] PointLayout.default
    (fun l c => l.addAttribute c.1 c.2)).map (fun l => (l.attributes.map Member.offset, l.size))
    = .ok ([0, 8, 32, 36], 44) := by decide

/-! ## C03: `from_members_and_alignment` -/

/-- Two members share a byte. -/
def Overlap (a b : Member) : Prop :=
  ∃ byte, (a.offset ≤ byte ∧ byte < a.offset + a.size) ∧ (b.offset ≤ byte ∧ byte < b.offset + b.size)

theorem apart_of_not_overlap {a b : Member} (ha : 0 < a.size) (hb : 0 < b.size)
    (h : ¬ Overlap a b) : a.Apart b := by
  unfold Member.Apart Member.stop
  by_contra hc
  apply h
  refine ⟨max a.offset b.offset, ?_, ?_⟩ <;> omega

theorem not_overlap_of_apart {a b : Member} (h : a.Apart b) : ¬ Overlap a b := by
  rintro ⟨x, h1, h2⟩
  unfold Member.Apart Member.stop at h
  omega

/-- C03. For members of non-zero size: `from_members_and_alignment` accepts exactly the lists with
    distinct names, no two overlapping members, a power-of-two alignment and a size that fits. -/
theorem C03_from_members_accepts_iff (ms : List Member) (a : Nat) (hpos : ∀ m ∈ ms, 0 < m.size) :
    (∃ l, PointLayout.fromMembersAndAlignment ms a = .ok l) ↔
      (ms.map Member.name).Nodup ∧ ms.Pairwise (fun x y => ¬ Overlap x y) ∧ (∃ k, a = 2 ^ k) ∧
      (∃ size, a ∣ size ∧ (∀ m ∈ ms, m.offset + m.size ≤ size) ∧ size + a ≤ 2 ^ 63) := by
  constructor
  · rintro ⟨l, h⟩
    obtain ⟨h1, h2, h3, h4, rfl⟩ := PointLayout.fromMembers_ok.1 h
    have h5 := PointLayout.sorted_apart h2
    have h6 := PointLayout.unalignedSize_spec hpos h5
    refine ⟨h1, h5.imp (fun h => not_overlap_of_apart h), h3, _, dvd_alignTo _ _ (pow2_pos h3),
      ?_, h4⟩
    intro m hm
    have := h6.1 m hm
    have := le_alignTo (PointLayout.unalignedSize ms) a
    unfold Member.stop at *; omega
  · rintro ⟨h1, h2, h3, s, h4, h5, h6⟩
    have h7 : ms.Pairwise Member.Apart :=
      List.Pairwise.imp_of_mem (fun {x y} hx hy h => apart_of_not_overlap (hpos x hx) (hpos y hy) h) h2
    have h8 := PointLayout.unalignedSize_spec hpos h7
    refine ⟨_, PointLayout.fromMembers_ok.2 ⟨h1, PointLayout.apart_sorted hpos h7, h3, ?_, rfl⟩⟩
    have := alignTo_least (PointLayout.unalignedSize ms) a s (pow2_pos h3) h4 (h8.2 s h5)
    omega

/-- C03. What an accepted member list yields: exactly the given members, pairwise disjoint, and
    the least multiple of the alignment covering every member as size. -/
theorem C03_from_members_result (ms : List Member) (a : Nat) (hpos : ∀ m ∈ ms, 0 < m.size)
    (l : PointLayout) (h : PointLayout.fromMembersAndAlignment ms a = .ok l) :
    l.attributes = ms ∧ l.align = a ∧ a ∣ l.size ∧
    ms.Pairwise (fun x y => ¬ Overlap x y) ∧
    (∀ m ∈ ms, m.offset + m.size ≤ l.size) ∧
    (∀ s, a ∣ s → (∀ m ∈ ms, m.offset + m.size ≤ s) → l.size ≤ s) := by
  obtain ⟨h1, h2, h3, h4, rfl⟩ := PointLayout.fromMembers_ok.1 h
  have h5 := PointLayout.sorted_apart h2
  have h6 := PointLayout.unalignedSize_spec hpos h5
  refine ⟨rfl, rfl, dvd_alignTo _ _ (pow2_pos h3), h5.imp (fun h => not_overlap_of_apart h), ?_, ?_⟩
  · intro m hm
    have := h6.1 m hm
    have := le_alignTo (PointLayout.unalignedSize ms) a
    unfold Member.stop at *; simp only; omega
  · intro s hs hm
    exact alignTo_least _ _ _ (pow2_pos h3) hs (h6.2 s hm)

/-- C03. A refused member list panics. -/
theorem C03_from_members_refuses_by_panic (ms : List Member) (a : Nat) (e : Fault)
    (h : PointLayout.fromMembersAndAlignment ms a = .error e) : e = .panic :=
  PointLayout.fromMembers_error h

example : (PointLayout.fromMembersAndAlignment
      [⟨⟨"i", .u16⟩, 24⟩, ⟨⟨"p", .vec3f64⟩, 0⟩] 8).map (·.size) = .ok 32 ∧
    PointLayout.fromMembersAndAlignment
      [⟨⟨"i", .u16⟩, 23⟩, ⟨⟨"p", .vec3f64⟩, 0⟩] 8 = .error .panic := by decide

/-! ## C04: adding to any layout (violated) -/

/-- Layouts the public constructors can produce. -/
inductive Reachable : PointLayout → Prop
  | default : Reachable .default
  | members {ms : List Member} {a : Nat} {l : PointLayout} :
      PointLayout.fromMembersAndAlignment ms a = .ok l → Reachable l
  | add {l l' : PointLayout} {d : AttrDef} {fa : FieldAlignment} :
      Reachable l → l.addAttribute d fa = .ok l' → Reachable l'

/-- C04 as stated: attributes of reachable layouts never overlap after `add_attribute`. -/
def C04_statement : Prop :=
  ∀ (l l' : PointLayout) (d : AttrDef) (fa : FieldAlignment), Reachable l →
    l.addAttribute d fa = .ok l' → l'.attributes.Pairwise (fun x y => ¬ Overlap x y)

def c04Layout : PointLayout := ⟨[⟨⟨"Intensity", .u16⟩, 24⟩, ⟨⟨"Position3D", .vec3f64⟩, 0⟩], 32, 8⟩
def c04Layout' : PointLayout :=
  ⟨[⟨⟨"Intensity", .u16⟩, 24⟩, ⟨⟨"Position3D", .vec3f64⟩, 0⟩, ⟨⟨"UserData", .u8⟩, 24⟩], 32, 8⟩

/-- C04 is violated: a layout whose members are listed out of memory order
    (intensity at byte 24, position at byte 0) puts a new attribute on top of the intensity. -/
theorem C04_violated : ¬ C04_statement := by
  intro h
  have h1 : PointLayout.fromMembersAndAlignment
    [⟨⟨"Intensity", .u16⟩, 24⟩, ⟨⟨"Position3D", .vec3f64⟩, 0⟩] 8 = .ok c04Layout := by decide
  have h2 : c04Layout.addAttribute ⟨"UserData", .u8⟩ .default = .ok c04Layout' := by decide
  have h3 := h c04Layout c04Layout' _ _ (.members h1) h2
  have h4 := (List.pairwise_cons.1 h3).1 ⟨⟨"UserData", .u8⟩, 24⟩ (by simp)
  exact h4 ⟨24, by decide, by decide⟩

/-- C04, the part that holds: if the attribute listed last ends at or after every other attribute,
    `add_attribute` keeps the attributes disjoint. Missing: layouts listed out of memory order. -/
theorem C04_add_attribute_disjoint_partial (l l' : PointLayout) (d : AttrDef) (fa : FieldAlignment)
    (hdis : l.attributes.Pairwise (fun x y => ¬ Overlap x y))
    (hlast : ∀ z, l.attributes.getLast? = some z →
      ∀ m ∈ l.attributes, m.offset + m.size ≤ z.offset + z.size)
    (h : l.addAttribute d fa = .ok l') :
    l'.attributes.Pairwise (fun x y => ¬ Overlap x y) := by
  obtain ⟨-, -, -, rfl⟩ := PointLayout.addAttribute_ok.1 h
  simp only
  rw [List.pairwise_append]
  refine ⟨hdis, by simp, ?_⟩
  intro a ha b hb
  simp at hb; subst hb
  rintro ⟨x, h1, h2⟩
  have h3 := le_alignTo l.packedOffsetOfNextField (PointLayout.fieldAlign d fa)
  have h4 : a.offset + a.size ≤ l.packedOffsetOfNextField := by
    unfold PointLayout.packedOffsetOfNextField
    cases hz : l.attributes.getLast? with
    | none => rw [List.getLast?_eq_none_iff] at hz; rw [hz] at ha; simp at ha
    | some z => exact hlast z hz a ha
  simp only at h2
  omega

example : ∃ l', (⟨[⟨⟨"p", .vec3f64⟩, 0⟩, ⟨⟨"i", .u16⟩, 24⟩], 32, 8⟩ : PointLayout).addAttribute
    ⟨"u", .u8⟩ .default = .ok l' := ⟨_, rfl⟩

/-! ## C05: `from_attributes_packed` (violated for N > 1) -/

/-- C05 as stated. -/
def C05_statement : Prop :=
  ∀ (ds : List AttrDef) (n : Nat) (l : PointLayout), PowerOfTwoAligned ds → (∃ k, n = 2 ^ k) →
    PointLayout.fromAttributesPacked ds n = .ok l →
    PackedStructLayout n (fieldsOf ds) (l.attributes.map Member.offset) l.size l.align

/-- C05 is violated: [Vec3f64, u16] packed(4) gets size 26 and alignment 1, whereas a
    `repr(C, packed(4))` struct has size 28 and alignment 4. -/
theorem C05_violated : ¬ C05_statement := by
  intro h
  have := h [⟨"p", .vec3f64⟩, ⟨"i", .u16⟩] 4
    ⟨[⟨⟨"p", .vec3f64⟩, 0⟩, ⟨⟨"i", .u16⟩, 24⟩], 26, 1⟩
    (by
      intro d hd
      simp only [List.mem_cons, List.not_mem_nil, or_false] at hd
      rcases hd with rfl | rfl
      · exact ⟨3, rfl⟩
      · exact ⟨1, rfl⟩)
    ⟨2, rfl⟩ (by decide)
  obtain ⟨e, -, h1, -⟩ := this
  have := h1.2.1 ⟨24, 4⟩ (by simp [fieldsOf, DataType.size, DataType.minAlignment])
  simp at this

/-- Helper for C05: state of the packed loop. -/
theorem packed_loop (n : Nat) (hn : 0 < n) :
    ∀ (ds pre : List AttrDef) (s s' : PointLayout),
      (∀ d ∈ ds, 0 < d.datatype.minAlignment) →
      (s.align = 1 ∧ s.size = s.packedOffsetOfNextField ∧ s.attributes.map Member.definition = pre ∧
        Placed 0 (pre.map fun d => ⟨d.datatype.size, min n d.datatype.minAlignment⟩)
          (s.attributes.map Member.offset) s.packedOffsetOfNextField) →
      forLoop ds s (fun l d => l.addAttribute d (.packed n)) = .ok s' →
      (s'.align = 1 ∧ s'.size = s'.packedOffsetOfNextField ∧
        s'.attributes.map Member.definition = pre ++ ds ∧
        Placed 0 ((pre ++ ds).map fun d => ⟨d.datatype.size, min n d.datatype.minAlignment⟩)
          (s'.attributes.map Member.offset) s'.packedOffsetOfNextField) := by
  intro ds
  induction ds with
  | nil => intro pre s s' _ h0 h; simp at h; subst h; simpa using h0
  | cons x xs ih =>
    intro pre s s' hpos h0 h
    obtain ⟨t, h1, h2⟩ := forLoop_cons_ok.1 h
    obtain ⟨-, -, -, rfl⟩ := PointLayout.addAttribute_ok.1 h1
    obtain ⟨ha, hs, hd, hpl⟩ := h0
    have hx := hpos x (by simp)
    have := ih (pre ++ [x]) _ s' (fun d hd => hpos d (List.mem_cons_of_mem _ hd)) (by
      rw [PointLayout.packedOffset_snoc]
      have hal : s.newAlign x (.packed n) = 1 := by simp only [PointLayout.newAlign, ha]; omega
      refine ⟨hal, ?_, by simp [hd], ?_⟩
      · simp only [hal, PointLayout.fieldAlign, Member.stop, Member.size]
        rw [hs]
        have := le_alignTo s.packedOffsetOfNextField (min n x.datatype.minAlignment)
        rw [Nat.max_eq_right (by omega)]
        simp [alignTo, AttrDef.size]
      · simp only [List.map_append, List.map_cons, List.map_nil, PointLayout.fieldAlign]
        exact Spec.Placed.snoc hpl (f := ⟨x.datatype.size, min n x.datatype.minAlignment⟩)
          (alignTo_isLeast _ _ (Nat.lt_min.2 ⟨hn, hx⟩))) h2
    simpa using this

/-- C05, the part that holds for every N: attribute order and offsets follow the
    `repr(C, packed(N))` rule. -/
theorem C05_packed_offsets_partial (ds : List AttrDef) (n : Nat) (hn : 0 < n) (l : PointLayout)
    (hp : PowerOfTwoAligned ds) (h : PointLayout.fromAttributesPacked ds n = .ok l) :
    l.attributes.map Member.definition = ds ∧
    ∃ size align, PackedStructLayout n (fieldsOf ds) (l.attributes.map Member.offset) size align ∧
      l.size ≤ size := by
  have h1 := packed_loop n hn ds [] PointLayout.default l (fun d hd => pow2_pos (hp d hd))
    ⟨rfl, rfl, rfl, .nil 0⟩ h
  simp only [List.nil_append] at h1
  obtain ⟨-, h3, h4, h5⟩ := h1
  have hmax : ∃ a, IsMaxAlign (ds.map fun d => ⟨d.datatype.size, min n d.datatype.minAlignment⟩) a := by
    generalize (ds.map fun d => (⟨d.datatype.size, min n d.datatype.minAlignment⟩ : Field)) = fs
    clear h h3 h4 h5 hp
    have : ∀ (gs pre : List Field) (a : Nat), IsMaxAlign pre a → ∃ a', IsMaxAlign (pre ++ gs) a' := by
      intro gs
      induction gs with
      | nil => intro pre a h; exact ⟨a, by simpa using h⟩
      | cons g gs ih => intro pre a h; simpa using ih (pre ++ [g]) _ (h.snoc g)
    simpa using this fs [] 1 ⟨by simp, by simp, .inl rfl⟩
  obtain ⟨a, ha⟩ := hmax
  refine ⟨h4, alignTo l.packedOffsetOfNextField a, a, ⟨_, ?_, ?_, alignTo_isLeast _ _ ha.1⟩, ?_⟩
  · simpa [fieldsOf, List.map_map, Function.comp_def] using h5
  · simpa [fieldsOf, List.map_map, Function.comp_def] using ha
  · rw [h3]; exact le_alignTo _ _

/-- C05, the part that holds completely: N = 1 (the only packing the crate itself uses). -/
theorem C05_packed1_partial (ds : List AttrDef) (l : PointLayout)
    (hp : PowerOfTwoAligned ds) (h : PointLayout.fromAttributesPacked ds 1 = .ok l) :
    l.attributes.map Member.definition = ds ∧
    PackedStructLayout 1 (fieldsOf ds) (l.attributes.map Member.offset) l.size l.align := by
  have h1 := packed_loop 1 (by decide) ds [] PointLayout.default l (fun d hd => pow2_pos (hp d hd))
    ⟨rfl, rfl, rfl, .nil 0⟩ h
  simp only [List.nil_append] at h1
  obtain ⟨h2, h3, h4, h5⟩ := h1
  refine ⟨h4, l.packedOffsetOfNextField, ?_, ?_, ?_⟩
  · simpa [fieldsOf, List.map_map, Function.comp_def] using h5
  · rw [h2]
    refine ⟨by simp, ?_, .inl rfl⟩
    intro f hf
    simp only [fieldsOf, List.map_map, List.mem_map, Function.comp_apply] at hf
    obtain ⟨d, _, rfl⟩ := hf
    simp only; omega
  · rw [h3, h2]
    exact ⟨Nat.one_dvd _, Nat.le_refl _, fun _ _ h => h⟩

example : (PointLayout.fromAttributesPacked [⟨"p", .vec3f64⟩, ⟨"i", .u16⟩, ⟨"t", .f64⟩] 1).map
    (fun l => (l.attributes.map Member.offset, l.size, l.align)) = .ok ([0, 24, 26], 34, 1) := by
  decide

/-! ## C06: lookups -/

/-- C06. The lookups by definition describe the same member. -/
theorem C06_lookups_agree (l : PointLayout) (d : AttrDef) :
    (l.hasAttribute d = true ↔ ∃ m, l.getAttribute d = some m) ∧
    (∀ m, l.getAttribute d = some m → m ∈ l.attributes ∧ m.definition = d ∧
      l.offsetOf d = some m.offset ∧
      ∃ i, l.indexOf d = some i ∧ l.at? i = .ok m) ∧
    (l.getAttribute d = none → l.hasAttribute d = false ∧ l.offsetOf d = none ∧ l.indexOf d = none) := by
  refine ⟨?_, ?_, ?_⟩
  · unfold PointLayout.hasAttribute PointLayout.getAttribute
    rw [List.any_eq_true]
    constructor
    · rintro ⟨m, hm, h⟩
      cases hf : l.attributes.find? (PointLayout.matchesDef d) with
      | none => exact absurd h (by simpa using List.find?_eq_none.1 hf m hm)
      | some m' => exact ⟨m', rfl⟩
    · rintro ⟨m, h⟩
      exact ⟨m, List.mem_of_find?_eq_some h, List.find?_some h⟩
  · intro m h
    unfold PointLayout.getAttribute at h
    have h1 := List.find?_some h
    have h2 := List.mem_of_find?_eq_some h
    simp only [PointLayout.matchesDef, decide_eq_true_eq] at h1
    refine ⟨h2, ?_, ?_, ?_⟩
    · cases m with | mk md mo => cases md; cases d; simp [Member.name, Member.datatype] at h1; simp [h1]
    · unfold PointLayout.offsetOf; rw [h]; rfl
    · unfold PointLayout.indexOf PointLayout.at?
      clear h1 h2
      generalize l.attributes = as at h
      induction as with
      | nil => simp at h
      | cons x xs ih =>
        rw [List.find?_cons] at h
        cases hx : PointLayout.matchesDef d x with
        | true =>
          rw [hx] at h; simp at h; subst h
          exact ⟨0, by simp [List.findIdx?_cons, hx], rfl⟩
        | false =>
          rw [hx] at h
          obtain ⟨i, h1, h2⟩ := ih h
          exact ⟨i + 1, by simp [List.findIdx?_cons, hx, h1], by simpa using h2⟩
  · intro h
    unfold PointLayout.getAttribute at h
    refine ⟨?_, ?_, ?_⟩
    · unfold PointLayout.hasAttribute
      rw [List.any_eq_false]
      simpa using List.find?_eq_none.1 h
    · unfold PointLayout.offsetOf; rw [h]; rfl
    · unfold PointLayout.indexOf
      rw [List.findIdx?_eq_none_iff]
      simpa using List.find?_eq_none.1 h

/-- Helper: with unique names, a lookup by name finds a member exactly when it is listed. -/
theorem getByName_iff (l : PointLayout) (hn : (l.attributes.map Member.name).Nodup) (n : String)
    (m : Member) : l.getAttributeByName n = some m ↔ m ∈ l.attributes ∧ m.name = n := by
  unfold PointLayout.getAttributeByName
  generalize l.attributes = as at hn ⊢
  induction as with
  | nil => simp
  | cons x xs ih =>
    simp only [List.map_cons, List.nodup_cons] at hn
    rw [List.find?_cons]
    by_cases hx : x.name = n
    · simp only [hx, decide_true, Option.some.injEq, List.mem_cons]
      constructor
      · rintro rfl; exact ⟨.inl rfl, hx⟩
      · rintro ⟨rfl | h, h'⟩
        · rfl
        · exact absurd (List.mem_map.2 ⟨m, h, h'.trans hx.symm⟩) hn.1
    · simp only [hx, decide_false, ih hn.2, List.mem_cons]
      constructor
      · rintro ⟨h, h'⟩; exact ⟨.inr h, h'⟩
      · rintro ⟨rfl | h, h'⟩
        · exact absurd h' hx
        · exact ⟨h, h'⟩

/-- C06. On layouts with unique names, a lookup by name returns the one member with this name, and
    a lookup by definition returns it exactly when the datatype agrees as well. -/
theorem C06_name_and_definition_lookups_agree (l : PointLayout)
    (hn : (l.attributes.map Member.name).Nodup) (d : AttrDef) (m : Member) :
    (l.getAttributeByName d.name = some m ↔ m ∈ l.attributes ∧ m.name = d.name) ∧
    (l.getAttribute d = some m ↔ l.getAttributeByName d.name = some m ∧ m.datatype = d.datatype) ∧
    (l.hasAttributeWithName d.name = true ↔ ∃ m, l.getAttributeByName d.name = some m) := by
  refine ⟨getByName_iff l hn d.name m, ?_, ?_⟩
  · rw [getByName_iff l hn]
    unfold PointLayout.getAttribute
    generalize l.attributes = as at hn ⊢
    induction as with
    | nil => simp
    | cons x xs ih =>
      simp only [List.map_cons, List.nodup_cons] at hn
      rw [List.find?_cons]
      cases hx : PointLayout.matchesDef d x with
      | true =>
        simp only [PointLayout.matchesDef, decide_eq_true_eq] at hx
        simp only [Option.some.injEq, List.mem_cons]
        constructor
        · rintro rfl; exact ⟨⟨.inl rfl, hx.1⟩, hx.2⟩
        · rintro ⟨⟨rfl | h, h'⟩, h''⟩
          · rfl
          · exact absurd (List.mem_map.2 ⟨m, h, h'.trans hx.1.symm⟩) hn.1
      | false =>
        simp only [PointLayout.matchesDef, decide_eq_false_iff_not] at hx
        simp only [ih hn.2, List.mem_cons]
        constructor
        · rintro ⟨⟨h, h'⟩, h''⟩; exact ⟨⟨.inr h, h'⟩, h''⟩
        · rintro ⟨⟨rfl | h, h'⟩, h''⟩
          · exact absurd ⟨h', h''⟩ hx
          · exact ⟨⟨h, h'⟩, h''⟩
  · unfold PointLayout.hasAttributeWithName PointLayout.getAttributeByName
    rw [List.any_eq_true]
    constructor
    · rintro ⟨m, hm, h⟩
      cases hf : l.attributes.find? (fun a => decide (a.name = d.name)) with
      | none => exact absurd h (by simpa using List.find?_eq_none.1 hf m hm)
      | some m' => exact ⟨m', rfl⟩
    · rintro ⟨m, h⟩
      exact ⟨m, List.mem_of_find?_eq_some h,
        List.find?_some (p := fun a : Member => decide (a.name = d.name)) h⟩

/-- C06. `compare_without_offsets` holds exactly when both layouts have the same set of
    (name, datatype) pairs. -/
theorem C06_compare_iff_same_attributes (l o : PointLayout)
    (hl : (l.attributes.map Member.name).Nodup) (ho : (o.attributes.map Member.name).Nodup) :
    l.compareWithoutOffsets o = true ↔
      ∀ d : AttrDef, d ∈ l.attributes.map Member.definition ↔ d ∈ o.attributes.map Member.definition := by
  have nd : ∀ x : PointLayout, (x.attributes.map Member.name).Nodup →
      (x.attributes.map Member.definition).Nodup := by
    intro x hx
    have : x.attributes.map Member.name = (x.attributes.map Member.definition).map AttrDef.name := by
      rw [List.map_map]; rfl
    rw [this] at hx
    exact List.Nodup.of_map _ hx
  have step : ∀ a : Member, (match (o.getAttributeByName a.name).map
      (fun b => decide (b.datatype = a.datatype)) with
      | some b => b
      | none => false) = true ↔ a.definition ∈ o.attributes.map Member.definition := by
    intro a
    cases hf : o.getAttributeByName a.name with
    | none =>
      simp only [Option.map_none, Bool.false_eq_true, false_iff]
      intro hmem
      obtain ⟨b, hb, hba⟩ := List.mem_map.1 hmem
      have := (getByName_iff o ho a.name b).2 ⟨hb, by simp [Member.name, hba]⟩
      rw [hf] at this; simp at this
    | some b =>
      have h1 := (getByName_iff o ho a.name b).1 hf
      simp only [Option.map_some, decide_eq_true_eq]
      constructor
      · intro h
        refine List.mem_map.2 ⟨b, h1.1, ?_⟩
        have h2 := h1.2
        cases hb : b.definition; cases ha : a.definition
        simp [Member.name, Member.datatype, hb, ha] at h h2
        simp [h, h2]
      · intro hmem
        obtain ⟨c, hc, hca⟩ := List.mem_map.1 hmem
        have := (getByName_iff o ho a.name c).2 ⟨hc, by simp [Member.name, hca]⟩
        rw [hf] at this
        simp at this; subst this
        simp [Member.datatype, hca]
  unfold PointLayout.compareWithoutOffsets
  by_cases hlen : l.attributes.length = o.attributes.length
  · rw [if_neg (by simpa using hlen)]
    rw [List.all_eq_true]
    constructor
    · intro h
      have hsub : l.attributes.map Member.definition ⊆ o.attributes.map Member.definition := by
        intro d hd
        obtain ⟨a, ha, rfl⟩ := List.mem_map.1 hd
        exact (step a).1 (h a ha)
      have hperm := (List.subperm_of_subset (nd l hl) hsub).perm_of_length_le (by simp [hlen])
      intro d; exact hperm.mem_iff
    · intro h a ha
      exact (step a).2 ((h _).1 (List.mem_map.2 ⟨a, ha, rfl⟩))
  · rw [if_pos (by simpa using hlen)]
    simp only [Bool.false_eq_true, false_iff]
    intro h
    have := (List.perm_ext_iff_of_nodup (nd l hl) (nd o ho)).2 h
    exact hlen (by simpa using this.length_eq)

/-- C06. Hence `compare_without_offsets` is an equivalence relation on layouts with unique names. -/
theorem C06_compare_equivalence (a b c : PointLayout)
    (ha : (a.attributes.map Member.name).Nodup) (hb : (b.attributes.map Member.name).Nodup)
    (hc : (c.attributes.map Member.name).Nodup) :
    a.compareWithoutOffsets a = true ∧
    (a.compareWithoutOffsets b = true → b.compareWithoutOffsets a = true) ∧
    (a.compareWithoutOffsets b = true → b.compareWithoutOffsets c = true →
      a.compareWithoutOffsets c = true) := by
  rw [C06_compare_iff_same_attributes a a ha ha, C06_compare_iff_same_attributes a b ha hb,
    C06_compare_iff_same_attributes b a hb ha, C06_compare_iff_same_attributes b c hb hc,
    C06_compare_iff_same_attributes a c ha hc]
  exact ⟨fun d => Iff.rfl, fun h d => (h d).symm, fun h1 h2 d => (h1 d).trans (h2 d)⟩

example : (⟨[⟨⟨"p", .vec3f64⟩, 0⟩, ⟨⟨"i", .u16⟩, 24⟩], 32, 8⟩ : PointLayout).compareWithoutOffsets
    ⟨[⟨⟨"i", .u16⟩, 0⟩, ⟨⟨"p", .vec3f64⟩, 2⟩], 26, 1⟩ = true := by decide

/-! ## C07: derive(PointType) -/

open Derive in
/-- The fields of the struct as the Rust compiler sees them. -/
def structFields (fs : List FieldDesc) : List Field :=
  fs.map fun f => ⟨f.primitiveType.toDataType.size, f.primitiveType.toDataType.minAlignment⟩

open Derive in
/-- Helper: the derive crate's own size and alignment tables agree with pasture-core's. -/
theorem derive_tables (t : PrimType) :
    t.size = t.toDataType.size ∧ t.minAlignment = t.toDataType.minAlignment := by
  cases t <;> exact ⟨rfl, rfl⟩

open Derive in
theorem fieldAlignment_pow2 (sl : StructMemberLayout) (t : PrimType)
    (hn : ∀ n, sl = .packed n → ∃ k, n = 2 ^ k) : ∃ k, fieldAlignment sl t = 2 ^ k := by
  have ht : ∃ k, t.minAlignment = 2 ^ k := by
    cases t <;> first | exact ⟨0, rfl⟩ | exact ⟨1, rfl⟩ | exact ⟨2, rfl⟩ | exact ⟨3, rfl⟩
  cases sl with
  | c => exact ht
  | packed n =>
    unfold fieldAlignment
    rcases Nat.le_total n t.minAlignment with h | h
    · simp only [Nat.min_eq_left h]; exact hn n rfl
    · simp only [Nat.min_eq_right h]; exact ht

open Derive in
/-- Helper: what the offset loop of the macro computes. -/
theorem offsetsLoop_spec (sl : StructMemberLayout) (hn : ∀ n, sl = .packed n → ∃ k, n = 2 ^ k) :
    ∀ (fs : List FieldDesc) (preF : List Field) (offs : List Nat) (cur maxA : Nat),
      Placed 0 preF offs cur → IsMaxAlign preF maxA →
      ∃ stop, Placed 0 (preF ++ fs.map fun f => ⟨f.primitiveType.size, fieldAlignment sl f.primitiveType⟩)
          (offsetsLoop sl fs offs cur maxA).1 stop ∧
        IsMaxAlign (preF ++ fs.map fun f => ⟨f.primitiveType.size, fieldAlignment sl f.primitiveType⟩)
          (offsetsLoop sl fs offs cur maxA).2 := by
  intro fs
  induction fs with
  | nil => intro preF offs cur maxA h1 h2; exact ⟨cur, by simpa [offsetsLoop] using h1, by simpa [offsetsLoop] using h2⟩
  | cons f fs ih =>
    intro preF offs cur maxA h1 h2
    have hpos := pow2_pos (fieldAlignment_pow2 sl f.primitiveType hn)
    have hal : ((cur + fieldAlignment sl f.primitiveType - 1) / fieldAlignment sl f.primitiveType)
        * fieldAlignment sl f.primitiveType = alignTo cur (fieldAlignment sl f.primitiveType) := by
      unfold alignTo; rw [if_neg (by omega)]
    have := ih (preF ++ [⟨f.primitiveType.size, fieldAlignment sl f.primitiveType⟩])
      (offs ++ [alignTo cur (fieldAlignment sl f.primitiveType)])
      (alignTo cur (fieldAlignment sl f.primitiveType) + f.primitiveType.size)
      (max (fieldAlignment sl f.primitiveType) maxA)
      (Spec.Placed.snoc (f := ⟨f.primitiveType.size, fieldAlignment sl f.primitiveType⟩) h1
        (alignTo_isLeast _ _ hpos))
      (by
        have := h2.snoc ⟨f.primitiveType.size, fieldAlignment sl f.primitiveType⟩
        rw [Nat.max_comm]; exact this)
    simp only [offsetsLoop, hal]
    simpa using this

/-- Helper: placed fields never overlap and appear in increasing order. -/
theorem placed_pairwise {e e' : Nat} {fs : List Field} {o : List Nat} (h : Placed e fs o e') :
    (fs.zip o).Pairwise (fun a b => a.2 + a.1.size ≤ b.2) ∧
    (∀ p ∈ fs.zip o, e ≤ p.2 ∧ p.2 + p.1.size ≤ e') ∧ fs.length = o.length := by
  induction h with
  | nil => simp
  | cons h1 h2 ih =>
    obtain ⟨i1, i2, i3⟩ := ih
    have hle := h1.2.1
    have hend := h2.le
    refine ⟨?_, ?_, by simp [i3]⟩
    · rw [List.zip_cons_cons, List.pairwise_cons]
      exact ⟨fun p hp => (i2 p hp).1, i1⟩
    · intro p hp
      rw [List.zip_cons_cons] at hp
      rcases List.mem_cons.1 hp with rfl | hp
      · exact ⟨hle, hend⟩
      · have := i2 p hp; omega

open Derive in
/-- C07. For every struct with distinct attribute names whose `repr(C)` / `repr(C, packed(N))`
    size fits a memory layout, the generated `layout()` does not panic and reports exactly the
    offsets, size and alignment the Rust rules give, with the declared names and types in order. -/
theorem C07_derive_matches_rust_layout (sl : StructMemberLayout) (fs : List FieldDesc)
    (offs : List Nat) (size align : Nat)
    (hrust : match sl with
      | .c => StructLayout (structFields fs) offs size align
      | .packed n => PackedStructLayout n (structFields fs) offs size align)
    (hn : ∀ n, sl = .packed n → ∃ k, n = 2 ^ k)
    (hnames : (fs.map FieldDesc.attributeName).Nodup)
    (hfit : size + align ≤ 2 ^ 63) :
    ∃ l, Derive.layout sl fs = .ok l ∧
      l.attributes.map Member.definition =
        fs.map (fun f => ⟨f.attributeName, f.primitiveType.toDataType⟩) ∧
      l.attributes.map Member.offset = offs ∧ l.size = size ∧ l.align = align := by
  have hfields : StructLayout (fs.map fun f => ⟨f.primitiveType.size, fieldAlignment sl f.primitiveType⟩)
      offs size align := by
    cases sl with
    | c =>
      simp only [structFields] at hrust
      convert hrust using 4 with f
      · exact (derive_tables _).1
      · exact (derive_tables _).2
    | packed n =>
      simp only [PackedStructLayout, structFields, List.map_map] at hrust
      convert hrust using 4 with f
      · exact (derive_tables _).1
      · exact congrArg (min n) (derive_tables _).2
  obtain ⟨stop, hpl, hmax⟩ := offsetsLoop_spec sl hn fs [] [] 0 1 (.nil 0)
    ⟨by simp, by simp, .inl rfl⟩
  simp only [List.nil_append] at hpl hmax
  obtain ⟨stop', hpl', hmax', hleast⟩ := hfields
  obtain ⟨ho, rfl⟩ := hpl.unique hpl'
  have ha := hmax.unique hmax'
  have hpw := placed_pairwise hpl'
  have hlen : fs.length = offs.length := by simpa using hpw.2.2
  have halpow : ∃ k, align = 2 ^ k := by
    rcases hmax'.2.2 with h | ⟨f, hf, h⟩
    · exact ⟨0, h⟩
    · obtain ⟨d, _, rfl⟩ := List.mem_map.1 hf
      obtain ⟨k, hk⟩ := fieldAlignment_pow2 sl d.primitiveType hn
      exact ⟨k, by rw [← h]; exact hk⟩
  let ms : List Member :=
    (fs.zip offs).map fun (f, o) => ⟨⟨f.attributeName, f.primitiveType.toDataType⟩, o⟩
  have hms : Derive.layout sl fs = PointLayout.fromMembersAndAlignment ms align := by
    unfold Derive.layout calculateOffsetsAndAlignment
    simp only [ho, ha, ms]
  have hpos : ∀ m ∈ ms, 0 < m.size := by
    intro m hm
    obtain ⟨⟨f, o⟩, _, rfl⟩ := List.mem_map.1 hm
    show 0 < f.primitiveType.toDataType.size
    cases f.primitiveType <;> decide
  have hapart : ms.Pairwise (fun a b => a.offset + a.size ≤ b.offset) := by
    have h1 := hpw.1
    rw [List.zip_map_left, List.pairwise_map] at h1
    rw [List.pairwise_map]
    refine h1.imp ?_
    rintro ⟨f, o⟩ ⟨f', o'⟩ h
    simp only [Prod.map] at h
    show o + f.primitiveType.toDataType.size ≤ o'
    rw [← (derive_tables f.primitiveType).1]; exact h
  have hinside : ∀ m ∈ ms, m.offset + m.size ≤ stop := by
    intro m hm
    obtain ⟨⟨f, o⟩, hfo, rfl⟩ := List.mem_map.1 hm
    have := hpw.2.1 (⟨f.primitiveType.size, fieldAlignment sl f.primitiveType⟩, o) (by
      rw [List.zip_map_left]; exact List.mem_map.2 ⟨(f, o), hfo, rfl⟩)
    show o + f.primitiveType.toDataType.size ≤ stop
    rw [← (derive_tables f.primitiveType).1]; exact this.2
  have hstop : ∀ s, (∀ m ∈ ms, m.offset + m.size ≤ s) → stop ≤ s := by
    intro s hs
    -- the last member ends exactly at `stop`
    have : ∀ {e e' : Nat} {gs : List Field} {o : List Nat}, Placed e gs o e' →
        (gs = [] ∧ e = e') ∨ ∃ p ∈ gs.zip o, p.2 + p.1.size = e' := by
      intro e e' gs o h
      induction h with
      | nil => exact .inl ⟨rfl, rfl⟩
      | cons h1 h2 ih =>
        rcases ih with ⟨rfl, rfl⟩ | ⟨p, hp, hpe⟩
        · exact .inr ⟨_, by cases h2; exact List.mem_cons_self .., rfl⟩
        · exact .inr ⟨p, List.mem_cons_of_mem _ hp, hpe⟩
    rcases this hpl' with ⟨_, rfl⟩ | ⟨p, hp, rfl⟩
    · exact Nat.zero_le _
    · rw [List.zip_map_left] at hp
      obtain ⟨⟨f, o⟩, hfo, rfl⟩ := List.mem_map.1 hp
      have := hs ⟨⟨f.attributeName, f.primitiveType.toDataType⟩, o⟩
        (List.mem_map.2 ⟨(f, o), hfo, rfl⟩)
      simp only [Prod.map, id]
      rw [(derive_tables f.primitiveType).1]; exact this
  have hnd : (ms.map Member.name).Nodup := by
    have : ms.map Member.name = fs.map FieldDesc.attributeName := by
      simp only [ms, List.map_map]
      conv => rhs; rw [← List.map_fst_zip (l₁ := fs) (l₂ := offs) (by omega), List.map_map]
      simp [Function.comp_def, Member.name]
    rw [this]; exact hnames
  obtain ⟨l, hl⟩ := (C03_from_members_accepts_iff ms align hpos).2
    ⟨hnd, hapart.imp (fun h => not_overlap_of_apart (.inl h)), halpow, size, hleast.1,
      fun m hm => Nat.le_trans (hinside m hm) hleast.2.1, hfit⟩
  have hres := C03_from_members_result ms align hpos l hl
  refine ⟨l, hms.trans hl, ?_, ?_, ?_, hres.2.1⟩
  · rw [hres.1]
    simp only [ms, List.map_map]
    conv => rhs; rw [← List.map_fst_zip (l₁ := fs) (l₂ := offs) (by omega), List.map_map]
    simp [Function.comp_def]
  · rw [hres.1]
    simp only [ms, List.map_map]
    conv => rhs; rw [← List.map_snd_zip (l₁ := fs) (l₂ := offs) (by omega)]
    simp [Function.comp_def]
  · apply Nat.le_antisymm
    · exact hres.2.2.2.2.2 size hleast.1 (fun m hm => Nat.le_trans (hinside m hm) hleast.2.1)
    · exact hleast.2.2 _ hres.2.2.1 (hstop _ hres.2.2.2.2.1)

open Derive in
/-- Non-vacuity of C07: a `repr(C)` struct {u8, Vec3f64, u16} has size 40; as `packed(4)` size 32. -/
example :
    (Derive.layout .c [⟨"a", .u8⟩, ⟨"p", .vec3f64⟩, ⟨"i", .u16⟩]).map
      (fun l => (l.attributes.map Member.offset, l.size, l.align)) = .ok ([0, 8, 32], 40, 8) ∧
    (Derive.layout (.packed 4) [⟨"a", .u8⟩, ⟨"p", .vec3f64⟩, ⟨"i", .u16⟩]).map
      (fun l => (l.attributes.map Member.offset, l.size, l.align)) = .ok ([0, 4, 28], 32, 4) := by
  decide

open Derive in
/-- C07, disagreement: the macro ignores `align(N)`. For `#[repr(C, align(16))] struct { u64 }` the
    struct has size and alignment 16, the generated layout reports 8 and 8. -/
theorem C07_derive_ignores_align :
    Derive.derivePointType [[.c, .align 16]] [⟨"t", .u64⟩] = .ok ⟨[⟨⟨"t", .u64⟩, 0⟩], 8, 8⟩ ∧
    RustStructLayout none 16 (structFields [⟨"t", .u64⟩]) [0] 16 16 := by
  refine ⟨by decide, 8, 8, ?_, ?_, by decide, ?_⟩
  · exact .cons ⟨by decide, by decide, fun r _ h => h⟩ (.nil _)
  · exact ⟨by decide, by simp [structFields, PrimType.toDataType, DataType.minAlignment],
      .inr ⟨⟨8, 8⟩, by simp [structFields, PrimType.toDataType, DataType.minAlignment, DataType.size], rfl⟩⟩
  · refine ⟨by decide, by decide, ?_⟩
    intro r hd hr
    obtain ⟨k, rfl⟩ := hd
    omega

open Derive in
/-- C07, disagreement: only the first `#[repr]` attribute is read, so
    `#[repr(C)] #[repr(packed)] struct { u8, u64 }` (9 bytes in Rust) is given a 16 byte layout. -/
theorem C07_derive_reads_first_repr_only :
    (Derive.derivePointType [[.c], [.packed]] [⟨"a", .u8⟩, ⟨"t", .u64⟩]).map (·.size) = .ok 16 ∧
    RustStructLayout (some 1) 1 (structFields [⟨"a", .u8⟩, ⟨"t", .u64⟩]) [0, 1] 9 1 := by
  refine ⟨by decide, 9, 1, ?_, ?_, by decide, ?_⟩
  · exact .cons ⟨by decide, by decide, fun r _ h => h⟩
      (.cons ⟨by decide, by decide, fun r _ h => h⟩ (.nil _))
  · refine ⟨by decide, ?_, .inl rfl⟩
    intro f hf
    simp [structFields, PrimType.toDataType, DataType.minAlignment] at hf
    rcases hf with rfl | rfl <;> decide
  · exact ⟨by decide, by decide, fun r _ h => h⟩

end Pasture.Props
