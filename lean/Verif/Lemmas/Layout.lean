import Verif.Lemmas.Arith
import Verif.Lemmas.Loop

/-! # Lemmas about point layouts -/

namespace Pasture
open Spec

/-- The `Field` the layout rules see for an attribute. -/
def AttrDef.field (d : AttrDef) : Field := ⟨d.datatype.size, d.datatype.minAlignment⟩

theorem memoryLayout_ok {s a s' a' : Nat} :
    memoryLayout s a = .ok (s', a') ↔ (∃ k, a = 2 ^ k) ∧ s + a ≤ 2 ^ 63 ∧ s' = s ∧ a' = a := by
  unfold memoryLayout
  rw [← isPow2_iff]
  split
  · rename_i h
    constructor
    · intro h'; simp at h'; exact ⟨h.1, h.2, h'.1.symm, h'.2.symm⟩
    · rintro ⟨-, -, rfl, rfl⟩; rfl
  · rename_i h
    constructor
    · intro h'; simp [panicked] at h'
    · rintro ⟨h1, h2, -, -⟩; exact absurd ⟨h1, h2⟩ h

theorem memoryLayout_error {s a : Nat} {e : Fault} (h : memoryLayout s a = .error e) :
    e = .panic := by
  unfold memoryLayout panicked at h; split at h <;> simp at h; exact h.symm

namespace PointLayout

theorem getAttributeByName_isSome (l : PointLayout) (n : String) :
    (l.getAttributeByName n).isSome = true ↔ n ∈ l.attributes.map Member.name := by
  simp [getAttributeByName, List.find?_isSome]

theorem addAttribute_ok {l l' : PointLayout} {d : AttrDef} {fa : FieldAlignment} :
    l.addAttribute d fa = .ok l' ↔
      d.name ∉ l.attributes.map Member.name ∧
      (∃ k, l.newAlign d fa = 2 ^ k) ∧
      l'.size + l'.align ≤ 2 ^ 63 ∧
      l' = ⟨l.attributes ++ [⟨d, alignTo l.packedOffsetOfNextField (fieldAlign d fa)⟩],
            alignTo (max l.size (alignTo l.packedOffsetOfNextField (fieldAlign d fa) + d.size))
              (l.newAlign d fa), l.newAlign d fa⟩ := by
  unfold addAttribute
  have hn := l.getAttributeByName_isSome d.name
  split
  · rename_i h
    have := hn.1 h
    simp only [panicked, reduceCtorEq, false_iff]
    rintro ⟨h', -⟩; exact h' this
  · rename_i h
    have hnot : d.name ∉ l.attributes.map Member.name := fun h' => h (hn.2 h')
    simp only
    cases hm : memoryLayout (alignTo (max l.size (alignTo l.packedOffsetOfNextField
        (fieldAlign d fa) + d.size)) (l.newAlign d fa)) (l.newAlign d fa) with
    | error e =>
      simp only [reduceCtorEq, false_iff]
      rintro ⟨-, h1, h2, rfl⟩
      have := memoryLayout_ok.2 ⟨h1, h2, rfl, rfl⟩
      rw [hm] at this; simp at this
    | ok p =>
      obtain ⟨s, a⟩ := p
      obtain ⟨h1, h2, rfl, rfl⟩ := memoryLayout_ok.1 hm
      constructor
      · intro h; simp only [Except.ok.injEq] at h; subst h
        exact ⟨hnot, h1, h2, rfl⟩
      · rintro ⟨-, -, -, rfl⟩; rfl

theorem addAttribute_error {l : PointLayout} {d : AttrDef} {fa : FieldAlignment} {e : Fault}
    (h : l.addAttribute d fa = .error e) : e = .panic := by
  unfold addAttribute panicked at h
  split at h
  · simp at h; exact h.symm
  · simp only at h
    split at h
    · rename_i h'; simp at h; subst h; exact memoryLayout_error h'
    · simp at h

theorem packedOffset_snoc (as : List Member) (m : Member) (s a : Nat) :
    packedOffsetOfNextField ⟨as ++ [m], s, a⟩ = m.stop := by
  simp [packedOffsetOfNextField, Member.stop]

/-- The invariant of layouts built by `add_attribute` from the default layout. -/
structure Ordered (l : PointLayout) : Prop where
  names : (l.attributes.map Member.name).Nodup
  ordered : l.attributes.Pairwise (fun a b => a.stop ≤ b.offset)
  inside : ∀ m ∈ l.attributes, m.stop ≤ l.size

theorem Ordered.default : Ordered PointLayout.default :=
  ⟨by simp [PointLayout.default], by simp [PointLayout.default], by simp [PointLayout.default]⟩

theorem packedOffset_ge (l : PointLayout) (h : l.attributes.Pairwise (fun a b => a.stop ≤ b.offset)) :
    ∀ m ∈ l.attributes, m.stop ≤ l.packedOffsetOfNextField := by
  intro m hm
  unfold packedOffsetOfNextField
  rcases List.eq_nil_or_concat l.attributes with h0 | ⟨as, z, hz⟩
  · rw [h0] at hm; simp at hm
  · rw [List.concat_eq_append] at hz
    rw [hz] at hm h ⊢
    simp only [List.getLast?_append, List.getLast?_singleton, Option.some_or]
    rcases List.mem_append.1 hm with hm | hm
    · have := (List.pairwise_append.1 h).2.2 m hm z (by simp)
      unfold Member.stop at *; omega
    · simp at hm; subst hm; unfold Member.stop; omega

theorem Ordered.addAttribute {l l' : PointLayout} {d : AttrDef} {fa : FieldAlignment}
    (h : l.Ordered) (hl : l.addAttribute d fa = .ok l') : l'.Ordered := by
  obtain ⟨h1, -, -, rfl⟩ := addAttribute_ok.1 hl
  refine ⟨?_, ?_, ?_⟩
  · simp only [List.map_append, List.map_cons, List.map_nil]
    rw [List.nodup_append]
    refine ⟨h.names, by simp, ?_⟩
    intro a ha b hb
    simp at hb; subst hb
    intro hab; subst hab
    exact h1 ha
  · simp only
    rw [List.pairwise_append]
    refine ⟨h.ordered, by simp, ?_⟩
    intro a ha b hb
    simp at hb; subst hb
    have h2 := packedOffset_ge l h.ordered a ha
    have h3 := le_alignTo l.packedOffsetOfNextField (fieldAlign d fa)
    simp only; omega
  · intro m hm
    simp only at hm ⊢
    have hle := le_alignTo (max l.size (alignTo l.packedOffsetOfNextField (fieldAlign d fa) + d.size))
      (l.newAlign d fa)
    rcases List.mem_append.1 hm with hm | hm
    · have := h.inside m hm; omega
    · simp at hm; subst hm; simp only [Member.stop, Member.size]; omega

/-- Invariant for C01: after processing `ds`. -/
structure ReprC (ds : List AttrDef) (l : PointLayout) : Prop where
  defs : l.attributes.map Member.definition = ds
  placed : Placed 0 (ds.map AttrDef.field) (l.attributes.map Member.offset) l.packedOffsetOfNextField
  maxAlign : IsMaxAlign (ds.map AttrDef.field) l.align
  size : l.size = alignTo l.packedOffsetOfNextField l.align

theorem ReprC.layout {ds : List AttrDef} {l : PointLayout} (h : ReprC ds l) :
    StructLayout (ds.map AttrDef.field) (l.attributes.map Member.offset) l.size l.align :=
  ⟨_, h.placed, h.maxAlign, by rw [h.size]; exact alignTo_isLeast _ _ h.maxAlign.1⟩

theorem ReprC.default : ReprC [] PointLayout.default :=
  ⟨rfl, .nil 0, ⟨by simp [PointLayout.default], by simp, .inl rfl⟩, by
    simp [PointLayout.default, packedOffsetOfNextField, alignTo]⟩

theorem ReprC.align_pow2 {ds : List AttrDef} {l : PointLayout} (h : ReprC ds l)
    (hp : ∀ d ∈ ds, ∃ k, d.datatype.minAlignment = 2 ^ k) : ∃ k, l.align = 2 ^ k := by
  rcases h.maxAlign.2.2 with h1 | ⟨f, hf, h1⟩
  · exact ⟨0, h1⟩
  · obtain ⟨d, hd, rfl⟩ := List.mem_map.1 hf
    obtain ⟨k, hk⟩ := hp d hd
    exact ⟨k, by rw [← h1]; exact hk⟩

theorem max_pow2 {a b : Nat} (ha : ∃ k, a = 2 ^ k) (hb : ∃ k, b = 2 ^ k) : ∃ k, max a b = 2 ^ k := by
  rcases Nat.le_total a b with h | h
  · rw [Nat.max_eq_right h]; exact hb
  · rw [Nat.max_eq_left h]; exact ha

theorem ReprC.addAttribute {ds : List AttrDef} {l l' : PointLayout} {d : AttrDef}
    (h : ReprC ds l) (hp : ∀ d ∈ ds, ∃ k, d.datatype.minAlignment = 2 ^ k)
    (hd : ∃ k, d.datatype.minAlignment = 2 ^ k) (hl : l.addAttribute d .default = .ok l') :
    ReprC (ds ++ [d]) l' := by
  obtain ⟨-, -, -, rfl⟩ := addAttribute_ok.1 hl
  have hda := pow2_pos hd
  refine ⟨by simp [h.defs], ?_, ?_, ?_⟩
  · rw [packedOffset_snoc]
    simp only [List.map_append, List.map_cons, List.map_nil]
    exact Spec.Placed.snoc h.placed (f := d.field) (alignTo_isLeast _ _ hda)
  · simp only [List.map_append, List.map_cons, List.map_nil]
    exact h.maxAlign.snoc d.field
  · rw [packedOffset_snoc]
    simp only [newAlign, fieldAlign, Member.stop, Member.size]
    rw [h.size]
    obtain ⟨i, hi⟩ := h.align_pow2 hp
    obtain ⟨j, hj⟩ := max_pow2 (h.align_pow2 hp) hd
    apply alignTo_max_alignTo
    · rw [hj, hi]; apply pow2_dvd_of_le; rw [← hj, ← hi]; omega
    · exact h.maxAlign.1
    · rw [hj]; exact Nat.two_pow_pos j
    · have := le_alignTo l.packedOffsetOfNextField d.datatype.minAlignment
      omega

end PointLayout

theorem Spec.Placed.append_inv {e e' : Nat} {fs gs : List Field} {o : List Nat}
    (h : Placed e (fs ++ gs) o e') : ∃ o1 o2 m, Placed e fs o1 m ∧ Placed m gs o2 e' ∧ o = o1 ++ o2 := by
  induction fs generalizing e o with
  | nil => exact ⟨[], o, e, .nil e, h, rfl⟩
  | cons f fs ih =>
    cases h with
    | cons h1 h2 =>
      obtain ⟨o1, o2, m, a, b, rfl⟩ := ih h2
      exact ⟨_ :: o1, o2, m, .cons h1 a, b, rfl⟩

theorem Spec.Placed.le {e e' : Nat} {fs : List Field} {o : List Nat} (h : Placed e fs o e') :
    e ≤ e' := by
  induction h with
  | nil => omega
  | cons h1 _ ih => have := h1.2.1; omega

/-- A struct with more fields is at least as large and at least as aligned. -/
theorem Spec.StructLayout.mono {fs gs : List Field} {o o' : List Nat} {s s' a a' : Nat}
    (hp : ∀ f ∈ fs ++ gs, ∃ k, f.align = 2 ^ k)
    (h : StructLayout fs o s a) (h' : StructLayout (fs ++ gs) o' s' a') : s ≤ s' ∧ a ≤ a' := by
  obtain ⟨e, p, m, l⟩ := h
  obtain ⟨e', p', m', l'⟩ := h'
  obtain ⟨o1, o2, mid, q1, q2, -⟩ := p'.append_inv
  obtain ⟨-, rfl⟩ := p.unique q1
  have hle := q2.le
  have haa : a ≤ a' := by
    rcases m.2.2 with rfl | ⟨f, hf, rfl⟩
    · exact m'.1
    · exact m'.2.1 f (List.mem_append_left _ hf)
  have h1 : ∃ k, a = 2 ^ k := by
    rcases m.2.2 with h | ⟨f, hf, h⟩
    · exact ⟨0, h⟩
    · obtain ⟨k, hk⟩ := hp f (List.mem_append_left _ hf); exact ⟨k, by omega⟩
  have h2 : ∃ k, a' = 2 ^ k := by
    rcases m'.2.2 with h | ⟨f, hf, h⟩
    · exact ⟨0, h⟩
    · obtain ⟨k, hk⟩ := hp f hf; exact ⟨k, by omega⟩
  obtain ⟨i, rfl⟩ := h1
  obtain ⟨j, rfl⟩ := h2
  refine ⟨?_, haa⟩
  exact l.2.2 _ (Nat.dvd_trans (pow2_dvd_of_le haa) l'.1) (by have := l'.2.1; omega)

end Pasture

namespace Pasture
open Spec

/-! ## `from_members_and_alignment` -/

/-- Two byte ranges are apart. -/
def Member.Apart (a b : Member) : Prop := a.stop ≤ b.offset ∨ b.stop ≤ a.offset

theorem Member.Apart.symm {a b : Member} (h : a.Apart b) : b.Apart a := Or.symm h

namespace PointLayout

theorem pairwise_mem {α : Type} {R : α → α → Prop} (hs : ∀ {a b}, R a b → R b a) {l : List α}
    (h : l.Pairwise R) {a b : α} (ha : a ∈ l) (hb : b ∈ l) (hab : a ≠ b) : R a b := by
  induction l with
  | nil => simp at ha
  | cons x xs ih =>
    obtain ⟨h1, h2⟩ := List.pairwise_cons.1 h
    rcases List.mem_cons.1 ha with ha' | ha'
    · rcases List.mem_cons.1 hb with hb' | hb'
      · exact absurd (ha'.trans hb'.symm) hab
      · rw [ha']; exact h1 b hb'
    · rcases List.mem_cons.1 hb with hb' | hb'
      · rw [hb']; exact hs (h1 a ha')
      · exact ih h2 ha' hb'

theorem neighboursDisjoint_iff (rs : List Rng) (h : ∀ r ∈ rs, r.start ≤ r.stop) :
    neighboursDisjoint rs = true ↔ rs.Pairwise (fun a b => a.stop ≤ b.start) := by
  induction rs with
  | nil => simp [neighboursDisjoint]
  | cons a rs ih =>
    cases rs with
    | nil => simp [neighboursDisjoint]
    | cons b rs =>
      have ih' := ih (fun r hr => h r (List.mem_cons_of_mem _ hr))
      simp only [neighboursDisjoint, Bool.and_eq_true, decide_eq_true_eq, ih']
      constructor
      · rintro ⟨h1, h2⟩
        refine List.pairwise_cons.2 ⟨?_, h2⟩
        intro c hc
        rcases List.mem_cons.1 hc with rfl | hc
        · exact h1
        · have := (List.pairwise_cons.1 h2).1 c hc
          have := h b (by simp)
          omega
      · intro h1
        exact ⟨(List.pairwise_cons.1 h1).1 b (by simp), (List.pairwise_cons.1 h1).2⟩

instance : Std.Total (fun a b : Rng => a.start ≤ b.start) := ⟨fun _ _ => Nat.le_total _ _⟩
instance : IsTrans Rng (fun a b : Rng => a.start ≤ b.start) := ⟨fun _ _ _ => Nat.le_trans⟩

theorem sorted_apart {ms : List Member} (h : neighboursDisjoint (sortedRanges ms) = true) :
    ms.Pairwise Member.Apart := by
  have hperm := List.perm_insertionSort (fun a b : Rng => a.start ≤ b.start)
    (ms.map fun m => (⟨m.offset, m.offset + m.size⟩ : Rng))
  have hall : ∀ r ∈ sortedRanges ms, r.start ≤ r.stop := by
    intro r hr
    have := hperm.mem_iff.1 hr
    obtain ⟨m, _, rfl⟩ := List.mem_map.1 this
    simp
  have h1 := (neighboursDisjoint_iff _ hall).1 h
  have h2 : (sortedRanges ms).Pairwise (fun a b : Rng => a.stop ≤ b.start ∨ b.stop ≤ a.start) :=
    h1.imp (fun h => Or.inl h)
  have h3 := (hperm.pairwise_iff Or.symm).1 h2
  rw [List.pairwise_map] at h3
  exact h3

theorem apart_sorted {ms : List Member} (hpos : ∀ m ∈ ms, 0 < m.size)
    (h : ms.Pairwise Member.Apart) : neighboursDisjoint (sortedRanges ms) = true := by
  have hperm := List.perm_insertionSort (fun a b : Rng => a.start ≤ b.start)
    (ms.map fun m => (⟨m.offset, m.offset + m.size⟩ : Rng))
  have hall : ∀ r ∈ sortedRanges ms, r.start < r.stop := by
    intro r hr
    have := hperm.mem_iff.1 hr
    obtain ⟨m, hm, rfl⟩ := List.mem_map.1 this
    have := hpos m hm
    simp only; omega
  rw [neighboursDisjoint_iff _ (fun r hr => Nat.le_of_lt (hall r hr))]
  have h3 : (ms.map fun m => (⟨m.offset, m.offset + m.size⟩ : Rng)).Pairwise
      (fun a b : Rng => a.stop ≤ b.start ∨ b.stop ≤ a.start) := by
    rw [List.pairwise_map]; exact h
  have h2 := (hperm.pairwise_iff Or.symm).2 h3
  have hs := List.pairwise_insertionSort (fun a b : Rng => a.start ≤ b.start)
    (ms.map fun m => (⟨m.offset, m.offset + m.size⟩ : Rng))
  have h4 := h2.and hs
  refine List.Pairwise.imp_of_mem ?_ h4
  intro a b ha hb hab
  have h5 := hall b hb
  omega

theorem maxByOffset_fold (ms : List Member) (m : Member) :
    let r := ms.foldl (fun best x => if best.offset ≤ x.offset then x else best) m
    r ∈ m :: ms ∧ ∀ x ∈ m :: ms, x.offset ≤ r.offset := by
  induction ms generalizing m with
  | nil => simp
  | cons y ys ih =>
    simp only [List.foldl_cons]
    have := ih (if m.offset ≤ y.offset then y else m)
    simp only at this
    obtain ⟨h1, h2⟩ := this
    constructor
    · rcases List.mem_cons.1 h1 with h | h
      · rw [h]; split <;> simp
      · exact List.mem_cons_of_mem _ (List.mem_cons_of_mem _ h)
    · intro x hx
      have hb := h2 _ (List.mem_cons_self ..)
      rcases List.mem_cons.1 hx with rfl | hx
      · split at hb <;> rename_i hc
        · simp only [if_pos hc]; omega
        · simp only [if_neg hc]; exact hb
      · rcases List.mem_cons.1 hx with rfl | hx
        · split at hb <;> rename_i hc
          · simp only [if_pos hc]; exact hb
          · simp only [if_neg hc]; omega
        · exact h2 x (List.mem_cons_of_mem _ hx)

theorem unalignedSize_spec {ms : List Member} (hpos : ∀ m ∈ ms, 0 < m.size)
    (h : ms.Pairwise Member.Apart) :
    (∀ m ∈ ms, m.stop ≤ unalignedSize ms) ∧ (∀ s, (∀ m ∈ ms, m.stop ≤ s) → unalignedSize ms ≤ s) := by
  cases ms with
  | nil => simp [unalignedSize, maxByOffset]
  | cons y ys =>
    have := maxByOffset_fold ys y
    simp only at this
    obtain ⟨h1, h2⟩ := this
    simp only [unalignedSize, maxByOffset]
    generalize ys.foldl (fun best x => if best.offset ≤ x.offset then x else best) y = r at *
    refine ⟨?_, fun s hs => hs r h1⟩
    intro m hm
    by_cases hmr : m = r
    · subst hmr; exact Nat.le_refl _
    · have hap : m.Apart r :=
        pairwise_mem (fun h => Member.Apart.symm h) h hm h1 hmr
      have h3 := h2 m hm
      have h4 := hpos m hm
      have h5 := hpos r h1
      unfold Member.Apart Member.stop at *
      omega

theorem fromMembers_ok {ms : List Member} {a : Nat} {l : PointLayout} :
    fromMembersAndAlignment ms a = .ok l ↔
      (ms.map Member.name).Nodup ∧ neighboursDisjoint (sortedRanges ms) = true ∧
      (∃ k, a = 2 ^ k) ∧ alignTo (unalignedSize ms) a + a ≤ 2 ^ 63 ∧
      l = ⟨ms, alignTo (unalignedSize ms) a, a⟩ := by
  unfold fromMembersAndAlignment
  by_cases h1 : (ms.map Member.name).Nodup
  · rw [if_neg (by simpa using h1)]
    by_cases h2 : neighboursDisjoint (sortedRanges ms) = true
    · rw [if_neg (by simpa using h2)]
      cases hm : memoryLayout (alignTo (unalignedSize ms) a) a with
      | error e =>
        simp only [reduceCtorEq, false_iff]
        rintro ⟨-, -, h3, h4, -⟩
        have := memoryLayout_ok.2 ⟨h3, h4, rfl, rfl⟩
        rw [hm] at this; simp at this
      | ok p =>
        obtain ⟨s, a'⟩ := p
        obtain ⟨h3, h4, rfl, rfl⟩ := memoryLayout_ok.1 hm
        constructor
        · intro h; simp only [Except.ok.injEq] at h; exact ⟨h1, h2, h3, h4, h.symm⟩
        · rintro ⟨-, -, -, -, rfl⟩; rfl
    · rw [if_pos h2]
      simp only [panicked, reduceCtorEq, false_iff]
      rintro ⟨-, h, -⟩; exact h2 h
  · rw [if_pos h1]
    simp only [panicked, reduceCtorEq, false_iff]
    rintro ⟨h, -⟩; exact h1 h

theorem fromMembers_error {ms : List Member} {a : Nat} {e : Fault}
    (h : fromMembersAndAlignment ms a = .error e) : e = .panic := by
  unfold fromMembersAndAlignment panicked at h
  split at h
  · simp at h; exact h.symm
  · split at h
    · simp at h; exact h.symm
    · split at h
      · rename_i h'; simp at h; subst h; exact memoryLayout_error h'
      · simp at h

end PointLayout
end Pasture
