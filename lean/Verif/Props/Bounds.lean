import Verif.Lemmas.Bounds
import Verif.Props.UntypedPoint

/-!
# Properties C32 (axis-aligned boxes) and C34 (minimum and maximum of an attribute, bounds of a buffer)
-/

namespace Pasture.Props

open Spec BorrowedBuffer AABB

section
variable {α : Type} [Cmp α] {good : α → Prop}

/-! ## C32 -/

/-- `contains` is membership in the closed box. -/
theorem C32_contains (b : AABB α) (p : P3 α) : b.contains p = true ↔ InBox p b := by
  unfold AABB.contains InBox Below
  simp only [Bool.and_eq_true]
  tauto

/-- `from_min_max` panics iff the minimum is greater than the maximum on some axis, and otherwise gives
    the box with these corners. -/
theorem C32_from_min_max (o : Ordered α good) (mn mx : P3 α) (h1 : Coords good mn) (h2 : Coords good mx) :
    (Below mn mx → AABB.fromMinMax mn mx = .ok ⟨mn, mx⟩) ∧
      (¬ Below mn mx → AABB.fromMinMax mn mx = .error .panic) := by
  have hx := o.lt_iff _ _ h2.1 h1.1
  have hy := o.lt_iff _ _ h2.2.1 h1.2.1
  have hz := o.lt_iff _ _ h2.2.2 h1.2.2
  unfold AABB.fromMinMax Below
  constructor
  · rintro ⟨a, b, c⟩
    rw [if_neg]
    simp only [Bool.or_eq_true, hx, hy, hz, a, b, c]
    simp
  · intro hn
    rw [if_pos]
    · rfl
    · simp only [Bool.or_eq_true, hx, hy, hz]
      tauto

theorem within_iff (o : Ordered α good) {a c : AABB α} (ha : GoodBox good a) (hc : GoodBox good c)
    (hp : Proper a) : BoxWithin good a c ↔ Below c.min a.min ∧ Below a.max c.max := by
  obtain ⟨⟨a1, a2, a3⟩, a4, a5, a6⟩ := ha
  obtain ⟨⟨c1, c2, c3⟩, c4, c5, c6⟩ := hc
  constructor
  · intro h
    exact ⟨(h a.min ⟨a1, a2, a3⟩ ⟨⟨o.refl _ a1, o.refl _ a2, o.refl _ a3⟩, hp⟩).1,
      (h a.max ⟨a4, a5, a6⟩ ⟨hp, o.refl _ a4, o.refl _ a5, o.refl _ a6⟩).2⟩
  · rintro ⟨⟨m1, m2, m3⟩, x1, x2, x3⟩ p ⟨p1, p2, p3⟩ ⟨⟨h1, h2, h3⟩, h4, h5, h6⟩
    exact ⟨⟨o.trans _ _ _ c1 a1 p1 m1 h1, o.trans _ _ _ c2 a2 p2 m2 h2, o.trans _ _ _ c3 a3 p3 m3 h3⟩,
      o.trans _ _ _ p1 a4 c4 h4 x1, o.trans _ _ _ p2 a5 c5 h5 x2, o.trans _ _ _ p3 a6 c6 h6 x3⟩

theorem le_smaller_iff (o : Ordered α good) {a b c : α} (ha : good a) (hb : good b) (hc : good c) :
    Cmp.le c (smaller a b) = true ↔ Cmp.le c a = true ∧ Cmp.le c b = true := by
  obtain ⟨h1, h2⟩ := smaller_le o ha hb
  have hg := smaller_good (good := good) ha hb
  exact ⟨fun h => ⟨o.trans _ _ _ hc hg ha h h1, o.trans _ _ _ hc hg hb h h2⟩, fun h => le_smaller h.1 h.2⟩

theorem larger_le_iff (o : Ordered α good) {a b c : α} (ha : good a) (hb : good b) (hc : good c) :
    Cmp.le (larger a b) c = true ↔ Cmp.le a c = true ∧ Cmp.le b c = true := by
  obtain ⟨h1, h2⟩ := le_larger o ha hb
  have hg := larger_good (good := good) ha hb
  exact ⟨fun h => ⟨o.trans _ _ _ ha hg hc h1 h, o.trans _ _ _ hb hg hc h2 h⟩, fun h => larger_le h.1 h.2⟩

theorem smaller_le_of (o : Ordered α good) {a b c : α} (ha : good a) (hb : good b) (hc : good c)
    (h : Cmp.le a c = true ∨ Cmp.le b c = true) : Cmp.le (smaller a b) c = true := by
  obtain ⟨h1, h2⟩ := smaller_le o ha hb
  have hg := smaller_good (good := good) ha hb
  rcases h with h | h
  · exact o.trans _ _ _ hg ha hc h1 h
  · exact o.trans _ _ _ hg hb hc h2 h

theorem le_larger_of (o : Ordered α good) {a b c : α} (ha : good a) (hb : good b) (hc : good c)
    (h : Cmp.le c a = true ∨ Cmp.le c b = true) : Cmp.le c (larger a b) = true := by
  obtain ⟨h1, h2⟩ := le_larger o ha hb
  have hg := larger_good (good := good) ha hb
  rcases h with h | h
  · exact o.trans _ _ _ hc ha hg h h1
  · exact o.trans _ _ _ hc hb hg h h2

theorem union_good {a b : AABB α} (ha : GoodBox good a) (hb : GoodBox good b) : GoodBox good (a.union b) := by
  obtain ⟨⟨a1, a2, a3⟩, a4, a5, a6⟩ := ha
  obtain ⟨⟨b1, b2, b3⟩, b4, b5, b6⟩ := hb
  exact ⟨⟨smaller_good a1 b1, smaller_good a2 b2, smaller_good a3 b3⟩,
    larger_good a4 b4, larger_good a5 b5, larger_good a6 b6⟩

theorem union_proper (o : Ordered α good) {a b : AABB α} (ha : GoodBox good a) (hb : GoodBox good b)
    (pa : Proper a) : Proper (a.union b) := by
  obtain ⟨⟨a1, a2, a3⟩, a4, a5, a6⟩ := ha
  obtain ⟨⟨b1, b2, b3⟩, b4, b5, b6⟩ := hb
  obtain ⟨p1, p2, p3⟩ := pa
  exact ⟨smaller_le_of o a1 b1 (larger_good a4 b4) (.inl (le_larger_of o a4 b4 a1 (.inl p1))),
    smaller_le_of o a2 b2 (larger_good a5 b5) (.inl (le_larger_of o a5 b5 a2 (.inl p2))),
    smaller_le_of o a3 b3 (larger_good a6 b6) (.inl (le_larger_of o a6 b6 a3 (.inl p3)))⟩

/-- C32: `union` contains both boxes, and it lies within every box that contains both. -/
theorem C32_union_least (o : Ordered α good) (a b : AABB α) (ha : GoodBox good a) (hb : GoodBox good b)
    (pa : Proper a) (pb : Proper b) :
    BoxWithin good a (a.union b) ∧ BoxWithin good b (a.union b) ∧ Proper (a.union b) ∧
      ∀ c, GoodBox good c → BoxWithin good a c → BoxWithin good b c → BoxWithin good (a.union b) c := by
  have hu := union_good ha hb
  have pu := union_proper o ha hb pa
  obtain ⟨⟨a1, a2, a3⟩, a4, a5, a6⟩ := id ha
  obtain ⟨⟨b1, b2, b3⟩, b4, b5, b6⟩ := id hb
  have s1 := smaller_le o a1 b1
  have s2 := smaller_le o a2 b2
  have s3 := smaller_le o a3 b3
  have l1 := le_larger o a4 b4
  have l2 := le_larger o a5 b5
  have l3 := le_larger o a6 b6
  refine ⟨(within_iff o ha hu pa).2 ⟨⟨s1.1, s2.1, s3.1⟩, l1.1, l2.1, l3.1⟩,
    (within_iff o hb hu pb).2 ⟨⟨s1.2, s2.2, s3.2⟩, l1.2, l2.2, l3.2⟩, pu, ?_⟩
  intro c hc h1 h2
  obtain ⟨⟨u1, u2, u3⟩, u4, u5, u6⟩ := (within_iff o ha hc pa).1 h1
  obtain ⟨⟨v1, v2, v3⟩, v4, v5, v6⟩ := (within_iff o hb hc pb).1 h2
  exact (within_iff o hu hc pu).2 ⟨⟨le_smaller u1 v1, le_smaller u2 v2, le_smaller u3 v3⟩,
    larger_le u4 v4, larger_le u5 v5, larger_le u6 v6⟩

theorem same_of_within {a b : AABB α} (h1 : BoxWithin good a b) (h2 : BoxWithin good b a) :
    SameBox good a b := fun p hp => ⟨h1 p hp, h2 p hp⟩

/-- C32: `union` is commutative, associative and idempotent. -/
theorem C32_union_laws (o : Ordered α good) (a b c : AABB α) (ha : GoodBox good a) (hb : GoodBox good b)
    (hc : GoodBox good c) (pa : Proper a) (pb : Proper b) (pc : Proper c) :
    SameBox good (a.union b) (b.union a) ∧
      SameBox good ((a.union b).union c) (a.union (b.union c)) ∧ SameBox good (a.union a) a := by
  have gab := union_good ha hb
  have gbc := union_good hb hc
  obtain ⟨ab1, ab2, pab, ab3⟩ := C32_union_least o a b ha hb pa pb
  obtain ⟨ba1, ba2, _, ba3⟩ := C32_union_least o b a hb ha pb pa
  obtain ⟨bc1, bc2, pbc, bc3⟩ := C32_union_least o b c hb hc pb pc
  obtain ⟨l1, l2, _, l3⟩ := C32_union_least o (a.union b) c gab hc pab pc
  obtain ⟨r1, r2, _, r3⟩ := C32_union_least o a (b.union c) ha gbc pa pbc
  obtain ⟨aa1, _, _, aa3⟩ := C32_union_least o a a ha ha pa pa
  refine ⟨same_of_within (ab3 _ (union_good hb ha) ba2 ba1) (ba3 _ gab ab2 ab1), ?_,
    same_of_within (aa3 a ha (fun _ _ h => h) fun _ _ h => h) aa1⟩
  have gl := union_good gab hc
  have gr := union_good ha gbc
  refine same_of_within (l3 _ gr (ab3 _ gr r1 fun p hp h => r2 p hp (bc1 p hp h))
    fun p hp h => r2 p hp (bc2 p hp h)) (r3 _ gl (fun p hp h => l1 p hp (ab1 p hp h))
    (bc3 _ gl (fun p hp h => l1 p hp (ab2 p hp h)) l2))

/-- C32: `extend_with_point` contains the box and the point, and lies within every box that does. -/
theorem C32_extend_least (o : Ordered α good) (b : AABB α) (p : P3 α) (hb : GoodBox good b)
    (hp : Coords good p) (pb : Proper b) :
    BoxWithin good b (b.extendWithPoint p) ∧ InBox p (b.extendWithPoint p) ∧
      ∀ c, GoodBox good c → BoxWithin good b c → InBox p c → BoxWithin good (b.extendWithPoint p) c := by
  have e : b.extendWithPoint p = b.union ⟨p, p⟩ := rfl
  have gp : GoodBox good ⟨p, p⟩ := ⟨hp, hp⟩
  obtain ⟨p1, p2, p3⟩ := id hp
  have pp : Proper (⟨p, p⟩ : AABB α) := ⟨o.refl _ p1, o.refl _ p2, o.refl _ p3⟩
  obtain ⟨h1, h2, _, h3⟩ := C32_union_least o b ⟨p, p⟩ hb gp pb pp
  rw [e]
  refine ⟨h1, h2 p hp ⟨pp, pp⟩, fun c hc hbc hpc => h3 c hc hbc ?_⟩
  exact (within_iff o gp hc pp).2 hpc

/-- C32: `intersects` is symmetric and holds iff some point lies in both boxes. -/
theorem C32_intersects (o : Ordered α good) (a b : AABB α) (ha : GoodBox good a) (hb : GoodBox good b)
    (pa : Proper a) (pb : Proper b) :
    (a.intersects b = true ↔ ∃ p, Coords good p ∧ InBox p a ∧ InBox p b) ∧
      a.intersects b = b.intersects a := by
  have main : ∀ a b : AABB α, GoodBox good a → GoodBox good b → Proper a → Proper b →
      (a.intersects b = true ↔ ∃ p, Coords good p ∧ InBox p a ∧ InBox p b) := by
    intro a b ha hb pa pb
    obtain ⟨⟨a1, a2, a3⟩, a4, a5, a6⟩ := ha
    obtain ⟨⟨b1, b2, b3⟩, b4, b5, b6⟩ := hb
    obtain ⟨pa1, pa2, pa3⟩ := pa
    obtain ⟨pb1, pb2, pb3⟩ := pb
    unfold AABB.intersects
    simp only [Bool.and_eq_true]
    constructor
    · rintro ⟨⟨⟨x1, x2⟩, y1, y2⟩, z1, z2⟩
      refine ⟨⟨larger a.min.x b.min.x, larger a.min.y b.min.y, larger a.min.z b.min.z⟩,
        ⟨larger_good a1 b1, larger_good a2 b2, larger_good a3 b3⟩, ⟨⟨?_, ?_, ?_⟩, ?_, ?_, ?_⟩,
        ⟨?_, ?_, ?_⟩, ?_, ?_, ?_⟩
      · exact (le_larger o a1 b1).1
      · exact (le_larger o a2 b2).1
      · exact (le_larger o a3 b3).1
      · exact larger_le pa1 x2
      · exact larger_le pa2 y2
      · exact larger_le pa3 z2
      · exact (le_larger o a1 b1).2
      · exact (le_larger o a2 b2).2
      · exact (le_larger o a3 b3).2
      · exact larger_le x1 pb1
      · exact larger_le y1 pb2
      · exact larger_le z1 pb3
    · rintro ⟨p, ⟨p1, p2, p3⟩, ⟨⟨h1, h2, h3⟩, h4, h5, h6⟩, ⟨k1, k2, k3⟩, k4, k5, k6⟩
      exact ⟨⟨⟨o.trans _ _ _ a1 p1 b4 h1 k4, o.trans _ _ _ b1 p1 a4 k1 h4⟩,
        o.trans _ _ _ a2 p2 b5 h2 k5, o.trans _ _ _ b2 p2 a5 k2 h5⟩,
        o.trans _ _ _ a3 p3 b6 h3 k6, o.trans _ _ _ b3 p3 a6 k3 h6⟩
  refine ⟨main a b ha hb pa pb, ?_⟩
  rw [Bool.eq_iff_iff, main a b ha hb pa pb, main b a hb ha pb pa]
  constructor <;> (rintro ⟨p, h1, h2, h3⟩; exact ⟨p, h1, h3, h2⟩)

end

/-- Non-vacuity of the laws: two boxes of floats, with a negative zero among the coordinates. -/
example : let a : AABB F64 := ⟨⟨⟨true, 0⟩, ⟨false, 5⟩, ⟨true, 7⟩⟩, ⟨⟨false, 0⟩, ⟨false, 9⟩, ⟨false, 1⟩⟩⟩
    let b : AABB F64 := ⟨⟨⟨false, 0⟩, ⟨false, 8⟩, ⟨true, 3⟩⟩, ⟨⟨false, 4⟩, ⟨false, 8⟩, ⟨false, 2⟩⟩⟩
    GoodBox NotNaN a ∧ GoodBox NotNaN b ∧ Proper a ∧ Proper b ∧ a.intersects b = true := by
  simp only [GoodBox, Coords, NotNaN, Proper, Below]
  decide +kernel

/-- On every axis some coordinate is not `+∞` and some is not `-∞`. -/
def NotAllInfinite (ps : List (P3 F64)) : Prop :=
  ∀ axis ∈ [P3.x, P3.y, P3.z],
    (∃ p ∈ ps, Cmp.le (axis p) f64Max = true) ∧ ∃ p ∈ ps, Cmp.le f64Min (axis p) = true

theorem notNaN_max : NotNaN f64Max := by unfold NotNaN; decide +kernel
theorem notNaN_min : NotNaN f64Min := by unfold NotNaN; decide +kernel

/-- The folds of `from_iter` and `calculate_bounds` along one axis. -/
theorem axis_tight {top bottom : F64} (ht : NotNaN top) (hb : NotNaN bottom) {lo hi : F64 → F64 → F64} (hlo : Picks NotNaN Cmp.le lo)
    (hhi : Picks NotNaN (fun a b => Cmp.le b a) hi) {xs : List F64} (hx : ∀ x ∈ xs, NotNaN x)
    (h1 : ∃ x ∈ xs, Cmp.le x top = true) (h2 : ∃ x ∈ xs, Cmp.le bottom x = true) :
    NotNaN (xs.foldl lo top) ∧ NotNaN (xs.foldl hi bottom) ∧
      Cmp.le (xs.foldl lo top) (xs.foldl hi bottom) = true ∧
      (∀ x ∈ xs, Cmp.le (xs.foldl lo top) x = true ∧ Cmp.le x (xs.foldl hi bottom) = true) ∧
      (∃ x ∈ xs, Cmp.le x (xs.foldl lo top) = true) ∧ ∃ x ∈ xs, Cmp.le (xs.foldl hi bottom) x = true := by
  obtain ⟨_, a2, a3⟩ := hlo.fold xs top ht hx
  obtain ⟨_, b2, b3⟩ := hhi.fold xs bottom hb hx
  have a4 := hlo.fold_attained xs top ht hx h1
  have b4 := hhi.fold_attained xs bottom hb hx h2
  obtain ⟨x, hx1, _⟩ := id h1
  have hall : ∀ x ∈ xs, Cmp.le (xs.foldl lo top) x = true ∧ Cmp.le x (xs.foldl hi bottom) = true :=
    fun x hx => ⟨a3 x (by simp [hx]), b3 x (by simp [hx])⟩
  exact ⟨a2, b2, (ordered_flt _).trans _ _ _ a2 (hx x hx1) b2 (hall x hx1).1 (hall x hx1).2, hall, a4, b4⟩

theorem fold_tight {top bottom : F64} (ht : NotNaN top) (hb : NotNaN bottom) {lo hi : F64 → F64 → F64} (hlo : Picks NotNaN Cmp.le lo)
    (hhi : Picks NotNaN (fun a b => Cmp.le b a) hi) (ps : List (P3 F64))
    (hn : ∀ p ∈ ps, Coords NotNaN p) 
    (hi' : ∀ axis ∈ [P3.x, P3.y, P3.z],
      (∃ p ∈ ps, Cmp.le (axis p) top = true) ∧ ∃ p ∈ ps, Cmp.le bottom (axis p) = true) :
    let b : AABB F64 :=
      ⟨⟨(ps.map P3.x).foldl lo top, (ps.map P3.y).foldl lo top, (ps.map P3.z).foldl lo top⟩,
       ⟨(ps.map P3.x).foldl hi bottom, (ps.map P3.y).foldl hi bottom, (ps.map P3.z).foldl hi bottom⟩⟩
    AABB.fromMinMax b.min b.max = .ok b ∧ Tightest NotNaN b ps := by
  have key : ∀ axis ∈ [P3.x, P3.y, P3.z], (∀ p ∈ ps, NotNaN (axis p)) →
      let xs := ps.map axis
      NotNaN (xs.foldl lo top) ∧ NotNaN (xs.foldl hi bottom) ∧
        Cmp.le (xs.foldl lo top) (xs.foldl hi bottom) = true ∧
        (∀ x ∈ xs, Cmp.le (xs.foldl lo top) x = true ∧ Cmp.le x (xs.foldl hi bottom) = true) ∧
        (∃ x ∈ xs, Cmp.le x (xs.foldl lo top) = true) ∧
        ∃ x ∈ xs, Cmp.le (xs.foldl hi bottom) x = true := by
    intro axis ha hg
    obtain ⟨h1, h2⟩ := hi' axis ha
    refine axis_tight ht hb hlo hhi ?_ ?_ ?_
    · intro x hx; obtain ⟨p, hp, rfl⟩ := List.mem_map.1 hx; exact hg p hp
    · obtain ⟨p, hp, h⟩ := h1; exact ⟨_, List.mem_map_of_mem hp, h⟩
    · obtain ⟨p, hp, h⟩ := h2; exact ⟨_, List.mem_map_of_mem hp, h⟩
  obtain ⟨gx1, gx2, lx, ax, mx1, mx2⟩ := key P3.x (by simp) fun p hp => (hn p hp).1
  obtain ⟨gy1, gy2, ly, ay, my1, my2⟩ := key P3.y (by simp) fun p hp => (hn p hp).2.1
  obtain ⟨gz1, gz2, lz, az, mz1, mz2⟩ := key P3.z (by simp) fun p hp => (hn p hp).2.2
  intro b
  have o := ordered_flt FloatFormat.f64
  have gb : GoodBox NotNaN b := ⟨⟨gx1, gy1, gz1⟩, gx2, gy2, gz2⟩
  have pb : Proper b := ⟨lx, ly, lz⟩
  refine ⟨(C32_from_min_max o b.min b.max gb.1 gb.2).1 pb, ?_, ?_⟩
  · intro p hp
    obtain ⟨x1, x2⟩ := ax p.x (List.mem_map_of_mem hp)
    obtain ⟨y1, y2⟩ := ay p.y (List.mem_map_of_mem hp)
    obtain ⟨z1, z2⟩ := az p.z (List.mem_map_of_mem hp)
    exact ⟨⟨x1, y1, z1⟩, x2, y2, z2⟩
  · intro c hc hall
    apply (within_iff o gb hc pb).2
    obtain ⟨⟨c1, c2, c3⟩, c4, c5, c6⟩ := hc
    have low : ∀ (axis : P3 F64 → F64) (cm m : F64), NotNaN cm → NotNaN m → (∀ p ∈ ps, NotNaN (axis p)) →
        (∀ p ∈ ps, Cmp.le cm (axis p) = true) → (∃ x ∈ ps.map axis, Cmp.le x m = true) → Cmp.le cm m = true := by
      rintro axis cm m h1 h2 h3 h4 ⟨x, hx, h5⟩
      obtain ⟨p, hp, rfl⟩ := List.mem_map.1 hx
      exact o.trans _ _ _ h1 (h3 p hp) h2 (h4 p hp) h5
    have high : ∀ (axis : P3 F64 → F64) (cm m : F64), NotNaN cm → NotNaN m → (∀ p ∈ ps, NotNaN (axis p)) →
        (∀ p ∈ ps, Cmp.le (axis p) cm = true) → (∃ x ∈ ps.map axis, Cmp.le m x = true) → Cmp.le m cm = true := by
      rintro axis cm m h1 h2 h3 h4 ⟨x, hx, h5⟩
      obtain ⟨p, hp, rfl⟩ := List.mem_map.1 hx
      exact o.trans _ _ _ h2 (h3 p hp) h1 h5 (h4 p hp)
    refine ⟨⟨?_, ?_, ?_⟩, ?_, ?_, ?_⟩
    · exact low P3.x _ _ c1 gx1 (fun p hp => (hn p hp).1) (fun p hp => (hall p hp).1.1) mx1
    · exact low P3.y _ _ c2 gy1 (fun p hp => (hn p hp).2.1) (fun p hp => (hall p hp).1.2.1) my1
    · exact low P3.z _ _ c3 gz1 (fun p hp => (hn p hp).2.2) (fun p hp => (hall p hp).1.2.2) mz1
    · exact high P3.x _ _ c4 gx2 (fun p hp => (hn p hp).1) (fun p hp => (hall p hp).2.1) mx2
    · exact high P3.y _ _ c5 gy2 (fun p hp => (hn p hp).2.1) (fun p hp => (hall p hp).2.2.1) my2
    · exact high P3.z _ _ c6 gz2 (fun p hp => (hn p hp).2.2) (fun p hp => (hall p hp).2.2.2) mz2

/-- C32: a box built from points contains them and is the tightest such box, if the points are not all
    infinite in the same direction on some axis. -/
theorem C32_from_iter_partial (ps : List (P3 F64)) (hn : ∀ p ∈ ps, Coords NotNaN p)
    (hi : NotAllInfinite ps) : ∃ b, AABB.fromIter ps = .ok b ∧ Tightest NotNaN b ps := by
  have o := ordered_flt FloatFormat.f64
  obtain ⟨h1, h2⟩ := fold_tight notNaN_max notNaN_min (picks_smaller o) (picks_larger o) ps hn hi
  refine ⟨_, ?_, h2⟩
  unfold AABB.fromIter
  rw [fromIterStep_fold]
  exact h1

/-- `+∞`. -/
def posInf : F64 := .inf .f64 false

/-- A single point at infinity: the box starts at `f64::MAX` and is not the tightest one. -/
theorem C32_from_iter_violated :
    ∃ b, AABB.fromIter [⟨posInf, posInf, posInf⟩] = .ok b ∧ ¬ Tightest NotNaN b [⟨posInf, posInf, posInf⟩] := by
  refine ⟨⟨⟨f64Max, f64Max, f64Max⟩, ⟨posInf, posInf, posInf⟩⟩, by decide +kernel, ?_⟩
  rintro ⟨_, h⟩
  have hp : Coords NotNaN (⟨f64Max, f64Max, f64Max⟩ : P3 F64) := ⟨notNaN_max, notNaN_max, notNaN_max⟩
  have hi : NotNaN posInf := by unfold NotNaN; decide +kernel
  have h2 := (h ⟨⟨posInf, posInf, posInf⟩, ⟨posInf, posInf, posInf⟩⟩ ⟨⟨hi, hi, hi⟩, hi, hi, hi⟩
    (by intro p hp; simp only [List.mem_singleton] at hp; subst hp
        simp only [InBox, Below]; decide +kernel) _ hp
    (by simp only [InBox, Below]; decide +kernel)).1.1
  revert h2
  decide +kernel

/-- No points: `from_iter` panics (there is no tightest box). -/
theorem C32_from_iter_empty : AABB.fromIter [] = .error .panic := by decide +kernel

example : NotAllInfinite [⟨⟨false, 3⟩, ⟨true, 4⟩, posInf⟩, ⟨⟨true, 9⟩, ⟨false, 0⟩, ⟨false, 1⟩⟩] := by
  unfold NotAllInfinite
  decide +kernel

/-! ## C34 -/

theorem iterAll_eq {α : Type} {n : Nat} {get : Nat → Out α} {xs : List α} (hn : n = xs.length)
    (h : ∀ i x, xs[i]? = some x → get i = .ok x) : iterAll n get = .ok xs := by
  subst hn
  unfold iterAll
  have : ∀ (ys : List α) (k : Nat), (∀ i x, ys[i]? = some x → get (i + k) = .ok x) →
      (List.range' k ys.length).mapM get = .ok ys := by
    intro ys
    induction ys with
    | nil => intro k _; rfl
    | cons y ys ih =>
      intro k hk
      rw [List.length_cons, List.range'_succ, List.mapM_cons]
      have h0 := hk 0 y rfl
      rw [Nat.zero_add] at h0
      rw [h0, ih (k + 1) fun i x hi => by
        have := hk (i + 1) x (by simpa using hi)
        rwa [show i + 1 + k = i + (k + 1) by omega] at this]
      rfl
  rw [List.range_eq_range']
  exact this xs 0 h

/-- The values of a plain view are the column of the attribute. -/
theorem view_values {β : Type} [BorrowedBuffer β] {b : β} {l : PointLayout} (hl : Solid l)
    {ps : List Point} (h : ShowsPoints b l ps) {m : Member} (hm : m ∈ l.attributes) {xs : List Bytes}
    (hx : column ps m.definition = some xs) :
    AttributeView.values b ⟨m.datatype, m⟩ = .ok xs := by
  have hF := fetches_column h hm hx
  unfold AttributeView.values
  rw [h.layout_eq, lookup_member hl hm]
  simp only [expectSome, bind, Except.bind]
  exact iterAll_eq hF.len_eq hF.ok

theorem column_all {ps : List Point} {d : AttrDef} {xs : List Bytes} (h : column ps d = some xs) :
    xs = ps.filterMap fun p => p.get d := by
  unfold column at h
  induction ps generalizing xs with
  | nil => simp at h; simp [h]
  | cons p ps ih =>
    rw [List.mapM_cons] at h
    cases hp : p.get d with
    | none => rw [hp] at h; cases h
    | some v =>
      rw [hp] at h
      cases hr : ps.mapM fun p => p.get d with
      | none => rw [hr] at h; cases h
      | some ys =>
        rw [hr] at h
        cases h
        rw [List.filterMap_cons, hp]
        dsimp only
        rw [ih hr]

theorem numbers_read (t : ValueType) {v : Bytes} (hv : v.length = t.dataType.size) :
    t.read v = numbersOf t.dataType v := by
  have h1 : ∀ p : Prim, v.length = p.dataType.size → (ValueType.scalar p).read v = [readNum p v] := by
    intro p hp
    have hs : p.dataType.size = p.size := by cases p <;> rfl
    unfold ValueType.read Converter.component
    simp only [ValueType.count, ValueType.prim, List.range_one, List.map_cons, List.map_nil, Nat.zero_mul,
      List.drop_zero]
    rw [List.take_of_length_le (by omega)]
  cases t with
  | scalar p => rw [h1 p hv]; cases p <;> rfl
  | vec3u8 => rfl
  | vec3u16 => rfl
  | vec3i32 => rfl
  | vec3f32 => rfl
  | vec3f64 => rfl

theorem numbersOf_length (t : ValueType) (v : Bytes) : (numbersOf t.dataType v).length = t.count := by
  cases t with
  | scalar p => cases p <;> rfl
  | _ => rfl

theorem minmax_fold {n : Nat} : ∀ (vals : List (List Num)) (a b : List Num), a.length = n → b.length = n →
    (∀ v ∈ vals, v.length = n) →
    ∃ a' b', vals.foldl minmaxStep (some (a, b)) = some (a', b') ∧ a'.length = n ∧ b'.length = n ∧
      ∀ (k : Nat) x y, a[k]? = some x → b[k]? = some y →
        a'[k]? = some ((vals.filterMap (·[k]?)).foldl (fun m x => smaller x m) x) ∧
        b'[k]? = some ((vals.filterMap (·[k]?)).foldl (fun m x => larger x m) y)
  | [], a, b, ha, hb, _ => ⟨a, b, rfl, ha, hb, fun _ _ _ hx hy => ⟨hx, hy⟩⟩
  | v :: vals, a, b, ha, hb, hv => by
    have hvl := hv v (by simp)
    obtain ⟨a', b', h1, h2, h3, h4⟩ := minmax_fold vals (List.zipWith Num.infimum v a)
      (List.zipWith Num.supremum v b) (by simp [hvl, ha]) (by simp [hvl, hb]) fun w hw => hv w (by simp [hw])
    refine ⟨a', b', h1, h2, h3, ?_⟩
    intro k x y hx hy
    have hk : k < v.length := by
      have := (List.getElem?_eq_some_iff.1 hx).1
      omega
    have hvk := List.getElem?_eq_getElem hk
    have hz := h4 k (Num.infimum v[k] x) (Num.supremum v[k] y)
      (by rw [List.getElem?_zipWith, hvk, hx]) (by rw [List.getElem?_zipWith, hvk, hy])
    rw [List.filterMap_cons, hvk]
    exact hz

/-- Component `k` of the values of attribute `d` of all points. -/
def componentsAt (ps : List Point) (d : AttrDef) (k : Nat) : List Num :=
  ps.filterMap fun p => (p.get d).bind fun v => (numbersOf d.datatype v)[k]?

/-- C34: for an attribute of the type asked for, without NaNs, `minmax_attribute` returns `None` for an
    empty buffer and otherwise the least and the greatest value, component by component. -/
theorem C34_minmax {β : Type} [BorrowedBuffer β] (b : β) (l : PointLayout) (hl : Solid l)
    (ps : List Point) (h : ShowsPoints b l ps) (t : ValueType) (d : AttrDef)
    (hd : d ∈ l.attributes.map Member.definition) (ht : t.dataType = d.datatype)
    (hn : ∀ k, ∀ n ∈ componentsAt ps d k, Ordinary t.prim n) :
    (ps = [] → minmaxAttribute b t d = .ok none) ∧
    (ps ≠ [] → ∃ lo hi, minmaxAttribute b t d = .ok (some (lo, hi)) ∧
      lo.length = t.count ∧ hi.length = t.count ∧
      ∀ k < t.count, ∃ x y, lo[k]? = some x ∧ hi[k]? = some y ∧
        Least x (componentsAt ps d k) ∧ Greatest y (componentsAt ps d k)) := by
  obtain ⟨m, hm, rfl⟩ := List.mem_map.1 hd
  obtain ⟨xs, hx, hxl⟩ := column_some hl h hm
  have hrun : minmaxAttribute b t m.definition =
      .ok ((xs.map (numbersOf t.dataType)).foldl minmaxStep none) := by
    unfold minmaxAttribute
    have hnm : (layout b).hasAttributeWithName m.definition.name = true := by
      rw [h.layout_eq]
      unfold PointLayout.hasAttributeWithName
      exact List.any_eq_true.2 ⟨m, hm, by simp [Member.name]⟩
    rw [assertThat_true hnm]
    simp only [bind, Except.bind]
    rw [if_pos ht, ((C62_attribute_view_checks b l hl ps h _ _).1 ht m hm rfl)]
    dsimp only
    rw [ht, show m.definition.datatype = m.datatype from rfl, view_values hl h hm hx]
    dsimp only
    have : xs.map t.read = xs.map (numbersOf m.datatype) := by
      apply List.map_congr_left
      intro v hv
      have : v.length = t.dataType.size := by rw [ht]; exact hxl v hv
      rw [numbers_read t this, ht]
      rfl
    rw [this]
    rfl
  have hcol := column_all hx
  have hcomp : ∀ k, componentsAt ps m.definition k =
      (xs.map (numbersOf t.dataType)).filterMap (·[k]?) := by
    intro k
    rw [hcol, List.map_filterMap, List.filterMap_filterMap, ht]
    unfold componentsAt
    apply List.filterMap_congr
    intro p _
    cases p.get m.definition <;> rfl
  have hxlen := (column_get hx).1
  rw [hrun]
  constructor
  · intro h0
    rw [h0] at hxlen
    rw [List.length_eq_zero_iff.1 hxlen]
    rfl
  · intro h0
    cases hxs : xs with
    | nil =>
      rw [hxs] at hxlen
      exact absurd (List.length_eq_zero_iff.1 hxlen.symm) h0
    | cons v vs =>
      have hlen : ∀ w : Bytes, (numbersOf t.dataType w).length = t.count := numbersOf_length t
      obtain ⟨lo, hi, h1, h2, h3, h4⟩ := minmax_fold (n := t.count) (vs.map (numbersOf t.dataType))
        (numbersOf t.dataType v) (numbersOf t.dataType v) (hlen v) (hlen v)
        (by intro w hw; obtain ⟨u, _, rfl⟩ := List.mem_map.1 hw; exact hlen u)
      refine ⟨lo, hi, congrArg Except.ok h1, h2, h3, ?_⟩
      intro k hk
      have hvk := List.getElem?_eq_getElem (l := numbersOf t.dataType v) (i := k) (by rw [hlen]; exact hk)
      obtain ⟨h5, h6⟩ := h4 k _ _ hvk hvk
      refine ⟨_, _, h5, h6, ?_⟩
      have hc := hcomp k
      rw [hxs, List.map_cons, List.filterMap_cons, hvk] at hc
      dsimp only at hc
      have hg := hn k
      rw [hc] at hg ⊢
      have o := ordered_num t.prim
      obtain ⟨p1, _, p2⟩ := (picks_smaller o).swap.fold _ _ (hg _ List.mem_cons_self) fun x hx =>
        hg x (List.mem_cons_of_mem _ hx)
      obtain ⟨q1, _, q2⟩ := (picks_larger o).swap.fold _ _ (hg _ List.mem_cons_self) fun x hx =>
        hg x (List.mem_cons_of_mem _ hx)
      exact ⟨⟨p1, p2⟩, q1, q2⟩

/-- C34: asking for an attribute the buffer does not have, or with a type that is not its type, panics
    (as documented). In particular the branch of the code for conversions never returns a value. -/
theorem C34_minmax_rejects {β : Type} [BorrowedBuffer β] (b : β) (l : PointLayout) (hl : Solid l)
    (ps : List Point) (h : ShowsPoints b l ps) (t : ValueType) (d : AttrDef)
    (hd : ¬ (t.dataType = d.datatype ∧ d ∈ l.attributes.map Member.definition)) :
    minmaxAttribute b t d = .error .panic := by
  unfold minmaxAttribute
  by_cases hn : (layout b).hasAttributeWithName d.name = true
  · rw [assertThat_true hn]
    simp only [bind, Except.bind]
    by_cases ht : t.dataType = d.datatype
    · rw [if_pos ht, (C62_attribute_view_checks b l hl ps h _ _).2 hd]
    · rw [if_neg ht, C64_rejects b l hl ps h t.dataType d (.inl ht)]
  · rw [assertThat_false (by simpa using hn)]
    rfl

theorem converting_values {β : Type} [BorrowedBuffer β] {b : β} {l : PointLayout} (hl : Solid l)
    {ps : List Point} (h : ShowsPoints b l ps) {d : AttrDef} {m : Member} (hm : m ∈ l.attributes)
    (hn : m.name = d.name) {f : Bytes → Bytes} (hf : conversion m.datatype d.datatype = some f) :
    ∃ v, ConvertingView.new b d.datatype d = .ok v ∧
      v.values b = .ok ((ps.filterMap fun p => p.get m.definition).map f) := by
  obtain ⟨v, h1, h2, _⟩ := C64_converted_values b l hl ps h d m hm hn f hf
  refine ⟨v, h1, ?_⟩
  obtain ⟨xs, hx, _⟩ := column_some hl h hm
  obtain ⟨c1, c2⟩ := column_get hx
  rw [← column_all hx]
  unfold ConvertingView.values
  apply iterAll_eq
  · rw [h.len_eq, List.length_map, c1]
  · intro i x hi
    rw [h2, c2, ← List.getElem?_map, hi]
    rfl

theorem bounds_fold (xs : List Bytes) (hn : ∀ v ∈ xs, Coords NotNaN (positionOf v))
    (hi : NotAllInfinite (xs.map positionOf)) :
    ∃ b, boundsOfPositions xs = .ok b ∧ Tightest NotNaN b (xs.map positionOf) := by
  have o := ordered_flt FloatFormat.f64
  have e : xs.map readVec3F64 = xs.map positionOf := rfl
  obtain ⟨h1, h2⟩ := fold_tight notNaN_max notNaN_min (picks_smaller o).swap (picks_larger o).swap (xs.map positionOf)
    (by intro p hp; obtain ⟨v, hv, rfl⟩ := List.mem_map.1 hp; exact hn v hv) hi
  refine ⟨_, ?_, h2⟩
  unfold boundsOfPositions
  rw [e, boundsStep_fold]
  exact h1

/-- C34: `calculate_bounds` returns `None` for a buffer without points or without an attribute named
    `Position3D`. -/
theorem C34_bounds_none {β : Type} [BorrowedBuffer β] (b : β) (l : PointLayout)
    (ps : List Point) (h : ShowsPoints b l ps)
    (hno : ps = [] ∨ ∀ m ∈ l.attributes, m.name ≠ "Position3D") : calculateBounds b = .ok none := by
  unfold calculateBounds
  rw [h.len_eq, h.layout_eq]
  by_cases h0 : ps.length = 0
  · rw [if_pos h0]; rfl
  · rw [if_neg h0]
    have hno := hno.resolve_left fun hc => h0 (by rw [hc]; rfl)
    cases hf : l.getAttributeByName position3D.name with
    | none => rfl
    | some m =>
      unfold PointLayout.getAttributeByName at hf
      have : m.name = position3D.name := by simpa using List.find?_some hf
      exact absurd this (hno m (List.mem_of_find?_eq_some hf))

/-- C34: otherwise it returns the tightest box around the positions, converted to `f64` if they are of
    another vector type; the positions must be free of NaNs and not all infinite on an axis. -/
theorem C34_bounds_partial {β : Type} [BorrowedBuffer β] (b : β) (l : PointLayout) (hl : Solid l)
    (ps : List Point) (h : ShowsPoints b l ps) (hne : ps ≠ []) (m : Member) (hm : m ∈ l.attributes)
    (hname : m.name = "Position3D") (f : Bytes → Bytes) (hf : conversion m.datatype .vec3f64 = some f)
    (positions : List (P3 F64))
    (hpos : positions = (ps.filterMap fun p => p.get m.definition).map fun v => positionOf (f v))
    (hn : ∀ p ∈ positions, Coords NotNaN p) (hi : NotAllInfinite positions) :
    ∃ box, calculateBounds b = .ok (some box) ∧ Tightest NotNaN box positions := by
  have hpos' : positions = ((ps.filterMap fun p => p.get m.definition).map f).map positionOf := by
    rw [hpos, List.map_map]; rfl
  rw [hpos'] at hi hn
  obtain ⟨box, hb1, hb2⟩ := bounds_fold ((ps.filterMap fun p => p.get m.definition).map f)
    (fun v hv => hn _ (List.mem_map_of_mem hv)) hi
  refine ⟨box, ?_, by rw [hpos']; exact hb2⟩
  unfold calculateBounds
  rw [h.len_eq, h.layout_eq]
  have h0 : ¬ ps.length = 0 := fun hc => hne (List.length_eq_zero_iff.1 hc)
  rw [if_neg h0, byName_of_mem' hl hm (n := position3D.name) hname]
  dsimp only
  by_cases hty : m.datatype = position3D.datatype
  · rw [if_pos hty]
    have hd : m.definition = position3D := by
      have h1 : m.definition.name = position3D.name := hname
      have h2 : m.definition.datatype = position3D.datatype := hty
      cases hmd : m.definition with
      | mk n t => rw [hmd] at h1 h2; dsimp only at h1 h2; subst h1 h2; rfl
    obtain ⟨xs, hx, _⟩ := column_some hl h hm
    have hv := view_values hl h hm hx
    rw [show m.datatype = .vec3f64 from hty] at hv
    rw [show AttributeView.new b .vec3f64 position3D = .ok ⟨.vec3f64, m⟩ from
      (C62_attribute_view_checks b l hl ps h _ _).1 rfl m hm hd]
    simp only [bind, Except.bind]
    rw [hv]
    dsimp only
    rw [show m.datatype = .vec3f64 from hty, conversion_same] at hf
    cases hf
    rw [List.map_id, ← column_all hx] at hb1
    rw [hb1]
    rfl
  · rw [if_neg hty]
    obtain ⟨v, h1, h2⟩ := converting_values hl h (d := position3D) hm hname hf
    rw [show ConvertingView.new b .vec3f64 position3D = .ok v from h1]
    simp only [bind, Except.bind]
    rw [h2]
    dsimp only
    rw [hb1]
    rfl

/-- A position attribute that cannot be converted makes `calculate_bounds` panic for every non-empty
    buffer, where it is declared to return `None` on such errors. -/
theorem C34_violated_inconvertible {β : Type} [BorrowedBuffer β] (b : β) (l : PointLayout) (hl : Solid l)
    (ps : List Point) (h : ShowsPoints b l ps) (hne : ps ≠ []) (m : Member) (hm : m ∈ l.attributes)
    (hname : m.name = "Position3D") (hf : conversion m.datatype .vec3f64 = none) :
    calculateBounds b = .error .panic := by
  unfold calculateBounds
  rw [h.len_eq, h.layout_eq]
  have h0 : ¬ ps.length = 0 := fun hc => hne (List.length_eq_zero_iff.1 hc)
  rw [if_neg h0, byName_of_mem' hl hm (n := position3D.name) hname]
  dsimp only
  have hty : m.datatype ≠ position3D.datatype := by
    intro hty
    rw [show m.datatype = .vec3f64 from hty, conversion_same] at hf
    cases hf
  rw [if_neg hty, show ConvertingView.new b .vec3f64 position3D = .error .panic from
    C64_rejects b l hl ps h .vec3f64 position3D (.inr (.inr ⟨m, hm, hname, hf⟩))]

/-- A buffer with one attribute `Position3D`. -/
def exPositions (t : DataType) (bytes : Bytes) (n : Nat) : VectorBuffer :=
  ⟨bytes, ⟨[⟨⟨"Position3D", t⟩, 0⟩], t.size, 1⟩, n⟩

/-- One point at infinity: the box starts at `f64::MAX` instead. -/
theorem C34_violated_infinite :
    let b := exPositions .vec3f64 [0, 0, 0, 0, 0, 0, 0xf0, 0x7f, 0, 0, 0, 0, 0, 0, 0xf0, 0x7f,
      0, 0, 0, 0, 0, 0, 0xf0, 0x7f] 1
    calculateBounds b = .ok (some ⟨⟨f64Max, f64Max, f64Max⟩, ⟨posInf, posInf, posInf⟩⟩) := by
  decide +kernel

/-- Two positions of type `Vec3u8`: (1, 2, 3) and (4, 0, 3). -/
example : let b := exPositions .vec3u8 [1, 2, 3, 4, 0, 3] 2
    calculateBounds b = .ok (some
      ⟨⟨.ofInt .f64 1, .ofInt .f64 0, .ofInt .f64 3⟩, ⟨.ofInt .f64 4, .ofInt .f64 2, .ofInt .f64 3⟩⟩) ∧
    minmaxAttribute b .vec3u8 ⟨"Position3D", .vec3u8⟩ =
      .ok (some ([.int 1, .int 0, .int 3], [.int 4, .int 2, .int 3])) ∧
    minmaxAttribute b .vec3f64 ⟨"Position3D", .vec3u8⟩ = .error .panic := by
  decide +kernel

end Pasture.Props
