import Verif.Lemmas.BoundsOrder

/-!
# C108: bounds and ranges do not depend on the order of the points
-/

namespace Pasture.Props

open Spec BorrowedBuffer AABB

/-- What `calculate_bounds` computes of a non-empty buffer with positions that can be converted. -/
theorem bounds_run {β : Type} [BorrowedBuffer β] {b : β} {l : PointLayout} (hl : Solid l)
    {ps : List Point} (h : ShowsPoints b l ps) (hne : ps ≠ []) {m : Member} (hm : m ∈ l.attributes)
    (hname : m.name = "Position3D") {f : Bytes → Bytes} (hf : conversion m.datatype .vec3f64 = some f) :
    calculateBounds b = (boundsOfPositions ((ps.filterMap fun p => p.get m.definition).map f)).map some := by
  unfold calculateBounds
  rw [h.len_eq, h.layout_eq]
  have h0 : ¬ ps.length = 0 := fun hc => hne (List.length_eq_zero_iff.1 hc)
  rw [if_neg h0, byName_of_mem' hl hm (n := position3D.name) hname]
  dsimp only
  by_cases hty : m.datatype = position3D.datatype
  · rw [if_pos hty]
    have hd : m.definition = position3D := by
      have h1 : m.definition.name = position3D.name := hname
      have h2 : m.definition.datatype = position3D.datatype := hty
      cases hmd : m.definition with
      | mk n t => rw [hmd] at h1 h2; dsimp only at h1 h2; subst h1 h2; rfl
    obtain ⟨xs, hx, _⟩ := column_some hl h hm
    have hv := view_values hl h hm hx
    rw [show m.datatype = .vec3f64 from hty] at hv
    rw [show AttributeView.new b .vec3f64 position3D = .ok ⟨.vec3f64, m⟩ from
      (C62_attribute_view_checks b l hl ps h _ _).1 rfl m hm hd]
    simp only [bind, Except.bind]
    rw [hv]
    dsimp only
    rw [show m.datatype = .vec3f64 from hty, conversion_same] at hf
    cases hf
    rw [List.map_id, ← column_all hx]
    cases boundsOfPositions xs <;> rfl
  · rw [if_neg hty]
    obtain ⟨v, h1, h2⟩ := converting_values hl h (d := position3D) hm hname hf
    rw [show ConvertingView.new b .vec3f64 position3D = .ok v from h1]
    simp only [bind, Except.bind]
    rw [h2]
    dsimp only
    cases boundsOfPositions ((ps.filterMap fun p => p.get m.definition).map f) <;> rfl

/-- **C108**, bounds: two buffers of any kinds with the same points in any two orders have the same
    bounds, whatever the positions are: NaN, infinite or of a type that cannot be converted. -/
theorem C108_bounds {β γ : Type} [BorrowedBuffer β] [BorrowedBuffer γ] (b : β) (c : γ) (l : PointLayout)
    (hl : Solid l) (ps qs : List Point) (hb : ShowsPoints b l ps) (hc : ShowsPoints c l qs) (hp : ps.Perm qs) :
    SameAnswer SameCorners (calculateBounds b) (calculateBounds c) := by
  by_cases hno : ps = [] ∨ ∀ m ∈ l.attributes, m.name ≠ "Position3D"
  · have hno' : qs = [] ∨ ∀ m ∈ l.attributes, m.name ≠ "Position3D" := by
      refine hno.imp_left fun h => ?_
      subst h
      exact hp.nil_eq.symm
    rw [C34_bounds_none b l ps hb hno, C34_bounds_none c l qs hc hno']
    trivial
  · rw [not_or] at hno
    obtain ⟨hne, hex⟩ := hno
    have hne' : qs ≠ [] := fun h => hne (by subst h; exact hp.eq_nil)
    obtain ⟨m, hm, hname⟩ : ∃ m ∈ l.attributes, m.name = "Position3D" :=
      Classical.byContradiction fun h => hex fun m hm hn => h ⟨m, hm, hn⟩
    cases hf : conversion m.datatype .vec3f64 with
    | none =>
      rw [C34_violated_inconvertible b l hl ps hb hne m hm hname hf,
        C34_violated_inconvertible c l hl qs hc hne' m hm hname hf]
      rfl
    | some f =>
      rw [bounds_run hl hb hne hm hname hf, bounds_run hl hc hne' hm hname hf, boundsOfPositions_eq,
        boundsOfPositions_eq]
      have hpp := ((hp.filterMap fun p => p.get m.definition).map f).map positionOf
      obtain ⟨h1, h2, h | h⟩ := corners_perm hpp (corners_are notNaN_max notNaN_min _)
        (corners_are notNaN_max notNaN_min _)
      · rw [h.1, h.2]; exact ⟨h1, h2⟩
      · rw [h.1, h.2]; rfl

/-- **C108**, bounds of parts: if two buffers have bounds, the bounds of a third one with the points of
    both, in any order, are their union. -/
theorem C108_bounds_of_parts {β γ δ : Type} [BorrowedBuffer β] [BorrowedBuffer γ] [BorrowedBuffer δ]
    (b : β) (c : γ) (w : δ) (l : PointLayout) (hl : Solid l) (ps qs rs : List Point) (hb : ShowsPoints b l ps)
    (hc : ShowsPoints c l qs) (hw : ShowsPoints w l rs) (hp : rs.Perm (ps ++ qs)) (x y : AABB F64)
    (hx : calculateBounds b = .ok (some x)) (hy : calculateBounds c = .ok (some y)) :
    ∃ z, calculateBounds w = .ok (some z) ∧ SameCorners z (x.union y) := by
  have hps : ps ≠ [] := fun h => by rw [C34_bounds_none b l ps hb (.inl h)] at hx; cases hx
  have hqs : qs ≠ [] := fun h => by rw [C34_bounds_none c l qs hc (.inl h)] at hy; cases hy
  have hrs : rs ≠ [] := fun h => by
    have := hp.length_eq
    rw [h, List.length_append, List.length_nil] at this
    exact hps (List.length_eq_zero_iff.1 (by omega))
  obtain ⟨m, hm, hname⟩ : ∃ m ∈ l.attributes, m.name = "Position3D" :=
    Classical.byContradiction fun h => by
      rw [C34_bounds_none b l ps hb (.inr fun m hm hn => h ⟨m, hm, hn⟩)] at hx; cases hx
  cases hf : conversion m.datatype .vec3f64 with
  | none => rw [C34_violated_inconvertible b l hl ps hb hps m hm hname hf] at hx; cases hx
  | some f =>
    rw [bounds_run hl hb hps hm hname hf, boundsOfPositions_eq] at hx
    rw [bounds_run hl hc hqs hm hname hf, boundsOfPositions_eq] at hy
    rw [bounds_run hl hw hrs hm hname hf, boundsOfPositions_eq]
    have hpp := ((hp.filterMap fun p => p.get m.definition).map f).map positionOf
    rw [List.filterMap_append, List.map_append, List.map_append] at hpp
    have inv : ∀ {o : Out (AABB F64)} {x : AABB F64}, o.map some = .ok (some x) → o = .ok x := by
      intro o x h
      cases o with
      | error e => cases h
      | ok y => cases h; rfl
    obtain ⟨h1, h2⟩ := corners_append hpp (corners_are notNaN_max notNaN_min _)
      (corners_are notNaN_max notNaN_min _) (corners_are notNaN_max notNaN_min _) (inv hx) (inv hy)
    rw [h1]
    exact ⟨_, rfl, h2⟩

/-- The component lists of permuted points have the same members. -/
theorem components_perm {ps qs : List Point} (h : ps.Perm qs) (d : AttrDef) (k : Nat) :
    (componentsAt ps d k).Perm (componentsAt qs d k) := h.filterMap _

theorem sameNumbers_of {n : Nat} {xs ys : List Num} (hx : xs.length = n) (hy : ys.length = n)
    (h : ∀ k < n, ∃ x y, xs[k]? = some x ∧ ys[k]? = some y ∧ Cmp.le x y = true ∧ Cmp.le y x = true) :
    SameNumbers xs ys := by
  unfold SameNumbers
  rw [List.forall₂_iff_get]
  refine ⟨by omega, fun k h1 h2 => ?_⟩
  obtain ⟨x, y, e1, e2, h3⟩ := h k (by omega)
  rw [List.getElem?_eq_getElem h1] at e1
  rw [List.getElem?_eq_getElem h2] at e2
  cases e1
  cases e2
  exact h3

/-- **C108 in part**, ranges: two buffers with the same points in any two orders give the same least and
    greatest values of an attribute. Missing: values that are NaN, for which this is false
    (`C108_minmax_violated`). -/
theorem C108_minmax_partial {β γ : Type} [BorrowedBuffer β] [BorrowedBuffer γ] (b : β) (c : γ) (l : PointLayout)
    (hl : Solid l) (ps qs : List Point) (hb : ShowsPoints b l ps) (hc : ShowsPoints c l qs) (hp : ps.Perm qs)
    (t : ValueType) (d : AttrDef) (hn : ∀ k, ∀ n ∈ componentsAt ps d k, Ordinary t.prim n) :
    SameAnswer (fun x y => SameNumbers x.1 y.1 ∧ SameNumbers x.2 y.2) (minmaxAttribute b t d)
      (minmaxAttribute c t d) := by
  by_cases hd : t.dataType = d.datatype ∧ d ∈ l.attributes.map Member.definition
  · have hn' : ∀ k, ∀ n ∈ componentsAt qs d k, Ordinary t.prim n := fun k n h =>
      hn k n ((components_perm hp d k).mem_iff.2 h)
    obtain ⟨b1, b2⟩ := C34_minmax b l hl ps hb t d hd.2 hd.1 hn
    obtain ⟨c1, c2⟩ := C34_minmax c l hl qs hc t d hd.2 hd.1 hn'
    by_cases h0 : ps = []
    · rw [b1 h0, c1 (by subst h0; exact hp.nil_eq.symm)]
      trivial
    · obtain ⟨lo, hi, e1, l1, l2, h1⟩ := b2 h0
      obtain ⟨lo', hi', e2, l3, l4, h2⟩ := c2 fun h => h0 (by subst h; exact hp.eq_nil)
      rw [e1, e2]
      constructor
      · refine sameNumbers_of l1 l3 fun k hk => ?_
        obtain ⟨x, y, g1, g2, g3, g4⟩ := h1 k hk
        obtain ⟨x', y', k1, k2, k3, k4⟩ := h2 k hk
        exact ⟨x, x', g1, k1, g3.2 _ ((components_perm hp d k).mem_iff.2 k3.1),
          k3.2 _ ((components_perm hp d k).mem_iff.1 g3.1)⟩
      · refine sameNumbers_of l2 l4 fun k hk => ?_
        obtain ⟨x, y, g1, g2, g3, g4⟩ := h1 k hk
        obtain ⟨x', y', k1, k2, k3, k4⟩ := h2 k hk
        exact ⟨y, y', g2, k2, k4.2 _ ((components_perm hp d k).mem_iff.1 g4.1),
          g4.2 _ ((components_perm hp d k).mem_iff.2 k4.1)⟩
  · rw [C34_minmax_rejects b l hl ps hb t d hd, C34_minmax_rejects c l hl qs hc t d hd]
    rfl

/-- **C108 in part**, ranges of parts: the range of a buffer with the points of two others, in any order,
    is made of the smaller of the two least values and the larger of the two greatest values. -/
theorem C108_minmax_of_parts_partial {β γ δ : Type} [BorrowedBuffer β] [BorrowedBuffer γ] [BorrowedBuffer δ]
    (b : β) (c : γ) (w : δ) (l : PointLayout) (hl : Solid l) (ps qs rs : List Point) (hb : ShowsPoints b l ps)
    (hc : ShowsPoints c l qs) (hw : ShowsPoints w l rs) (hp : rs.Perm (ps ++ qs)) (t : ValueType) (d : AttrDef)
    (hn : ∀ k, ∀ n ∈ componentsAt rs d k, Ordinary t.prim n) (lo hi lo' hi' : List Num)
    (hx : minmaxAttribute b t d = .ok (some (lo, hi))) (hy : minmaxAttribute c t d = .ok (some (lo', hi'))) :
    ∃ x y, minmaxAttribute w t d = .ok (some (x, y)) ∧ SameNumbers x (List.zipWith Num.infimum lo lo') ∧
      SameNumbers y (List.zipWith Num.supremum hi hi') := by
  by_cases hd : t.dataType = d.datatype ∧ d ∈ l.attributes.map Member.definition
  swap
  · rw [C34_minmax_rejects b l hl ps hb t d hd] at hx; cases hx
  have hmem : ∀ k n, n ∈ componentsAt rs d k ↔ n ∈ componentsAt ps d k ∨ n ∈ componentsAt qs d k := by
    intro k n
    rw [(components_perm hp d k).mem_iff]
    unfold componentsAt
    rw [List.filterMap_append, List.mem_append]
  obtain ⟨b1, b2⟩ := C34_minmax b l hl ps hb t d hd.2 hd.1 fun k n h => hn k n ((hmem k n).2 (.inl h))
  obtain ⟨c1, c2⟩ := C34_minmax c l hl qs hc t d hd.2 hd.1 fun k n h => hn k n ((hmem k n).2 (.inr h))
  obtain ⟨-, w2⟩ := C34_minmax w l hl rs hw t d hd.2 hd.1 hn
  have hps : ps ≠ [] := fun h => by rw [b1 h] at hx; cases hx
  have hqs : qs ≠ [] := fun h => by rw [c1 h] at hy; cases hy
  have hrs : rs ≠ [] := fun h => by
    have := hp.length_eq
    rw [h, List.length_append, List.length_nil] at this
    exact hps (List.length_eq_zero_iff.1 (by omega))
  obtain ⟨_, _, e1, l1, l2, h1⟩ := b2 hps
  rw [hx] at e1
  cases e1
  obtain ⟨_, _, e2, l3, l4, h2⟩ := c2 hqs
  rw [hy] at e2
  cases e2
  obtain ⟨x, y, e3, l5, l6, h3⟩ := w2 hrs
  have o := ordered_num t.prim
  refine ⟨x, y, e3, ?_, ?_⟩
  · refine sameNumbers_of l5 (n := t.count) (by simp [l1, l3]) fun k hk => ?_
    obtain ⟨u, _, g1, _, g2, _⟩ := h1 k hk
    obtain ⟨v, _, k1, _, k2, _⟩ := h2 k hk
    obtain ⟨z, _, m1, _, m2, _⟩ := h3 k hk
    have gu := hn k u ((hmem k u).2 (.inl g2.1))
    have gv := hn k v ((hmem k v).2 (.inr k2.1))
    have gz := hn k z m2.1
    have hs : smaller u v = u ∨ smaller u v = v := smaller_cases u v
    have hle := smaller_le o gu gv
    refine ⟨z, smaller u v, m1, by rw [List.getElem?_zipWith, g1, k1]; rfl, ?_, ?_⟩
    · rcases hs with e | e <;> rw [e]
      · exact m2.2 _ ((hmem k _).2 (.inl g2.1))
      · exact m2.2 _ ((hmem k _).2 (.inr k2.1))
    · have gs : Ordinary t.prim (smaller u v) := smaller_good gu gv
      rcases (hmem k z).1 m2.1 with hz | hz
      · exact o.trans _ _ _ gs gu gz hle.1 (g2.2 _ hz)
      · exact o.trans _ _ _ gs gv gz hle.2 (k2.2 _ hz)
  · refine sameNumbers_of l6 (n := t.count) (by simp [l2, l4]) fun k hk => ?_
    obtain ⟨_, u, _, g1, _, g2⟩ := h1 k hk
    obtain ⟨_, v, _, k1, _, k2⟩ := h2 k hk
    obtain ⟨_, z, _, m1, _, m2⟩ := h3 k hk
    have gu := hn k u ((hmem k u).2 (.inl g2.1))
    have gv := hn k v ((hmem k v).2 (.inr k2.1))
    have gz := hn k z m2.1
    have hs : larger u v = u ∨ larger u v = v := larger_cases u v
    have hle := le_larger o gu gv
    refine ⟨z, larger u v, m1, by rw [List.getElem?_zipWith, g1, k1]; rfl, ?_, ?_⟩
    · have gs : Ordinary t.prim (larger u v) := larger_good gu gv
      rcases (hmem k z).1 m2.1 with hz | hz
      · exact o.trans _ _ _ gz gu gs (g2.2 _ hz) hle.1
      · exact o.trans _ _ _ gz gv gs (k2.2 _ hz) hle.2
    · rcases hs with e | e <;> rw [e]
      · exact m2.2 _ ((hmem k _).2 (.inl g2.1))
      · exact m2.2 _ ((hmem k _).2 (.inr k2.1))

/-- A layout with one attribute, a scalar of type `f32`. -/
def scalarLayout : PointLayout := ⟨[⟨⟨"Scalar", .f32⟩, 0⟩], 4, 4⟩

/-- **C108 is violated** by `minmax_attribute` with NaN: NaN and 1 have the range NaN to NaN, but 1 and
    NaN have the range 1 to 1. -/
theorem C108_minmax_violated :
    let b : VectorBuffer := ⟨[0, 0, 0xc0, 0x7f, 0, 0, 0x80, 0x3f], scalarLayout, 2⟩
    let c : VectorBuffer := ⟨[0, 0, 0x80, 0x3f, 0, 0, 0xc0, 0x7f], scalarLayout, 2⟩
    ∃ x one, minmaxAttribute b (.scalar .f32) ⟨"Scalar", .f32⟩ = .ok (some ([.single x], [.single x])) ∧
      minmaxAttribute c (.scalar .f32) ⟨"Scalar", .f32⟩ = .ok (some ([.single one], [.single one])) ∧
      x.isNaN = true ∧ one = .ofInt .f32 1 := by
  refine ⟨⟨false, 0x7fc00000⟩, ⟨false, 0x3f800000⟩, ?_, ?_, ?_, ?_⟩ <;> decide +kernel

/-- **C108 is violated** by collecting points into a box, with NaN: the box of NaN and 1 goes from 1 to 1,
    that of 1 and NaN from NaN to NaN. -/
theorem C108_from_iter_violated : ∃ nan one : F64, nan.isNaN = true ∧ one = .ofInt .f64 1 ∧
    AABB.fromIter [⟨nan, nan, nan⟩, ⟨one, one, one⟩] = .ok ⟨⟨one, one, one⟩, ⟨one, one, one⟩⟩ ∧
    AABB.fromIter [⟨one, one, one⟩, ⟨nan, nan, nan⟩] = .ok ⟨⟨nan, nan, nan⟩, ⟨nan, nan, nan⟩⟩ := by
  refine ⟨⟨false, 0x7ff8000000000000⟩, ⟨false, 0x3ff0000000000000⟩, ?_, ?_, ?_, ?_⟩ <;> decide +kernel

/-- **C108 in part**, boxes collected from points in two orders are the same, or both calls panic.
    Missing: coordinates that are NaN (`C108_from_iter_violated`). -/
theorem C108_from_iter_partial (ps qs : List (P3 F64)) (hp : ps.Perm qs) (hn : ∀ p ∈ ps, Coords NotNaN p) :
    SameAnswer SameCorners ((AABB.fromIter ps).map some) ((AABB.fromIter qs).map some) := by
  have e : ∀ ps : List (P3 F64), (∀ p ∈ ps, Coords NotNaN p) →
      CornersAre f64Max f64Min ps (ps.foldl fromIterStep (⟨f64Max, f64Max, f64Max⟩, ⟨f64Min, f64Min, f64Min⟩)) := by
    intro ps hn
    rw [fromIterStep_fold]
    have lo : ∀ (xs : List F64) (m : F64), NotNaN m → (∀ x ∈ xs, NotNaN x) → NotNaN (xs.foldl smaller m) ∧
        (xs.foldl smaller m).rank = (ranks xs).foldl min m.rank := by
      intro xs
      induction xs with
      | nil => intro m hm _; exact ⟨hm, rfl⟩
      | cons x xs ih =>
        intro m hm hx
        have hx0 : x.isNaN = false := hx x List.mem_cons_self
        rw [show ranks (x :: xs) = x.rank :: ranks xs by unfold ranks; simp [hx0], List.foldl_cons, List.foldl_cons,
          ← smaller_rank hm hx0]
        exact ih _ (smaller_good hm hx0) fun y hy => hx y (List.mem_cons_of_mem _ hy)
    have hi : ∀ (xs : List F64) (m : F64), NotNaN m → (∀ x ∈ xs, NotNaN x) → NotNaN (xs.foldl larger m) ∧
        (xs.foldl larger m).rank = (ranks xs).foldl max m.rank := by
      intro xs
      induction xs with
      | nil => intro m hm _; exact ⟨hm, rfl⟩
      | cons x xs ih =>
        intro m hm hx
        have hx0 : x.isNaN = false := hx x List.mem_cons_self
        rw [show ranks (x :: xs) = x.rank :: ranks xs by unfold ranks; simp [hx0], List.foldl_cons, List.foldl_cons,
          ← larger_rank hm hx0]
        exact ih _ (larger_good hm hx0) fun y hy => hx y (List.mem_cons_of_mem _ hy)
    have gx : ∀ x ∈ ps.map P3.x, NotNaN x := by
      intro x hx; obtain ⟨p, h, rfl⟩ := List.mem_map.1 hx; exact (hn p h).1
    have gy : ∀ x ∈ ps.map P3.y, NotNaN x := by
      intro x hx; obtain ⟨p, h, rfl⟩ := List.mem_map.1 hx; exact (hn p h).2.1
    have gz : ∀ x ∈ ps.map P3.z, NotNaN x := by
      intro x hx; obtain ⟨p, h, rfl⟩ := List.mem_map.1 hx; exact (hn p h).2.2
    have a1 := lo _ f64Max notNaN_max gx
    have a2 := lo _ f64Max notNaN_max gy
    have a3 := lo _ f64Max notNaN_max gz
    have a4 := hi _ f64Min notNaN_min gx
    have a5 := hi _ f64Min notNaN_min gy
    have a6 := hi _ f64Min notNaN_min gz
    exact ⟨⟨⟨a1.1, a2.1, a3.1⟩, a4.1, a5.1, a6.1⟩, a1.2, a2.2, a3.2, a4.2, a5.2, a6.2⟩
  obtain ⟨h1, h2, h | h⟩ := corners_perm hp (e ps hn) (e qs fun p h => hn p (hp.mem_iff.2 h))
  · unfold AABB.fromIter
    dsimp only
    rw [h.1, h.2]
    exact ⟨h1, h2⟩
  · unfold AABB.fromIter
    dsimp only
    rw [h.1, h.2]
    rfl

/-- Points in two orders and in parts, with a NaN, an infinity and both zeros among the coordinates. -/
example :
    let nan : Bytes := [0, 0, 0, 0, 0, 0, 0xf8, 0x7f]
    let inf : Bytes := [0, 0, 0, 0, 0, 0, 0xf0, 0x7f]
    let zero : Bytes := [0, 0, 0, 0, 0, 0, 0, 0]
    let minus : Bytes := [0, 0, 0, 0, 0, 0, 0, 0x80]
    let b := exPositions .vec3f64 (nan ++ zero ++ inf ++ zero ++ minus ++ zero) 2
    let c := exPositions .vec3f64 (zero ++ minus ++ zero ++ nan ++ zero ++ inf) 2
    calculateBounds b = .ok (some ⟨⟨⟨false, 0⟩, ⟨false, 0⟩, ⟨false, 0⟩⟩, ⟨⟨false, 0⟩, ⟨false, 0⟩, posInf⟩⟩) ∧
    calculateBounds c = .ok (some ⟨⟨⟨false, 0⟩, ⟨true, 0⟩, ⟨false, 0⟩⟩, ⟨⟨false, 0⟩, ⟨true, 0⟩, posInf⟩⟩) := by
  decide +kernel

end Pasture.Props
