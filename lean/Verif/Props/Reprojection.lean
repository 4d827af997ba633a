import Verif.Spec.Reprojection
import Verif.Props.UntypedPoint
import Verif.Lemmas.SlicesMut
import Verif.Lemmas.Ransac
import Verif.Lemmas.LasRoundTrip

/-!
# Properties C61 (`transform_bounds`) and C72 (reprojection of point clouds)
-/

namespace Pasture.Props

open Spec BorrowedBuffer BorrowedMutBuffer OwningBuffer Reprojection

/-! ## C61 -/

/-- `transform_bounds` returns the tightest box of the two transformed corners. -/
theorem C61_corners (proj : Projection) (b : AABB F64) (h1 : Coords NotNaN (proj.transform b.min))
    (h2 : Coords NotNaN (proj.transform b.max)) :
    Proper (proj.transformBounds b) ∧
      Tightest NotNaN (proj.transformBounds b) [proj.transform b.min, proj.transform b.max] := by
  have o := ordered_flt FloatFormat.f64
  have pp : Proper (⟨proj.transform b.min, proj.transform b.min⟩ : AABB F64) :=
    ⟨o.refl _ h1.1, o.refl _ h1.2.1, o.refl _ h1.2.2⟩
  obtain ⟨e1, e2, e3⟩ := C32_extend_least o ⟨proj.transform b.min, proj.transform b.min⟩ (proj.transform b.max)
    ⟨h1, h1⟩ h2 pp
  have hm : InBox (proj.transform b.min) (proj.transformBounds b) := e1 _ h1 ⟨pp, pp⟩
  have hx : InBox (proj.transform b.max) (proj.transformBounds b) := e2
  refine ⟨?_, ?_, ?_⟩
  · exact union_proper o (b := ⟨proj.transform b.max, proj.transform b.max⟩) ⟨h1, h1⟩ ⟨h2, h2⟩ pp
  · intro p hp
    rcases List.mem_cons.1 hp with e | hp
    · rw [e]; exact hm
    · rw [List.mem_singleton.1 hp]; exact hx
  · intro c hc hall
    have ha : InBox (proj.transform b.min) c := hall _ (by simp)
    refine e3 c hc ?_ (hall _ (by simp))
    exact (within_iff o ⟨h1, h1⟩ hc pp).2 ha

theorem between_corners (o : Ordered F64 NotNaN) {g : P3 F64 → F64} {b : AABB F64} (hb : GoodBox NotNaN b)
    (pb : Proper b) (hg : MonotoneIn b g) (hn : ∀ p, Coords NotNaN p → InBox p b → NotNaN (g p)) {p : P3 F64}
    (hp : Coords NotNaN p) (hin : InBox p b) :
    Cmp.le (AABB.smaller (g b.min) (g b.max)) (g p) = true ∧ Cmp.le (g p) (AABB.larger (g b.min) (g b.max)) = true := by
  have i1 : InBox b.min b := ⟨⟨o.refl _ hb.1.1, o.refl _ hb.1.2.1, o.refl _ hb.1.2.2⟩, pb⟩
  have i2 : InBox b.max b := ⟨pb, o.refl _ hb.2.1, o.refl _ hb.2.2.1, o.refl _ hb.2.2.2⟩
  have n1 := hn _ hb.1 i1
  have n2 := hn _ hb.2 i2
  have n3 := hn _ hp hin
  rcases hg with h | h
  · exact ⟨smaller_le_of o n1 n2 n3 (.inl (h _ _ hb.1 hp i1 hin hin.1)),
      le_larger_of o n1 n2 n3 (.inr (h _ _ hp hb.2 hin i2 hin.2))⟩
  · exact ⟨smaller_le_of o n1 n2 n3 (.inr (h _ _ hp hb.2 hin i2 hin.2)),
      le_larger_of o n1 n2 n3 (.inl (h _ _ hb.1 hp i1 hin hin.1))⟩

/-- **C61**, for transformations whose coordinates are monotone within the box (such as scaling, translation, mirroring
    and swapping of axes): the box contains the image of every point.

    Missing: it is false for other transformations, see `C61_violated`. -/
theorem C61_partial (proj : Projection) (b : AABB F64) (hb : GoodBox NotNaN b) (pb : Proper b)
    (hn : ∀ p, Coords NotNaN p → InBox p b → Coords NotNaN (proj.transform p))
    (hx : MonotoneIn b fun p => (proj.transform p).x) (hy : MonotoneIn b fun p => (proj.transform p).y)
    (hz : MonotoneIn b fun p => (proj.transform p).z) : MapsInto proj.transform b (proj.transformBounds b) := by
  intro p hp hin
  have o := ordered_flt FloatFormat.f64
  have x := between_corners o hb pb hx (fun p h1 h2 => (hn p h1 h2).1) hp hin
  have y := between_corners o hb pb hy (fun p h1 h2 => (hn p h1 h2).2.1) hp hin
  have z := between_corners o hb pb hz (fun p h1 h2 => (hn p h1 h2).2.2) hp hin
  exact ⟨⟨x.1, y.1, z.1⟩, x.2, y.2, z.2⟩

/-- Mirrors the first axis and swaps the other two. -/
def exMirror : Projection := ⟨fun p => ⟨⟨!p.x.neg, p.x.mag⟩, p.z, p.y⟩⟩

example (b : AABB F64) (hb : GoodBox NotNaN b) (pb : Proper b) :
    MapsInto exMirror.transform b (exMirror.transformBounds b) := by
  refine C61_partial exMirror b hb pb (fun p hp _ => ⟨hp.1, hp.2.2, hp.2.1⟩) (.inr ?_) (.inl ?_) (.inl ?_)
  · intro p q hp hq _ _ h
    have h := h.1
    have h1 := hp.1
    have h2 := hq.1
    obtain ⟨⟨s, m⟩, _, _⟩ := p
    obtain ⟨⟨t, n⟩, _, _⟩ := q
    simp only [NotNaN, Flt.isNaN, decide_eq_false_iff_not, Cmp.le, Flt.le, exMirror, Bool.and_eq_true, Bool.not_eq_true',
      decide_eq_true_eq, Flt.rank] at *
    refine ⟨⟨decide_eq_false h2, decide_eq_false h1⟩, ?_⟩
    cases s <;> cases t <;> simp at * <;> omega
  · intro p q _ _ _ _ h
    exact h.2.2
  · intro p q _ _ _ _ h
    exact h.2.1

/-- A turn by 45 degrees around the z axis and a scaling by √2. -/
def exTurn : Projection := ⟨fun p => ⟨Flt.sub p.x p.y, Flt.add p.x p.y, p.z⟩⟩

/-- C61 is violated: the unit cube is turned, and the returned box has no extent along x; the corner `(1, 0, 0)` goes to
    `(1, 1, 0)`, which is outside. -/
theorem C61_violated :
    let one := Flt.ofInt .f64 1
    let zero := Flt.ofInt .f64 0
    let b : AABB F64 := ⟨⟨zero, zero, zero⟩, ⟨one, one, one⟩⟩
    GoodBox NotNaN b ∧ Proper b ∧ exTurn.transform ⟨one, zero, zero⟩ = ⟨one, one, zero⟩ ∧
      exTurn.transformBounds b = ⟨⟨zero, zero, zero⟩, ⟨zero, Flt.ofInt .f64 2, one⟩⟩ ∧
      ¬ MapsInto exTurn.transform b (exTurn.transformBounds b) := by
  refine ⟨by unfold GoodBox Coords NotNaN; decide +kernel, by unfold Proper Below; decide +kernel, by decide +kernel,
    by decide +kernel, ?_⟩
  intro h
  have := h ⟨Flt.ofInt .f64 1, Flt.ofInt .f64 0, Flt.ofInt .f64 0⟩ (by unfold Coords NotNaN; decide +kernel)
    (by unfold InBox Below; decide +kernel)
  revert this
  unfold InBox Below
  decide +kernel

/-! ## C72 -/

theorem read_f64 {x : F64} (hx : IsF64 x) : Flt.ofBits .f64 (leNat (writeNum .f64 (.double x))) = x := by
  show Flt.ofBits .f64 (leNat (natLE 8 x.toBits)) = x
  unfold IsF64 at hx
  have hb : x.toBits < 2 ^ (8 * 8) := by
    unfold Flt.toBits
    have : (2 : Nat) ^ (FloatFormat.f64.mantBits + FloatFormat.f64.expBits) = 2 ^ 63 := by decide
    rw [this]
    split <;> omega
  rw [leNat_natLE, Nat.mod_eq_of_lt hb, Las.ofBits_toBits _ hx]

theorem position_f64 (v : Bytes) : Coords IsF64 (positionOf v) := by
  have : ∀ n, IsF64 (Flt.ofBits .f64 n) := fun n => Nat.mod_lt _ (by decide)
  exact ⟨this _, this _, this _⟩

theorem write_position (p : P3 F64) (h : Coords IsF64 p) :
    (writeVec3F64 p).length = 24 ∧ positionOf (writeVec3F64 p) = p := by
  have hx := read_f64 h.1
  have hy := read_f64 h.2.1
  have hz := read_f64 h.2.2
  have l : ∀ x : F64, (writeNum .f64 (.double x)).length = 8 := fun x => natLE_length _ _
  have lx := l p.x
  have ly := l p.y
  have lz := l p.z
  unfold positionOf writeVec3F64 window
  generalize writeNum .f64 (.double p.x) = a at *
  generalize writeNum .f64 (.double p.y) = b at *
  generalize writeNum .f64 (.double p.z) = c at *
  refine ⟨by simp only [List.length_append]; omega, ?_⟩
  have e1 : ((a ++ b ++ c).drop 0).take 8 = a := by
    rw [List.drop_zero, List.append_assoc, ← lx, List.take_left]
  have e2 : ((a ++ b ++ c).drop 8).take 8 = b := by
    rw [List.append_assoc, ← lx, List.drop_left, lx, ← ly, List.take_left]
  have e3 : ((a ++ b ++ c).drop 16).take 8 = c := by
    have : 16 = (a ++ b).length := by rw [List.length_append]; omega
    rw [this, List.drop_left, ← lz, List.take_length]
  rw [e1, e2, e3, hx, hy, hz]

theorem length_write (p : P3 F64) : (writeVec3F64 p).length = 24 := by
  have l : ∀ x : F64, (writeNum .f64 (.double x)).length = 8 := fun x => natLE_length _ _
  unfold writeVec3F64
  simp only [List.length_append, l]

theorem get_set_same : ∀ {p : Point} {d : AttrDef} {v w : Bytes}, p.get d = some v → (p.set d w).get d = some w
  | [], _, _, _, h => by cases h
  | (k, x) :: p, d, v, w, h => by
    unfold Point.get Point.set at *
    by_cases hk : d = k
    · subst hk; simp
    · have hk' : ¬ k = d := fun e => hk e.symm
      have : (d == k) = false := by simpa using hk
      rw [List.lookup_cons, this] at h
      simp only [List.map_cons, if_neg hk', List.lookup_cons, this]
      exact get_set_same (p := p) h

theorem get_set_other : ∀ {p : Point} {d e : AttrDef} {w : Bytes}, e ≠ d → (p.set d w).get e = p.get e
  | [], _, _, _, _ => rfl
  | (k, x) :: p, d, e, w, h => by
    unfold Point.get Point.set at *
    by_cases hk : e = k
    · subst hk; simp [h]
    · have : (e == k) = false := by simpa using hk
      have ih := get_set_other (p := p) (w := w) h
      unfold Point.get Point.set at ih
      simp only [List.map_cons, List.lookup_cons]
      split <;> simp only [List.lookup_cons, this] <;> exact ih

theorem new_total {proj : String → String → Projection} {s t : String} (hs : NoNul s) (ht : NoNul t) :
    Voxel.unwrap (Projection.new proj s t) = .ok (proj s t) := by
  unfold Projection.new bailIf
  unfold NoNul at hs ht
  simp [hs, ht, Voxel.unwrap, bind, Except.bind, pure, Except.pure]

theorem new_panic {proj : String → String → Projection} {s t : String} (h : ¬ (NoNul s ∧ NoNul t)) :
    Voxel.unwrap (Projection.new proj s t) = .error .panic := by
  unfold Projection.new bailIf
  unfold NoNul at h
  by_cases hs : '\x00' ∈ s.toList
  · simp [hs, Voxel.unwrap, bind, Except.bind, panicked]
  · by_cases ht : '\x00' ∈ t.toList
    · simp [hs, ht, Voxel.unwrap, bind, Except.bind, panicked]
    · exact absurd ⟨hs, ht⟩ h

theorem transformed_relocated {l : PointLayout} (hl : Solid l) {β : Type} [BorrowedBuffer β] {b : β} {ps : List Point}
    (h : ShowsPoints b l ps) (hpos : position3D ∈ l.attributes.map Member.definition) {ss : List Point}
    {f : P3 F64 → P3 F64} (hf : ∀ p, Coords IsF64 p → Coords IsF64 (f p)) {g : Nat → Bytes → Bytes}
    (hg : ∀ i s p, ss[i]? = some s → ps[i]? = some p → ∀ v, p.get position3D = some v →
      ∃ u, s.get position3D = some u ∧ g i v = writeVec3F64 (f (positionOf u))) (i : Nat) (s p q : Point)
    (h1 : ss[i]? = some s) (h2 : ps[i]? = some p) (h3 : (transformed position3D g ps)[i]? = some q) :
    Relocated f s p q := by
  unfold transformed at h3
  rw [List.getElem?_mapIdx, h2] at h3
  obtain ⟨m, hm, hd⟩ := List.mem_map.1 hpos
  obtain ⟨v, hv, _⟩ := (h.typed hl).1 p (List.mem_of_getElem? h2) m hm
  rw [hd] at hv
  simp only [Option.map_some, hv] at h3
  have h3 := Option.some.inj h3
  subst h3
  obtain ⟨u, hu, hgi⟩ := hg i s p h1 h2 v hv
  have hw := write_position _ (hf (positionOf u) (position_f64 u))
  refine ⟨fun d hd => get_set_other hd, u, _, hu, get_set_same hv, ?_, ?_⟩
  · rw [hgi]; exact hw.1
  · rw [hgi]; exact hw.2

/-- The new positions, as bytes. -/
private def newPosition (f : P3 F64 → P3 F64) (v : Bytes) : Bytes := writeVec3F64 (f (readVec3F64 v))

theorem within_eq {β : Type} [BorrowedMutBuffer β] (proj : String → String → Projection) (b : β) {s t : String}
    (hs : NoNul s) (ht : NoNul t) :
    within proj b s t = transformAttribute b .vec3f64 position3D fun _ => newPosition (proj s t).transform := by
  unfold within
  rw [new_total hs ht]
  rfl

/-- **C72**: `reproject_point_cloud_within` gives every point of a `VectorBuffer` its transformed position and changes
    nothing else. -/
theorem C72_within_vector (proj : String → String → Projection) (s t : String) (hs : NoNul s) (ht : NoNul t)
    (hf : ∀ p, Coords IsF64 p → Coords IsF64 ((proj s t).transform p)) (b : VectorBuffer) (hl : Solid b.layout) (hb : VectorConsistent b)
    (ps : List Point) (h : ShowsPoints b b.layout ps) (hpos : position3D ∈ b.layout.attributes.map Member.definition) :
    ∃ c qs, within proj b s t = .ok c ∧ ShowsPoints c b.layout qs ∧ qs.length = ps.length ∧
      ∀ (i : Nat) p q, ps[i]? = some p → qs[i]? = some q → Relocated (proj s t).transform p p q := by
  obtain ⟨m, hm, hd⟩ := List.mem_map.1 hpos
  have hdt : m.datatype = .vec3f64 := congrArg AttrDef.datatype hd
  obtain ⟨c, h1, h2⟩ := C65_transform_vector b hl hb ps h m hm (fun _ => newPosition (proj s t).transform) (by
    intro i v _
    rw [show m.size = 24 from congrArg AttrDef.size hd]
    exact length_write _)
  rw [hd] at h1 h2
  rw [hdt] at h1
  refine ⟨c, _, (within_eq proj b hs ht).trans h1, h2, by simp [transformed], ?_⟩
  intro i p q hp hq
  exact transformed_relocated hl h hpos hf (ss := ps) (by
    intro i a b ha hb v hv
    rw [ha] at hb
    cases hb
    exact ⟨v, hv, rfl⟩) i p p q hp hp hq

/-- **C72** for a `HashMapBuffer`. -/
theorem C72_within_hashmap (proj : String → String → Projection) (s t : String) (hs : NoNul s) (ht : NoNul t)
    (hf : ∀ p, Coords IsF64 p → Coords IsF64 ((proj s t).transform p)) (b : HashMapBuffer) (hl : Solid b.layout) (hb : HashMapConsistent b)
    (ps : List Point) (h : ShowsPoints b b.layout ps) (hpos : position3D ∈ b.layout.attributes.map Member.definition) :
    ∃ c qs, within proj b s t = .ok c ∧ ShowsPoints c b.layout qs ∧ qs.length = ps.length ∧
      ∀ (i : Nat) p q, ps[i]? = some p → qs[i]? = some q → Relocated (proj s t).transform p p q := by
  obtain ⟨m, hm, hd⟩ := List.mem_map.1 hpos
  have hdt : m.datatype = .vec3f64 := congrArg AttrDef.datatype hd
  obtain ⟨c, h1, h2⟩ := C65_transform_hashmap b hl hb ps h m hm (fun _ => newPosition (proj s t).transform) (by
    intro i v _
    rw [show m.size = 24 from congrArg AttrDef.size hd]
    exact length_write _)
  rw [hd] at h1 h2
  rw [hdt] at h1
  refine ⟨c, _, (within_eq proj b hs ht).trans h1, h2, by simp [transformed], ?_⟩
  intro i p q hp hq
  exact transformed_relocated hl h hpos hf (ss := ps) (by
    intro i a b ha hb v hv
    rw [ha] at hb
    cases hb
    exact ⟨v, hv, rfl⟩) i p p q hp hp hq

/-- C72: without a position attribute of type `Vec3f64`, or with a NUL character in the name of a coordinate reference
    system, `reproject_point_cloud_within` panics. -/
theorem C72_within_panics {β : Type} [BorrowedMutBuffer β] (proj : String → String → Projection) (s t : String) (b : β)
    (l : PointLayout) (hl : Solid l) (ps : List Point) (h : ShowsPoints b l ps)
    (hno : ¬ (NoNul s ∧ NoNul t ∧ position3D ∈ l.attributes.map Member.definition)) :
    within proj b s t = .error .panic := by
  by_cases hn : NoNul s ∧ NoNul t
  · rw [within_eq proj b hn.1 hn.2]
    exact C65_rejects b l hl ps h _ _ (fun hc => hno ⟨hn.1, hn.2, hc.2⟩) _
  · unfold within
    rw [new_panic hn]
    rfl

/-! ### Two buffers -/

theorem set_records {β : Type} [OwningBuffer β] [HoldsRecords β] {l : PointLayout} (hl : Solid l)
    {rs : List Bytes} (h : AllLen l.size rs) {m : Member} (hm : m ∈ l.attributes) (g : Nat → Bytes)
    (hg : ∀ i, (g i).length = m.size) :
    ∃ rs', AllLen l.size rs' ∧
      forLoop (List.range rs.length) (HoldsRecords.ofRecords l rs : β)
        (fun b i => AttributeView.setAt b ⟨m.datatype, m⟩ i (g i)) = .ok (HoldsRecords.ofRecords l rs') ∧
      rs'.map (pointOf l) = transformed m.definition (fun i _ => g i) (rs.map (pointOf l)) := by
  let F : Nat → Bytes → Bytes := fun i r => overwrite r m.offset (g i)
  have hF : ∀ i r, r.length = l.size → (F i r).length = l.size := by
    intro i r hr
    have hi := hl.inside m hm
    have := hg i
    show (overwrite r m.offset _).length = _
    rw [length_overwrite (by omega), hr]
  have hloop := modify_loop (HoldsRecords.ofRecords l : List Bytes → β) (AllLen l.size) F
    (body := fun b i => AttributeView.setAt b ⟨m.datatype, m⟩ i (g i)) 0 rs.length 0 rs h (by
      intro k ys hk hy hlen
      rw [Nat.zero_add]
      have hky : k < ys.length := by omega
      have hr : ys[k]? = some ys[k] := List.getElem?_eq_getElem hky
      have hrl : (ys[k]).length = l.size := hy.getElem hr
      constructor
      · have hs := HoldsRecords.step_eq (β := β) hl hy (.setAttribute m.definition k (g k)) (hg k)
        unfold Op.stepRecords at hs
        rw [if_pos ⟨List.mem_map_of_mem hm, hky⟩] at hs
        refine Eq.trans hs ?_
        simp only [Except.map, Op.onRecords, find_def_mem hl hm]
        rfl
      · intro r hrm
        rw [List.modify_eq_set_getElem?, hr] at hrm
        exact (hy.set (hF k _ hrl) k) r hrm)
  refine ⟨rs.mapIdx F, ?_, ?_, ?_⟩
  · intro r hr
    rw [List.mem_mapIdx] at hr
    obtain ⟨i, hi, rfl⟩ := hr
    exact hF i _ (h _ (List.getElem_mem hi))
  · rw [List.range_eq_range']
    refine Eq.trans hloop ?_
    congr 2
    apply List.ext_getElem (by simp)
    intro i h1 h2
    simp at h1
    simp [h1]
  · unfold transformed
    apply List.ext_getElem (by simp)
    intro i h1 h2
    simp at h1
    simp only [List.getElem_map, List.getElem_mapIdx, pointOf_get, find_def_mem hl hm, Option.map_some]
    have hr : (rs[i]).length = l.size := h _ (List.getElem_mem h1)
    exact pointOf_overwrite hl hr hm (hg _)

theorem between_records {β γ : Type} [BorrowedBuffer β] [OwningBuffer γ] [HoldsRecords γ]
    (proj : String → String → Projection) (s t : String) (hs : NoNul s) (ht : NoNul t)
    (hf : ∀ p, Coords IsF64 p → Coords IsF64 ((proj s t).transform p)) (source : β) {k : PointLayout} (hk : Solid k) {ss : List Point}
    (hsrc : ShowsPoints source k ss) (kpos : position3D ∈ k.attributes.map Member.definition) {l : PointLayout}
    (hl : Solid l) {rs : List Bytes} (h : AllLen l.size rs) (lpos : position3D ∈ l.attributes.map Member.definition)
    (hlen : ss.length = rs.length) :
    ∃ rs', AllLen l.size rs' ∧ between proj source (HoldsRecords.ofRecords l rs : γ) s t = .ok (HoldsRecords.ofRecords l rs') ∧
      rs'.length = rs.length ∧
      ∀ (i : Nat) a p q, ss[i]? = some a → (rs.map (pointOf l))[i]? = some p → (rs'.map (pointOf l))[i]? = some q →
        Relocated (proj s t).transform a p q := by
  have hshow := HoldsRecords.shows (β := γ) hl h
  have hn : len (HoldsRecords.ofRecords l rs : γ) = rs.length := by rw [hshow.len_eq, List.length_map]
  obtain ⟨m, hm, hd⟩ := List.mem_map.1 lpos
  obtain ⟨n, hnm, hnd⟩ := List.mem_map.1 kpos
  have hdt : m.datatype = .vec3f64 := congrArg AttrDef.datatype hd
  have hms : m.size = 24 := congrArg AttrDef.size hd
  have hns : n.size = 24 := congrArg AttrDef.size hnd
  obtain ⟨xs, hx, _⟩ := column_some hk hsrc hnm
  obtain ⟨c1, c2⟩ := column_get hx
  let g : Nat → Bytes := fun i => newPosition (proj s t).transform (xs[i]?.getD [])
  obtain ⟨rs', e1, e2, e3⟩ := set_records (β := γ) hl h hm g (fun i => (length_write _).trans hms.symm)
  refine ⟨rs', e1, ?_, ?_, ?_⟩
  · unfold between
    rw [assertThat_true (by rw [hsrc.len_eq, hn, hlen]; exact decide_eq_true rfl), new_total hs ht]
    simp only [bind, Except.bind]
    rw [(C62_attribute_view_checks _ l hl _ hshow .vec3f64 position3D).1 rfl m hm hd]
    simp only
    rw [(C62_attribute_view_checks _ k hk _ hsrc .vec3f64 position3D).1 rfl n hnm hnd]
    simp only
    rw [hsrc.layout_eq, lookup_member hk hnm]
    simp only [expectSome]
    rw [hsrc.len_eq, hlen, ← e2, ← hdt]
    refine forLoop_congr _ _ ?_
    intro i hi b
    have hi : i < xs.length := by rw [c1, hlen]; exact List.mem_range.1 hi
    unfold betweenStep
    rw [hsrc.getAttributeUnchecked_eq n i _ hnm (by rw [hns]; rfl), c2, List.getElem?_eq_getElem hi]
    simp only [answer, bind, Except.bind]
    show _ = AttributeView.setAt b _ i (newPosition _ (xs[i]?.getD []))
    rw [List.getElem?_eq_getElem hi]
    rfl
  · have := congrArg List.length e3
    simpa [transformed] using this
  · intro i a p q ha hp hq
    rw [e3, hd] at hq
    refine transformed_relocated hl hshow lpos hf (ss := ss) ?_ i a p q ha hp hq
    intro i a p ha hp v hv
    have hv := c2 i
    unfold value? at hv
    rw [ha, hnd] at hv
    have hi : i < xs.length := by
      rw [c1]
      exact (List.getElem?_eq_some_iff.1 ha).1
    rw [List.getElem?_eq_getElem hi] at hv
    refine ⟨xs[i], hv, ?_⟩
    show newPosition _ (xs[i]?.getD []) = _
    rw [List.getElem?_eq_getElem hi]
    rfl

/-- **C72**: `reproject_point_cloud_between` gives point `i` of the target the transformed position of point `i` of the
    source and changes nothing else in the target, here a `VectorBuffer`. The source can be of any kind. -/
theorem C72_between_vector {β : Type} [BorrowedBuffer β] (proj : String → String → Projection) (s t : String)
    (hs : NoNul s) (ht : NoNul t) (hf : ∀ p, Coords IsF64 p → Coords IsF64 ((proj s t).transform p)) (source : β) (k : PointLayout)
    (hk : Solid k) (ss : List Point) (hsrc : ShowsPoints source k ss)
    (kpos : position3D ∈ k.attributes.map Member.definition) (b : VectorBuffer) (hl : Solid b.layout)
    (hb : VectorConsistent b) (ps : List Point) (h : ShowsPoints b b.layout ps)
    (lpos : position3D ∈ b.layout.attributes.map Member.definition) (hlen : ss.length = ps.length) :
    ∃ c qs, between proj source b s t = .ok c ∧ ShowsPoints c b.layout qs ∧ qs.length = ps.length ∧
      ∀ (i : Nat) a p q, ss[i]? = some a → ps[i]? = some p → qs[i]? = some q →
        Relocated (proj s t).transform a p q := by
  obtain ⟨rs, h1, h2⟩ := vector_shows b hb
  generalize b.layout = l at *
  subst h2
  have := showsPoints_unique h (interleaved_shows_points hl h1)
  subst this
  obtain ⟨rs', e1, e2, e3, e4⟩ := between_records (γ := VectorBuffer) proj s t hs ht hf source hk hsrc kpos hl h1 lpos
    (by rw [hlen, List.length_map])
  exact ⟨_, _, e2, interleaved_shows_points hl e1, by simp [e3], e4⟩

/-- **C72** for a target of type `HashMapBuffer`. -/
theorem C72_between_hashmap {β : Type} [BorrowedBuffer β] (proj : String → String → Projection) (s t : String)
    (hs : NoNul s) (ht : NoNul t) (hf : ∀ p, Coords IsF64 p → Coords IsF64 ((proj s t).transform p)) (source : β) (k : PointLayout)
    (hk : Solid k) (ss : List Point) (hsrc : ShowsPoints source k ss)
    (kpos : position3D ∈ k.attributes.map Member.definition) (b : HashMapBuffer) (hl : Solid b.layout)
    (hb : HashMapConsistent b) (ps : List Point) (h : ShowsPoints b b.layout ps)
    (lpos : position3D ∈ b.layout.attributes.map Member.definition) (hlen : ss.length = ps.length) :
    ∃ c qs, between proj source b s t = .ok c ∧ ShowsPoints c b.layout qs ∧ qs.length = ps.length ∧
      ∀ (i : Nat) a p q, ss[i]? = some a → ps[i]? = some p → qs[i]? = some q →
        Relocated (proj s t).transform a p q := by
  obtain ⟨rs, h1, h2⟩ := hashmap_shows b hl hb
  generalize b.layout = l at *
  subst h2
  have := showsPoints_unique h (HashMapBuffer.shows_points hl h1)
  subst this
  obtain ⟨rs', e1, e2, e3, e4⟩ := between_records (γ := HashMapBuffer) proj s t hs ht hf source hk hsrc kpos hl h1 lpos
    (by rw [hlen, List.length_map])
  exact ⟨_, _, e2, HashMapBuffer.shows_points hl e1, by simp [e3], e4⟩

/-- C72: buffers of different length, a missing position attribute or a NUL character make
    `reproject_point_cloud_between` panic. -/
theorem C72_between_panics {β γ : Type} [BorrowedBuffer β] [BorrowedMutBuffer γ] (proj : String → String → Projection)
    (s t : String) (source : β) (k : PointLayout) (hk : Solid k) (ss : List Point) (hsrc : ShowsPoints source k ss)
    (target : γ) (l : PointLayout) (hl : Solid l) (ps : List Point) (h : ShowsPoints target l ps)
    (hno : ¬ (ss.length = ps.length ∧ NoNul s ∧ NoNul t ∧ position3D ∈ k.attributes.map Member.definition ∧
      position3D ∈ l.attributes.map Member.definition)) :
    between proj source target s t = .error .panic := by
  unfold between
  by_cases h1 : ss.length = ps.length
  · rw [assertThat_true (by rw [hsrc.len_eq, h.len_eq, h1]; exact decide_eq_true rfl)]
    by_cases h2 : NoNul s ∧ NoNul t
    · rw [new_total h2.1 h2.2]
      simp only [bind, Except.bind]
      by_cases h3 : position3D ∈ l.attributes.map Member.definition
      · obtain ⟨m, hm, hd⟩ := List.mem_map.1 h3
        rw [(C62_attribute_view_checks _ l hl _ h .vec3f64 position3D).1 rfl m hm hd]
        simp only
        rw [(C62_attribute_view_checks _ k hk _ hsrc .vec3f64 position3D).2 fun hc =>
          hno ⟨h1, h2.1, h2.2, hc.2, h3⟩]
      · rw [(C62_attribute_view_checks _ l hl _ h .vec3f64 position3D).2 fun hc => h3 hc.2]
    · rw [new_panic h2]
      rfl
  · rw [assertThat_false (by rw [hsrc.len_eq, h.len_eq]; exact decide_eq_false h1)]
    rfl

/-- A layout with an intensity after the position. -/
def exReproject : PointLayout := ⟨[⟨position3D, 0⟩, ⟨⟨"Intensity", .u16⟩, 24⟩], 26, 1⟩

/-- Mirrors the first axis and swaps the other two, whatever the names of the reference systems. -/
example : let b : VectorBuffer := ⟨[1, 0, 0, 0, 0, 0, 0xf0, 0x3f, 2, 0, 0, 0, 0, 0, 0xf0, 0x3f, 3, 0, 0, 0, 0, 0, 0xf0, 0x3f, 7, 8],
      exReproject, 1⟩
    Solid exReproject ∧ VectorConsistent b ∧ position3D ∈ b.layout.attributes.map Member.definition ∧
    NoNul "EPSG:4326" ∧
    within (fun _ _ => exMirror) b "EPSG:4326" "EPSG:3309" =
      .ok ⟨[1, 0, 0, 0, 0, 0, 0xf0, 0xbf, 3, 0, 0, 0, 0, 0, 0xf0, 0x3f, 2, 0, 0, 0, 0, 0, 0xf0, 0x3f, 7, 8], exReproject, 1⟩ ∧
    between (fun _ _ => exMirror) b (⟨zeros 24, ⟨[⟨position3D, 0⟩], 24, 1⟩, 1⟩ : VectorBuffer) "EPSG:4326" "EPSG:3309" =
      .ok ⟨[1, 0, 0, 0, 0, 0, 0xf0, 0xbf, 3, 0, 0, 0, 0, 0, 0xf0, 0x3f, 2, 0, 0, 0, 0, 0, 0xf0, 0x3f],
        ⟨[⟨position3D, 0⟩], 24, 1⟩, 1⟩ ∧
    between (fun _ _ => exMirror) b (⟨zeros 48, ⟨[⟨position3D, 0⟩], 24, 1⟩, 2⟩ : VectorBuffer) "EPSG:4326" "EPSG:3309" =
      .error .panic := by
  refine ⟨⟨by decide +kernel, by decide +kernel, by decide +kernel, by decide +kernel, by decide +kernel⟩,
    by unfold VectorConsistent; decide +kernel, by decide +kernel, by unfold NoNul; decide +kernel, by decide +kernel,
    by decide +kernel, by decide +kernel⟩

/-- A mirrored position is made of 64-bit values if the position was. -/
example (p : P3 F64) (h : Coords IsF64 p) : Coords IsF64 (exMirror.transform p) := ⟨h.1, h.2.2, h.2.1⟩

end Pasture.Props
