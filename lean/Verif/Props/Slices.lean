import Verif.Lemmas.SlicesMut
import Verif.Props.Collect

/-!
# Properties C17 (slices), C18 (mutable slices), C19 (nested slices)
-/

namespace Pasture.Props

open Spec BorrowedBuffer BorrowedMutBuffer

/-- The elements `s..e` of a list. -/
def sub {α : Type} (xs : List α) (s e : Nat) : List α := (xs.drop s).take (e - s)

/-! ## C17 -/

/-- C17 for `VectorBuffer` and `ExternalMemoryBuffer`: every read of the slice shows exactly the
    records `s..e`; `ShowsRecords` includes that everything outside panics. -/
theorem C17_slice_interleaved (b : Interleaved) (l : PointLayout) (hl : Solid l) (rs : List Bytes)
    (h : ShowsRecords b l rs) (s e : Nat) (hse : s ≤ e) (he : e ≤ len b) :
    ShowsRecords (b.slice ⟨s, e⟩) l (sub rs s e) := by
  rw [h.points.len_eq, List.length_map] at he
  exact sliceInterleaved_shows hl (slice_shows_records hl h hse he)

/-- C17 for `HashMapBuffer`. -/
theorem C17_slice_columnar (b : HashMapBuffer) (l : PointLayout) (hl : Solid l) (ps : List Point)
    (h : ShowsColumns b l ps) (s e : Nat) (hse : s ≤ e) (he : e ≤ len b) :
    ShowsColumns (b.slice ⟨s, e⟩) l (sub ps s e) := by
  rw [h.points.len_eq] at he
  exact sliceColumnar_shows hl (slice_shows_columns hl h hse he)

/-- C17 for slices of any buffer, in particular of other slices. -/
theorem C17_slice_any {β : Type} [BorrowedBuffer β] (b : β) (l : PointLayout) (hl : Solid l) (ps : List Point)
    (h : ShowsPoints b l ps) (s e : Nat) (hse : s ≤ e) (he : e ≤ len b) :
    ShowsPoints (⟨b, ⟨s, e⟩⟩ : BufferSlice β) l (sub ps s e) := by
  rw [h.len_eq] at he
  exact slice_shows hl h hse he

/-- The hypotheses are met by every consistent buffer: see `C13_hypotheses_met`. A concrete read: -/
example : getPoint (Interleaved.slice ⟨[1, 9, 2, 3, 4, 9, 5, 0, 1, 2, 7, 0, 6, 0, 3, 4, 8, 0], exLayout, 3⟩ ⟨1, 3⟩) 1
    (zeros 6) = .ok [6, 0, 3, 4, 8, 0] := by decide

/-- `slice` itself checks nothing: a slice may be longer than its buffer, and the first read of a
    missing point panics. -/
theorem C17_slice_of_any_range : ∃ b : VectorBuffer, len b = 1 ∧ len (b.slice ⟨0, 4⟩) = 4 ∧
    getPoint (b.slice ⟨0, 4⟩) 2 (zeros 6) = .error .panic :=
  ⟨⟨[1, 9, 2, 3, 4, 9], exLayout, 1⟩, by decide, by decide, by decide⟩

/-! ## C18 -/

/-- C18, writes with local indices inside the slice, `VectorBuffer`: the points outside `s..e` are
    unchanged and those inside change as the operation says. -/
theorem C18_write_interleaved_partial (b : VectorBuffer) (hl : Solid b.layout) (hb : VectorConsistent b)
    (rs : List Bytes) (h : ShowsRecords b b.layout rs) (s e : Nat) (hse : s ≤ e) (he : e ≤ len b) (op : Op)
    (hp : op.inPlace) (hw : op.wellFormed b.layout) (ha : op.allowed b.layout (e - s)) :
    ∃ c : VectorBuffer, runInPlace (b.sliceMut ⟨s, e⟩) op = .ok (c.sliceMut ⟨s, e⟩) ∧
      ShowsRecords c b.layout (rs.take s ++ op.onRecords b.layout (sub rs s e) ++ rs.drop e) := by
  rw [h.points.len_eq, List.length_map] at he
  obtain ⟨xs, h1, h2⟩ := vector_shows b hb
  generalize b.layout = l at *
  subst h2
  have hx := interleaved_shows_records hl h1
  have e0 : rs = xs := by
    have hlen : xs.length = rs.length := by
      have h4 := hx.points.len_eq; rw [h.points.len_eq] at h4; simpa using h4.symm
    apply List.ext_getElem hlen.symm
    intro i hi hi'
    have e1 := hx.getPointRef_eq i
    rw [h.getPointRef_eq i, List.getElem?_eq_getElem hi, List.getElem?_eq_getElem hi'] at e1
    exact Except.ok.inj e1
  subst e0
  obtain ⟨g1, g2⟩ := sliceMut_step (β := VectorBuffer) hl h1 hse he hp hw ha
  refine ⟨_, ?_, interleaved_shows_records hl g2⟩
  have lift : ∀ (op : Op) (x : BufferSliceMut Interleaved),
      runInPlace (⟨x⟩ : BufferSliceInterleavedMut Interleaved) op =
        (runInPlace x op).map BufferSliceInterleavedMut.mk := by
    intro op x
    cases op <;> rfl
  unfold Interleaved.sliceMut
  rw [lift op]
  exact congrArg (Except.map BufferSliceInterleavedMut.mk) g1

/-- C18, writes with local indices inside the slice, `HashMapBuffer`. -/
theorem C18_write_columnar_partial (b : HashMapBuffer) (hl : Solid b.layout) (hb : HashMapConsistent b)
    (ps : List Point) (h : ShowsPoints b b.layout ps) (s e : Nat) (hse : s ≤ e) (he : e ≤ len b) (op : Op)
    (hp : op.inPlace) (hw : op.wellFormed b.layout) (ha : op.allowed b.layout (e - s)) :
    ∃ c : HashMapBuffer, runInPlace (b.sliceMut ⟨s, e⟩) op = .ok (c.sliceMut ⟨s, e⟩) ∧
      ShowsPoints c b.layout (ps.take s ++ op.onPoints b.layout (sub ps s e) ++ ps.drop e) := by
  rw [h.len_eq] at he
  obtain ⟨rs, h1, h2⟩ := hashmap_shows b hl hb
  generalize b.layout = l at *
  subst h2
  have e0 := h.unique (HashMapBuffer.shows_points hl h1)
  subst e0
  rw [List.length_map] at he
  obtain ⟨g1, g2⟩ := sliceMut_step (β := HashMapBuffer) hl h1 hse he hp hw ha
  have hpart : AllLen l.size (part rs s e) := (h1.drop s).take (e - s)
  refine ⟨HashMapBuffer.ofRecords l (rs.take s ++ op.onRecords l (part rs s e) ++ rs.drop e), ?_, ?_⟩
  rotate_left
  · have := HashMapBuffer.shows_points hl g2
    rw [List.map_append, List.map_append, onRecords_map hl hpart hw (by rw [part_length he]; exact ha),
      ← part_map, List.map_take, List.map_drop] at this
    exact this
  · have lift : ∀ (op : Op) (x : BufferSliceMut HashMapBuffer),
        runInPlace (⟨x⟩ : BufferSliceColumnarMut HashMapBuffer) op =
          (runInPlace x op).map BufferSliceColumnarMut.mk := by
      intro op x
      cases op <;> rfl
    unfold HashMapBuffer.sliceMut
    rw [lift op]
    exact congrArg (Except.map BufferSliceColumnarMut.mk) g1

/-- C18, reads: with local indices inside the slice a mutable slice reads what the immutable slice
    of C17 reads. -/
theorem C18_read_partial {β : Type} [BorrowedMutBuffer β] (b : β) (s e : Nat) :
    (∀ i data, i < e - s →
      getPoint (⟨b, ⟨s, e⟩⟩ : BufferSliceMut β) i data = getPoint (⟨b, ⟨s, e⟩⟩ : BufferSlice β) i data) ∧
    (∀ x y data, x < y → y ≤ e - s →
      getPointRange (⟨b, ⟨s, e⟩⟩ : BufferSliceMut β) ⟨x, y⟩ data =
        getPointRange (⟨b, ⟨s, e⟩⟩ : BufferSlice β) ⟨x, y⟩ data) ∧
    (∀ d i data, i < e - s →
      getAttribute (⟨b, ⟨s, e⟩⟩ : BufferSliceMut β) d i data =
        getAttribute (⟨b, ⟨s, e⟩⟩ : BufferSlice β) d i data) ∧
    (∀ d x y data, y ≤ e - s →
      getAttributeRange (⟨b, ⟨s, e⟩⟩ : BufferSliceMut β) d ⟨x, y⟩ data =
        getAttributeRange (⟨b, ⟨s, e⟩⟩ : BufferSlice β) d ⟨x, y⟩ data) := by
  have idx : ∀ i, i < e - s → (⟨b, ⟨s, e⟩⟩ : BufferSliceMut β).globalIndex i = globalIndex i ⟨s, e⟩ := by
    intro i hi
    rw [BufferSliceMut.globalIndex_ok (by omega), globalIndex_ok hi]
  refine ⟨?_, ?_, ?_, ?_⟩
  · intro i data hi
    show ((⟨b, ⟨s, e⟩⟩ : BufferSliceMut β).globalIndex i).bind _ = (globalIndex i ⟨s, e⟩).bind _
    rw [idx i hi]
  · intro x y data hxy hy
    show ((⟨b, ⟨s, e⟩⟩ : BufferSliceMut β).globalRange ⟨x, y⟩).bind _ = (globalRange ⟨x, y⟩ ⟨s, e⟩).bind _
    rw [BufferSliceMut.globalRange_ok hxy (by omega), globalRange_ok hxy hy]
  · intro d i data hi
    show ((⟨b, ⟨s, e⟩⟩ : BufferSliceMut β).globalIndex i).bind _ = (globalIndex i ⟨s, e⟩).bind _
    rw [idx i hi]
  · intro d x y data hy
    unfold getAttributeRange
    show (expectSome ((layout b).getAttribute d)).bind _ = (expectSome ((layout b).getAttribute d)).bind _
    congr 1
    funext m
    apply forLoop_congr
    intro i hi data
    simp only [Rng.toList, List.mem_range'_1] at hi
    have : getAttributeUnchecked (⟨b, ⟨s, e⟩⟩ : BufferSliceMut β) m i =
        getAttributeUnchecked (⟨b, ⟨s, e⟩⟩ : BufferSlice β) m i := by
      funext old
      show ((⟨b, ⟨s, e⟩⟩ : BufferSliceMut β).globalIndex i).bind _ = (globalIndex i ⟨s, e⟩).bind _
      rw [idx i (by omega)]
    rw [this]

/-- C18 is false: the bounds check of a mutable slice compares local indices with the *global* end
    of the slice. For every interleaved buffer and every slice `s..e` that does not start at 0 and
    ends before the buffer does, reading and writing the local index `len()` does not panic: it
    reads and changes point `e` of the buffer, which is outside the slice. -/
theorem C18_violated_everywhere (l : PointLayout) (hl : Solid l) (rs : List Bytes) (hr : AllLen l.size rs)
    (s e : Nat) (hs : 0 < s) (hse : s ≤ e) (he : e < rs.length) (r : Bytes) (hrl : r.length = l.size) :
    let b : VectorBuffer := ⟨rs.flatten, l, rs.length⟩
    getPoint (b.sliceMut ⟨s, e⟩) (len (b.sliceMut ⟨s, e⟩)) (zeros l.size) = .ok rs[e] ∧
    setPoint (b.sliceMut ⟨s, e⟩) (len (b.sliceMut ⟨s, e⟩)) r =
      .ok (Interleaved.sliceMut ⟨(rs.set e r).flatten, l, rs.length⟩ ⟨s, e⟩) := by
  intro b
  have hlen : len (b.sliceMut ⟨s, e⟩) = e - s := rfl
  have hidx : (⟨b, ⟨s, e⟩⟩ : BufferSliceMut Interleaved).globalIndex (e - s) = .ok e := by
    rw [BufferSliceMut.globalIndex_ok (by omega)]; congr 1; omega
  rw [hlen]
  constructor
  · show ((⟨b, ⟨s, e⟩⟩ : BufferSliceMut Interleaved).globalIndex (e - s)).bind _ = _
    rw [hidx]
    have := (interleaved_shows_records hl hr).getPoint_eq e (zeros l.size) (by simp [zeros])
    rw [List.getElem?_eq_getElem he] at this
    exact this
  · show (((⟨b, ⟨s, e⟩⟩ : BufferSliceMut Interleaved).globalIndex (e - s)).bind _).map _ = _
    rw [hidx]
    have := HoldsRecords.step_eq (β := VectorBuffer) hl hr (.setPoint e r) hrl
    rw [Op.stepRecords, if_pos (show (Op.setPoint e r).allowed l rs.length from he)] at this
    have h2 : setPoint b e r = .ok ⟨(rs.set e r).flatten, l, rs.length⟩ := by
      refine this.trans ?_
      show Except.ok (Interleaved.ofRecords l (rs.set e r)) = _
      simp [Interleaved.ofRecords]
    show ((BufferSliceMut.update (⟨b, ⟨s, e⟩⟩ : BufferSliceMut Interleaved) fun b => setPoint b e r)).map _ = _
    unfold BufferSliceMut.update
    show (((setPoint b e r).bind _).map _) = _
    rw [h2]
    rfl

/-- A concrete instance, for the columnar buffer too. -/
theorem C18_violated :
    setPoint (HashMapBuffer.sliceMut ⟨[(⟨"a", .u8⟩, [5, 6, 7]), (⟨"b", .u16⟩, [1, 2, 3, 4, 5, 6]), (⟨"c", .u8⟩, [7, 8, 9])], exLayout, 3⟩ ⟨1, 2⟩)
      1 [0, 0, 0, 0, 0, 0] =
    .ok (HashMapBuffer.sliceMut ⟨[(⟨"a", .u8⟩, [5, 6, 0]), (⟨"b", .u16⟩, [1, 2, 3, 4, 0, 0]), (⟨"c", .u8⟩, [7, 8, 0])], exLayout, 3⟩ ⟨1, 2⟩) := by
  rfl

/-- C18 holds in full for slices that start at 0: such a mutable slice reads like the immutable one
    for all indices, so accesses outside panic. -/
theorem C18_prefix_slices {β : Type} [BorrowedMutBuffer β] (b : β) (l : PointLayout) (hl : Solid l)
    (ps : List Point) (h : ShowsPoints b l ps) (e : Nat) (he : e ≤ len b) :
    ShowsPoints (⟨b, ⟨0, e⟩⟩ : BufferSliceMut β) l (sub ps 0 e) := by
  have hs := C17_slice_any b l hl ps h 0 e (Nat.zero_le _) he
  have idx : ∀ i, (⟨b, ⟨0, e⟩⟩ : BufferSliceMut β).globalIndex i = globalIndex i ⟨0, e⟩ := by
    intro i
    by_cases hi : i < e
    · rw [BufferSliceMut.globalIndex_ok hi, globalIndex_ok (r := ⟨0, e⟩) hi]
    · rw [BufferSliceMut.globalIndex_panic (by omega), globalIndex_panic (r := ⟨0, e⟩) (by simpa using hi)]
  have rng : ∀ q, (⟨b, ⟨0, e⟩⟩ : BufferSliceMut β).globalRange q = globalRange q ⟨0, e⟩ := fun _ => rfl
  have e1 : (fun i data => getPoint (⟨b, ⟨0, e⟩⟩ : BufferSliceMut β) i data) =
      fun i data => getPoint (⟨b, ⟨0, e⟩⟩ : BufferSlice β) i data := by
    funext i data
    show ((⟨b, ⟨0, e⟩⟩ : BufferSliceMut β).globalIndex i).bind _ = (globalIndex i ⟨0, e⟩).bind _
    rw [idx i]
  have e2 : ∀ d i data, getAttribute (⟨b, ⟨0, e⟩⟩ : BufferSliceMut β) d i data =
      getAttribute (⟨b, ⟨0, e⟩⟩ : BufferSlice β) d i data := by
    intro d i data
    show ((⟨b, ⟨0, e⟩⟩ : BufferSliceMut β).globalIndex i).bind _ = (globalIndex i ⟨0, e⟩).bind _
    rw [idx i]
  have e3 : ∀ m i data, getAttributeUnchecked (⟨b, ⟨0, e⟩⟩ : BufferSliceMut β) m i data =
      getAttributeUnchecked (⟨b, ⟨0, e⟩⟩ : BufferSlice β) m i data := by
    intro m i data
    show ((⟨b, ⟨0, e⟩⟩ : BufferSliceMut β).globalIndex i).bind _ = (globalIndex i ⟨0, e⟩).bind _
    rw [idx i]
  have e4 : ∀ q data, getPointRange (⟨b, ⟨0, e⟩⟩ : BufferSliceMut β) q data =
      getPointRange (⟨b, ⟨0, e⟩⟩ : BufferSlice β) q data := fun q data => rfl
  have e1' : ∀ i data, getPoint (⟨b, ⟨0, e⟩⟩ : BufferSliceMut β) i data =
      getPoint (⟨b, ⟨0, e⟩⟩ : BufferSlice β) i data := fun i data => congrFun (congrFun e1 i) data
  have e5 : ∀ d q data, getAttributeRange (⟨b, ⟨0, e⟩⟩ : BufferSliceMut β) d q data =
      getAttributeRange (⟨b, ⟨0, e⟩⟩ : BufferSlice β) d q data := by
    intro d q data
    unfold getAttributeRange
    simp only [e3]
    rfl
  exact {
    len_eq := hs.len_eq
    layout_eq := hs.layout_eq
    getPoint_ok := by simpa only [e1'] using hs.getPoint_ok
    getPoint_panic := by simpa only [e1'] using hs.getPoint_panic
    getPointRange_ok := hs.getPointRange_ok
    getPointRange_panic := hs.getPointRange_panic
    getAttribute_eq := by simpa only [e2] using hs.getAttribute_eq
    getAttributeUnchecked_eq := by simpa only [e3] using hs.getAttributeUnchecked_eq
    getAttributeRange_eq := by simpa only [e5] using hs.getAttributeRange_eq }

/-! ## C19 -/

/-- C19 for sub-slices that end before the slice does: slicing twice is slicing once. -/
theorem C19_nested_partial {β : Type} [BorrowedBuffer β] (b : β) (s e x y : Nat) (hxy : x ≤ y)
    (hy : y < e - s) :
    BufferSlice.slice (⟨b, ⟨s, e⟩⟩ : BufferSlice β) ⟨x, y⟩ = .ok ⟨b, ⟨s + x, s + y⟩⟩ := by
  unfold BufferSlice.slice nestedRange
  rw [show len (⟨b, ⟨s, e⟩⟩ : BufferSlice β) = e - s from rfl,
    assertThat_true (show decide (x < e - s) = true from decide_eq_true (by omega)),
    assertThat_true (show decide (y < e - s) = true from decide_eq_true hy)]
  show Except.bind (if x > y then _ else _) _ = _
  rw [if_neg (by omega)]
  rfl

/-- The same for mutable sub-slices. -/
theorem C19_nested_mut_partial {β : Type} [BorrowedMutBuffer β] (b : β) (s e x y : Nat) (hxy : x ≤ y)
    (hy : y < e - s) :
    BufferSliceMut.sliceMut (⟨b, ⟨s, e⟩⟩ : BufferSliceMut β) ⟨x, y⟩ = .ok ⟨b, ⟨s + x, s + y⟩⟩ ∧
    BufferSliceMut.slice (⟨b, ⟨s, e⟩⟩ : BufferSliceMut β) ⟨x, y⟩ = .ok ⟨b, ⟨s + x, s + y⟩⟩ := by
  constructor
  · unfold BufferSliceMut.sliceMut nestedRange
    rw [show len (⟨b, ⟨s, e⟩⟩ : BufferSliceMut β) = e - s from rfl,
      assertThat_true (show decide (x < e - s) = true from decide_eq_true (by omega)),
      assertThat_true (show decide (y < e - s) = true from decide_eq_true hy)]
    show Except.bind (if x > y then _ else _) _ = _
    rw [if_neg (by omega)]
    rfl
  · unfold BufferSliceMut.slice nestedRange
    rw [show len (⟨b, ⟨s, e⟩⟩ : BufferSliceMut β) = e - s from rfl,
      assertThat_true (show decide (x < e - s) = true from decide_eq_true (by omega)),
      assertThat_true (show decide (y < e - s) = true from decide_eq_true hy)]
    show Except.bind (if x > y then _ else _) _ = _
    rw [if_neg (by omega)]
    rfl

/-- C19: the points a nested slice shows are those of the combined range. -/
theorem C19_nested_points_partial {β : Type} [BorrowedBuffer β] (b : β) (l : PointLayout) (hl : Solid l)
    (ps : List Point) (h : ShowsPoints b l ps) (s e x y : Nat) (hse : s ≤ e) (he : e ≤ len b) (hxy : x ≤ y)
    (hy : y < e - s) :
    ∃ c, BufferSlice.slice (⟨b, ⟨s, e⟩⟩ : BufferSlice β) ⟨x, y⟩ = .ok c ∧
      ShowsPoints c l (sub (sub ps s e) x y) := by
  refine ⟨_, C19_nested_partial b s e x y hxy hy, ?_⟩
  have := C17_slice_any b l hl ps h (s + x) (s + y) (by omega) (by omega)
  rw [show sub (sub ps s e) x y = sub ps (s + x) (s + y) from part_part (by omega)]
  exact this

/-- C19 is false at the end of a slice: taking all of any slice again panics, whatever the buffer. -/
theorem C19_violated {β : Type} [BorrowedBuffer β] (x : BufferSlice β) :
    x.slice ⟨0, len x⟩ = .error .panic := by
  unfold BufferSlice.slice nestedRange
  rw [assertThat_false (show decide (len x < len x) = false from decide_eq_false (by omega))]
  by_cases h : 0 < len x
  · rw [assertThat_true (show decide (0 < len x) = true from decide_eq_true h)]; rfl
  · rw [assertThat_false (show decide (0 < len x) = false from decide_eq_false h)]; rfl

/-- C19 for slices of a `VectorBuffer` or an external buffer, as the methods `slice` and `slice_mut`
    return them: slicing such a slice again, in each of the three ways the API has, gives the points of
    the combined range. -/
theorem C19_nested_vector_partial (b : Interleaved) (l : PointLayout) (hl : Solid l) (rs : List Bytes)
    (h : ShowsRecords b l rs) (s e x y : Nat) (hse : s ≤ e) (he : e ≤ len b) (hxy : x ≤ y) (hy : y < e - s) :
    (∃ c, (b.slice ⟨s, e⟩).slice ⟨x, y⟩ = .ok c ∧ ShowsRecords c l (sub (sub rs s e) x y)) ∧
    (∃ c, (b.sliceMut ⟨s, e⟩).slice ⟨x, y⟩ = .ok c ∧ ShowsRecords c l (sub (sub rs s e) x y)) ∧
    (b.sliceMut ⟨s, e⟩).sliceMut ⟨x, y⟩ = .ok (b.sliceMut ⟨s + x, s + y⟩) := by
  have hc : ShowsRecords (b.slice ⟨s + x, s + y⟩) l (sub (sub rs s e) x y) := by
    rw [show sub (sub rs s e) x y = sub rs (s + x) (s + y) from part_part (by omega)]
    exact C17_slice_interleaved b l hl rs h (s + x) (s + y) (by omega) (by omega)
  refine ⟨⟨_, ?_, hc⟩, ⟨_, ?_, hc⟩, ?_⟩
  · unfold BufferSliceInterleaved.slice Interleaved.slice
    rw [C19_nested_partial b s e x y hxy hy]; rfl
  · unfold BufferSliceInterleavedMut.slice Interleaved.sliceMut
    rw [(C19_nested_mut_partial b s e x y hxy hy).2]; rfl
  · unfold BufferSliceInterleavedMut.sliceMut Interleaved.sliceMut
    rw [(C19_nested_mut_partial b s e x y hxy hy).1]; rfl

/-- A nested slice of a concrete buffer: the second point of the points from the first. -/
example : ((Interleaved.slice ⟨[1, 9, 2, 3, 4, 9, 5, 0, 1, 2, 7, 0, 6, 0, 3, 4, 8, 0], exLayout, 3⟩ ⟨0, 3⟩).slice
    ⟨1, 2⟩).bind (fun c => getPoint c 0 (zeros 6)) = .ok [5, 0, 1, 2, 7, 0] := by decide

example : len (Interleaved.slice ⟨[1, 9, 2, 3, 4, 9, 5, 0, 1, 2, 7, 0, 6, 0, 3, 4, 8, 0], exLayout, 3⟩ ⟨0, 3⟩) = 3 := by
  decide

end Pasture.Props
