import Verif.Props.BufferConvert

/-!
# C27: slices as sources and as targets of a conversion

A conversion into a slice changes the sliced buffer, and the theorems say how: like the conversion into the
buffer itself, with the target range shifted by the start of the slice.
-/

namespace Pasture

open Spec BorrowedBuffer

/-! ## Interleaved slices -/

theorem sliceMut_globalRange_ok {β : Type} {x : BufferSliceMut β} {a b : Nat} (hab : a < b)
    (hb : b ≤ x.range.stop) : x.globalRange ⟨a, b⟩ = .ok ⟨a + x.range.start, b + x.range.start⟩ := by
  unfold BufferSliceMut.globalRange
  rw [assertThat_true (decide_eq_true hb)]
  show (if a ≥ b then _ else _) = _
  rw [if_neg (by omega)]; rfl

theorem sliceMut_globalRange_empty {β : Type} {x : BufferSliceMut β} {a b : Nat} (hab : b ≤ a)
    (hb : b ≤ x.range.stop) : x.globalRange ⟨a, b⟩ = .ok ⟨x.range.stop, x.range.stop⟩ := by
  unfold BufferSliceMut.globalRange
  rw [assertThat_true (decide_eq_true hb)]
  show (if a ≥ b then _ else _) = _
  rw [if_pos (by omega)]; rfl

/-- The bytes of the middle one of three groups of records. -/
theorem read_middle {l : PointLayout} {pre mid post : List Bytes} (h1 : AllLen l.size pre)
    (h2 : AllLen l.size mid) :
    (Interleaved.ofRecords l (pre ++ mid ++ post)).read
      ((Interleaved.ofRecords l (pre ++ mid ++ post)).byteRangeOfPoints ⟨pre.length, pre.length + mid.length⟩) =
      .ok mid.flatten := by
  unfold Interleaved.read Interleaved.byteRangeOfPoints Interleaved.ofRecords
  unfold sliceGet
  have e1 := h1.flatten_length
  have e2 := h2.flatten_length
  simp only [List.flatten_append]
  rw [if_pos (by
    refine ⟨Nat.mul_le_mul_right _ (by omega), ?_⟩
    rw [List.length_append, List.length_append, e1, e2, Nat.add_mul]
    omega)]
  rw [List.append_assoc, List.drop_left' e1, ← Nat.sub_mul, show pre.length + mid.length - pre.length = mid.length by omega,
    List.take_left' e2]

theorem write_middle {l : PointLayout} {pre mid mid' post : List Bytes} (h1 : AllLen l.size pre)
    (h2 : AllLen l.size mid) (h3 : AllLen l.size mid') (hlen : mid'.length = mid.length) :
    (Interleaved.ofRecords l (pre ++ mid ++ post)).write
      ((Interleaved.ofRecords l (pre ++ mid ++ post)).byteRangeOfPoints ⟨pre.length, pre.length + mid.length⟩)
      mid'.flatten = .ok (Interleaved.ofRecords l (pre ++ mid' ++ post)) := by
  have e1 := h1.flatten_length
  have e2 := h2.flatten_length
  have e3 := h3.flatten_length
  unfold Interleaved.write Interleaved.byteRangeOfPoints Interleaved.ofRecords
  simp only [List.flatten_append]
  rw [slicePut_ok (by rw [e3, hlen, Nat.add_mul]) (by
    rw [List.length_append, List.length_append, e1, e2, Nat.add_mul]
    omega)]
  simp only [bind, Except.bind, pure, Except.pure, List.length_append, hlen]
  congr 2
  unfold put
  rw [List.drop_left' (by rw [List.length_append, e1, e2, e3, hlen]), List.append_assoc pre.flatten,
    List.take_left' e1, List.append_assoc]

/-- The memory of a mutable slice is that of the records in its range. -/
theorem holds_slice (l : PointLayout) {pre post : List Bytes} (h1 : AllLen l.size pre) {s e : Nat}
    (hs : pre.length = s) (hse : s ≤ e) :
    HoldsMemory l (e - s) fun mid => (Interleaved.ofRecords l (pre ++ mid ++ post)).sliceMut ⟨s, e⟩ := by
  intro rs rs' m f h h' hn hn' hf
  subst hs
  have he : e = pre.length + rs.length := by omega
  show (InterleavedBufferMut.getPointRangeMut (_ : BufferSliceMut Interleaved) ⟨0, e - pre.length⟩ _).map
    BufferSliceInterleavedMut.mk = _
  have hg : ∀ g : Bytes → Out Bytes, g rs.flatten = .ok rs'.flatten →
      InterleavedBufferMut.getPointRangeMut
        (⟨Interleaved.ofRecords l (pre ++ rs ++ post), ⟨pre.length, e⟩⟩ : BufferSliceMut Interleaved)
        ⟨0, e - pre.length⟩ g =
      .ok ⟨Interleaved.ofRecords l (pre ++ rs' ++ post), ⟨pre.length, e⟩⟩ := by
    intro g hg
    show (BufferSliceMut.globalRange _ _).bind _ = _
    by_cases h0 : 0 < e - pre.length
    · rw [sliceMut_globalRange_ok h0 (by show e - pre.length ≤ e; omega)]
      show Except.bind (α := Interleaved) _ _ = _
      show (Interleaved.getPointRangeMut (Interleaved.ofRecords l (pre ++ rs ++ post))
        ⟨0 + pre.length, e - pre.length + pre.length⟩ g).bind _ = _
      rw [show (⟨0 + pre.length, e - pre.length + pre.length⟩ : Rng) = ⟨pre.length, pre.length + rs.length⟩ by
        rw [Nat.zero_add]; congr 1; omega]
      unfold Interleaved.getPointRangeMut Interleaved.update
      rw [read_middle h1 h]
      simp only [bind, Except.bind]
      rw [hg]
      simp only
      rw [write_middle h1 h h' (by omega)]
      rfl
    · rw [sliceMut_globalRange_empty (by omega) (by show e - pre.length ≤ e; omega)]
      show Except.bind (α := Interleaved) _ _ = _
      show (Interleaved.getPointRangeMut (Interleaved.ofRecords l (pre ++ rs ++ post)) ⟨e, e⟩ g).bind _ = _
      rw [show (⟨e, e⟩ : Rng) = ⟨pre.length, pre.length + rs.length⟩ by congr 1; omega]
      unfold Interleaved.getPointRangeMut Interleaved.update
      rw [read_middle h1 h]
      simp only [bind, Except.bind]
      rw [hg]
      simp only
      rw [write_middle h1 h h' (by omega)]
      rfl
  have := hg (fun data => do
    let v ← f ⟨data, m.offset, l.size, m.size⟩
    pure v.data) (by rw [hf]; rfl)
  exact congrArg (Except.map BufferSliceInterleavedMut.mk) this

/-- Converting points in the middle of a list. -/
theorem convert_middle (plan : Plan) (ps pre mid post : List Point) (sr : Rng) {c d : Nat}
    (hd : d ≤ mid.length) :
    plan.convert ps sr (pre ++ mid ++ post) ⟨c + pre.length, d + pre.length⟩ =
      pre ++ plan.convert ps sr mid ⟨c, d⟩ ++ post := by
  unfold Plan.convert
  rw [List.mapIdx_append, List.mapIdx_append]
  congr 1
  · congr 1
    · apply List.ext_getElem?
      intro j
      rw [List.getElem?_mapIdx]
      by_cases hj : j < pre.length
      · rw [List.getElem?_eq_getElem hj]
        simp only [Option.map_some]
        rw [if_neg (by omega)]
      · rw [List.getElem?_eq_none (l := pre) (by omega)]; rfl
    · apply List.ext_getElem?
      intro j
      rw [List.getElem?_mapIdx, List.getElem?_mapIdx]
      congr 1
      funext p
      simp only
      rw [show j + pre.length - (c + pre.length) = j - c by omega]
      by_cases hj : c ≤ j ∧ j < d
      · rw [if_pos hj, if_pos (by omega)]
      · rw [if_neg hj, if_neg (by omega)]
  · apply List.ext_getElem?
    intro j
    rw [List.getElem?_mapIdx]
    cases post[j]? with
    | none => rfl
    | some p =>
      simp only [Option.map_some]
      rw [if_neg (by rw [List.length_append]; omega)]

/-! ## Columnar slices -/

/-- A loop on slices whose steps are steps on the buffers. -/
theorem forLoop_slice {α β γ : Type} (wrap : β → γ) (f : β → α → Out β) (g : γ → α → Out γ)
    (h : ∀ b x, g (wrap b) x = (f b x).map wrap) : ∀ (xs : List α) (b : β),
    forLoop xs (wrap b) g = (forLoop xs b f).map wrap := by
  intro xs
  induction xs with
  | nil => intro b; rfl
  | cons x xs ih =>
    intro b
    show (g (wrap b) x).bind (fun y => forLoop xs y g) = ((f b x).bind fun y => forLoop xs y f).map wrap
    rw [h]
    cases f b x with
    | error e => rfl
    | ok y => exact ih y

section
variable {q q' r : Rng} (hq : ∀ b : HashMapBuffer, (⟨b, r⟩ : BufferSliceMut HashMapBuffer).globalRange q = .ok q')
include hq

theorem slice_rangeMut (b : HashMapBuffer) (d : AttrDef) (f : Bytes → Out Bytes) :
    ColumnarBufferMut.getAttributeRangeMut (b.sliceMut r) d q f =
      (ColumnarBufferMut.getAttributeRangeMut b d q' f).map (HashMapBuffer.sliceMut · r) := by
  show (((⟨b, r⟩ : BufferSliceMut HashMapBuffer).globalRange q).bind _).map BufferSliceColumnarMut.mk = _
  rw [hq]
  show ((ColumnarBufferMut.getAttributeRangeMut b d q' f).bind
    fun c => .ok (⟨c, r⟩ : BufferSliceMut HashMapBuffer)).map BufferSliceColumnarMut.mk = _
  cases ColumnarBufferMut.getAttributeRangeMut b d q' f with
  | error e => rfl
  | ok y => rfl

theorem slice_setRange (b : HashMapBuffer) (d : AttrDef) (data : Bytes) :
    BorrowedMutBuffer.setAttributeRange (b.sliceMut r) d q data =
      (BorrowedMutBuffer.setAttributeRange b d q' data).map (HashMapBuffer.sliceMut · r) := by
  show (((⟨b, r⟩ : BufferSliceMut HashMapBuffer).globalRange q).bind _).map BufferSliceColumnarMut.mk = _
  rw [hq]
  show ((BorrowedMutBuffer.setAttributeRange b d q' data).bind
    fun c => .ok (⟨c, r⟩ : BufferSliceMut HashMapBuffer)).map BufferSliceColumnarMut.mk = _
  cases BorrowedMutBuffer.setAttributeRange b d q' data with
  | error e => rfl
  | ok y => rfl

theorem slice_columnarStep {σ : Type} [ColumnarBuffer σ] (source : σ) (sr : Rng) (b : HashMapBuffer)
    (m : AttributeMapping) :
    BufferLayoutConverter.columnarToColumnarStep source sr q (b.sliceMut r) m =
      (BufferLayoutConverter.columnarToColumnarStep source sr q' b m).map (HashMapBuffer.sliceMut · r) := by
  unfold BufferLayoutConverter.columnarToColumnarStep
  cases ColumnarBuffer.getAttributeRangeRef source m.source.definition sr with
  | error e => rfl
  | ok data =>
    simp only [bind, Except.bind]
    cases m.converter with
    | some c => exact slice_rangeMut hq b _ _
    | none =>
      simp only
      rw [slice_setRange hq b]
      cases BorrowedMutBuffer.setAttributeRange b m.target.definition q' data with
      | error e => rfl
      | ok y =>
        simp only [Except.map]
        cases m.transformation with
        | none => rfl
        | some t => exact slice_rangeMut hq y _ _

theorem slice_interleavedStep {σ : Type} [InterleavedBuffer σ] (source : σ) (sr : Rng) (size : Nat)
    (b : HashMapBuffer) (m : AttributeMapping) :
    BufferLayoutConverter.interleavedToColumnarStep source sr q size (b.sliceMut r) m =
      (BufferLayoutConverter.interleavedToColumnarStep source sr q' size b m).map (HashMapBuffer.sliceMut · r) := by
  unfold BufferLayoutConverter.interleavedToColumnarStep
  cases RawAttributeView.fromInterleaved source m.source with
  | error e => rfl
  | ok view => exact slice_rangeMut hq b _ _

/-- A conversion into a columnar slice is the conversion into the buffer. -/
theorem slice_dispatch {σ : Type} [AsMemory σ] (conv : BufferLayoutConverter) (source : σ) (sr : Rng)
    (b : HashMapBuffer) (size : Nat) :
    conv.dispatch source sr (b.sliceMut r) q size =
      (conv.dispatch source sr b q' size).map (HashMapBuffer.sliceMut · r) := by
  unfold BufferLayoutConverter.dispatch
  cases AsMemory.asColumnar (β := σ) with
  | some inst =>
    exact forLoop_slice (fun b : HashMapBuffer => b.sliceMut r) _ _
      (fun b m => slice_columnarStep hq source sr b m) conv.mappings b
  | none =>
    cases AsMemory.asInterleaved (β := σ) with
    | none => rfl
    | some inst =>
      exact forLoop_slice (fun b : HashMapBuffer => b.sliceMut r) _ _
        (fun b m => slice_interleavedStep hq source sr size b m) conv.mappings b

end

theorem convert_empty (plan : Plan) (ps qs : List Point) (sr tr : Rng) (h : tr.stop ≤ tr.start) :
    plan.convert ps sr qs tr = qs := by
  unfold Plan.convert
  apply List.ext_getElem?
  intro j
  rw [List.getElem?_mapIdx]
  cases qs[j]? with
  | none => rfl
  | some p =>
    simp only [Option.map_some]
    rw [if_neg (by omega)]

end Pasture

namespace Pasture.Props

open Spec BorrowedBuffer

/-! ## Slices as sources -/

/-- A slice of an interleaved buffer is a source with the points of its range. -/
theorem C27_slice_source_interleaved (b : VectorBuffer) (l : PointLayout) (hl : Solid l) (ps : List Point)
    (h : SourceShows b l ps) (s e : Nat) (hse : s ≤ e) (he : e ≤ ps.length) :
    SourceShows (b.slice ⟨s, e⟩) l (sub ps s e) := by
  obtain ⟨rs, hr, rfl⟩ : ∃ rs, ShowsRecords b l rs ∧ ps = rs.map (pointOf l) := h.memory
  have := C17_slice_interleaved b l hl rs hr s e hse (by rw [h.points.len_eq]; exact he)
  have hm : sub (rs.map (pointOf l)) s e = (sub rs s e).map (pointOf l) := part_map ..
  rw [hm]
  exact ⟨this.points, _, this, rfl⟩

/-- A slice of a columnar buffer is a source with the points of its range. -/
theorem C27_slice_source_columnar (b : HashMapBuffer) (l : PointLayout) (hl : Solid l) (ps : List Point)
    (h : SourceShows b l ps) (s e : Nat) (hse : s ≤ e) (he : e ≤ ps.length) :
    SourceShows (b.slice ⟨s, e⟩) l (sub ps s e) := by
  have hc : ShowsColumns b l ps := h.memory
  have := C17_slice_columnar b l hl ps hc s e hse (by rw [h.points.len_eq]; exact he)
  exact ⟨this.points, this⟩

/-! ## Slices as targets -/

section
variable {σ : Type} [BorrowedBuffer σ] [AsMemory σ]

/-- C27 for a slice of a `VectorBuffer` as the target: the buffer behind the slice becomes what the conversion
    into the buffer itself, at the place of the range, would make it. In particular the points outside the
    slice stay as they were. -/
theorem C27_into_slice_interleaved (source : σ) (ls lt : PointLayout) (hs : Solid ls) (ht : Solid lt)
    (ps : List Point) (h : SourceShows source ls ps) (calls : List MappingCall) (hsound : ∀ c ∈ calls, c.sound)
    (conv : BufferLayoutConverter) (hconv : Built ls lt calls conv)
    (b : VectorBuffer) (hb : VectorConsistent b) (qs : List Point) (hq : ShowsPoints b lt qs)
    (s e : Nat) (hse : s ≤ e) (he : e ≤ qs.length)
    (sr tr : Rng) (h1 : sr.start ≤ sr.stop) (h2 : tr.start ≤ tr.stop) (h3 : sr.len = tr.len)
    (h4 : sr.stop ≤ ps.length) (h5 : tr.stop ≤ e - s) :
    ∃ b' : VectorBuffer, conv.convertIntoRange source sr (b.sliceMut ⟨s, e⟩) tr = .ok (b'.sliceMut ⟨s, e⟩) ∧
      VectorConsistent b' ∧
      ShowsPoints b' lt ((planOf ls calls).convert ps sr qs ⟨tr.start + s, tr.stop + s⟩) := by
  obtain ⟨rfl, rfl, hr⟩ := built_realizes ht hsound hconv
  have hbl : b.layout = conv.toLayout := hq.layout_eq
  have hall := Interleaved.records_allLen hb
  have e0 := Interleaved.ofRecords_records hb
  rw [hbl] at hall e0
  have hsh := interleaved_shows_points ht hall
  rw [e0] at hsh
  have hqs := showsPoints_unique hq hsh
  subst hqs
  generalize b.records = rs at *
  rw [List.length_map] at he
  have hsplit : rs = rs.take s ++ part rs s e ++ rs.drop e := by
    unfold part
    rw [List.append_assoc, show rs.drop e = (rs.drop s).drop (e - s) by rw [List.drop_drop]; congr 1; omega,
      List.take_append_drop, List.take_append_drop]
  have hpre : AllLen conv.toLayout.size (rs.take s) := hall.take s
  have hmid : AllLen conv.toLayout.size (part rs s e) := (hall.drop s).take (e - s)
  have hpost : AllLen conv.toLayout.size (rs.drop e) := hall.drop e
  have hmidl : (part rs s e).length = e - s := part_length he
  have hprel : (rs.take s).length = s := by simp; omega
  obtain ⟨mid', g1, g2, g3⟩ := intoRange_records h h4 h3 hr hs ht h1 h2 hmid (by omega) rfl rfl
    (rep := fun mid => (Interleaved.ofRecords conv.toLayout (rs.take s ++ mid ++ rs.drop e)).sliceMut ⟨s, e⟩)
    (by rw [hmidl]; exact holds_slice _ hpre hprel hse) rfl (by exact h5)
  simp only [← hsplit] at g1
  rw [e0] at g1
  have hall' : AllLen conv.toLayout.size (rs.take s ++ mid' ++ rs.drop e) := (hpre.append g2).append hpost
  refine ⟨_, g1, hall'.flatten_length, ?_⟩
  have := interleaved_shows_points ht hall'
  rw [List.map_append, List.map_append, g3] at this
  conv in rs.map _ => rw [hsplit, List.map_append, List.map_append]
  have hc := convert_middle (planOf conv.fromLayout calls) ps ((rs.take s).map (pointOf conv.toLayout))
    ((part rs s e).map (pointOf conv.toLayout)) ((rs.drop e).map (pointOf conv.toLayout)) sr
    (c := tr.start) (d := tr.stop) (by rw [List.length_map]; omega)
  rw [List.length_map, hprel] at hc
  rw [hc]
  exact this

/-- C27 for a slice of a `HashMapBuffer` as the target. -/
theorem C27_into_slice_columnar (source : σ) (ls lt : PointLayout) (hs : Solid ls) (ht : Solid lt)
    (ps : List Point) (h : SourceShows source ls ps) (calls : List MappingCall) (hsound : ∀ c ∈ calls, c.sound)
    (conv : BufferLayoutConverter) (hconv : Built ls lt calls conv)
    (b : HashMapBuffer) (hb : HashMapConsistent b) (qs : List Point) (hq : ShowsPoints b lt qs)
    (s e : Nat) (hse : s ≤ e) (he : e ≤ qs.length)
    (sr tr : Rng) (h1 : sr.start ≤ sr.stop) (h2 : tr.start ≤ tr.stop) (h3 : sr.len = tr.len)
    (h4 : sr.stop ≤ ps.length) (h5 : tr.stop ≤ e - s) :
    ∃ b' : HashMapBuffer, conv.convertIntoRange source sr (b.sliceMut ⟨s, e⟩) tr = .ok (b'.sliceMut ⟨s, e⟩) ∧
      HashMapConsistent b' ∧
      ShowsPoints b' lt ((planOf ls calls).convert ps sr qs ⟨tr.start + s, tr.stop + s⟩) := by
  obtain ⟨ef, et, _⟩ := built_realizes ht hsound hconv
  have key : ∀ q' : Rng, (∀ b : HashMapBuffer,
      (⟨b, ⟨s, e⟩⟩ : BufferSliceMut HashMapBuffer).globalRange tr = .ok q') → q'.len = tr.len → q'.stop ≤ qs.length →
      conv.convertIntoRange source sr (b.sliceMut ⟨s, e⟩) tr =
        (conv.convertIntoRange source sr b q').map (HashMapBuffer.sliceMut · ⟨s, e⟩) := by
    intro q' hq' hl hstop
    rw [asserts_ok (ef ▸ h) h4 h3 (show layout (b.sliceMut ⟨s, e⟩) = _ from hq.layout_eq.trans et.symm) h5,
      asserts_ok (ef ▸ h) h4 (h3.trans hl.symm) (hq.layout_eq.trans et.symm) (by rw [hq.len_eq]; exact hstop)]
    cases (conv.mappings.map AttributeMapping.requiredBufferSize).max? with
    | none => rfl
    | some size => exact slice_dispatch hq' conv source sr b size
  by_cases h0 : tr.start < tr.stop
  · rw [key ⟨tr.start + s, tr.stop + s⟩ (fun b => sliceMut_globalRange_ok h0 (by show tr.stop ≤ e; omega))
      (by unfold Rng.len; simp only; omega) (by show tr.stop + s ≤ qs.length; omega)]
    obtain ⟨b', g1, g2, g3⟩ := C27_into_range_columnar source ls lt hs ht ps h calls hsound conv hconv b hb qs hq sr
      ⟨tr.start + s, tr.stop + s⟩ h1 (by simp only; omega) (h3.trans (by unfold Rng.len; simp only; omega)) h4
      (by show tr.stop + s ≤ qs.length; omega)
    rw [g1]
    exact ⟨b', rfl, g2, g3⟩
  · rw [key ⟨e, e⟩ (fun b => sliceMut_globalRange_empty (by omega) (by show tr.stop ≤ e; omega))
      (by unfold Rng.len; simp only; omega) he]
    obtain ⟨b', g1, g2, g3⟩ := C27_into_range_columnar source ls lt hs ht ps h calls hsound conv hconv b hb qs hq sr
      ⟨e, e⟩ h1 (Nat.le_refl _) (h3.trans (by unfold Rng.len; simp only; omega)) h4 he
    rw [g1]
    refine ⟨b', rfl, g2, ?_⟩
    rw [convert_empty _ _ _ _ _ (by simp only; omega)] at g3 ⊢
    exact g3

/-- `convert_into` fills the front of the target; a target with fewer points than the source is refused. -/
theorem C27_into_interleaved (source : σ) (ls lt : PointLayout) (hs : Solid ls) (ht : Solid lt)
    (ps : List Point) (h : SourceShows source ls ps) (calls : List MappingCall) (hsound : ∀ c ∈ calls, c.sound)
    (conv : BufferLayoutConverter) (hconv : Built ls lt calls conv)
    (b : VectorBuffer) (hb : VectorConsistent b) (qs : List Point) (hq : ShowsPoints b lt qs) :
    (ps.length ≤ qs.length → ∃ b', conv.convertInto source b = .ok b' ∧ VectorConsistent b' ∧
      ShowsPoints b' lt ((planOf ls calls).convert ps ⟨0, ps.length⟩ qs ⟨0, ps.length⟩)) ∧
    (qs.length < ps.length → conv.convertInto source b = .error .panic) := by
  unfold BufferLayoutConverter.convertInto
  rw [h.points.len_eq]
  exact ⟨fun hlen => C27_into_range_interleaved source ls lt hs ht ps h calls hsound conv hconv b hb qs hq _ _
      (Nat.zero_le _) (Nat.zero_le _) rfl (Nat.le_refl _) hlen,
    fun hlen => C27_rejects _ _ _ _ _ (.inr (.inr (.inr (.inr (by rw [hq.len_eq]; exact hlen)))))⟩

/-- The same for columnar targets. -/
theorem C27_into_columnar (source : σ) (ls lt : PointLayout) (hs : Solid ls) (ht : Solid lt)
    (ps : List Point) (h : SourceShows source ls ps) (calls : List MappingCall) (hsound : ∀ c ∈ calls, c.sound)
    (conv : BufferLayoutConverter) (hconv : Built ls lt calls conv)
    (b : HashMapBuffer) (hb : HashMapConsistent b) (qs : List Point) (hq : ShowsPoints b lt qs) :
    (ps.length ≤ qs.length → ∃ b', conv.convertInto source b = .ok b' ∧ HashMapConsistent b' ∧
      ShowsPoints b' lt ((planOf ls calls).convert ps ⟨0, ps.length⟩ qs ⟨0, ps.length⟩)) ∧
    (qs.length < ps.length → conv.convertInto source b = .error .panic) := by
  unfold BufferLayoutConverter.convertInto
  rw [h.points.len_eq]
  exact ⟨fun hlen => C27_into_range_columnar source ls lt hs ht ps h calls hsound conv hconv b hb qs hq _ _
      (Nat.zero_le _) (Nat.zero_le _) rfl (Nat.le_refl _) hlen,
    fun hlen => C27_rejects _ _ _ _ _ (.inr (.inr (.inr (.inr (by rw [hq.len_eq]; exact hlen)))))⟩

/-- A generic mutable slice is no target: its memory cannot be borrowed, so the conversion panics. -/
theorem C27_generic_target_panics {β : Type} [BorrowedMutBuffer β] (source : σ) (target : BufferSliceMut β)
    (conv : BufferLayoutConverter) (hm : conv.mappings ≠ []) (sr tr : Rng) :
    conv.convertIntoRange source sr target tr = .error .panic := by
  by_cases h : layout source ≠ conv.fromLayout ∨ layout target ≠ conv.toLayout ∨ sr.len ≠ tr.len ∨
      len source < sr.stop ∨ len target < tr.stop
  · exact C27_rejects source target conv sr tr h
  · simp only [not_or, Decidable.not_not, Nat.not_lt] at h
    unfold BufferLayoutConverter.convertIntoRange
    rw [assertThat_true (decide_eq_true h.1)]
    simp only [bind, Except.bind]
    rw [assertThat_true (decide_eq_true h.2.1)]
    simp only
    rw [assertThat_true (decide_eq_true h.2.2.1)]
    simp only
    rw [assertThat_true (decide_eq_true h.2.2.2.1)]
    simp only
    rw [assertThat_true (decide_eq_true h.2.2.2.2)]
    simp only
    cases hmax : (conv.mappings.map AttributeMapping.requiredBufferSize).max? with
    | none =>
      rw [List.max?_eq_none_iff] at hmax
      exact absurd (List.map_eq_nil_iff.1 hmax) hm
    | some n =>
      simp only
      unfold BufferLayoutConverter.dispatch
      cases AsMemory.asColumnar (β := σ) with
      | some _ => rfl
      | none =>
        cases AsMemory.asInterleaved (β := σ) with
        | some _ => rfl
        | none => rfl

end

/-- The second point of a source goes to the second point of a slice that leaves out the first point of its
    buffer, so to the third point there. -/
example :
    ((BufferLayoutConverter.forLayoutsWithDefault exLayout exTarget).bind fun conv =>
      (conv.convertIntoRange (exSource.slice ⟨1, 2⟩) ⟨0, 1⟩
        (Interleaved.sliceMut ⟨List.replicate 36 9, exTarget, 3⟩ ⟨1, 3⟩) ⟨1, 2⟩).map fun x => x.inner.buffer.storage) =
      .ok (List.replicate 24 9 ++ [5] ++ List.replicate 11 9) := by decide +kernel

end Pasture.Props
