import Verif.Props.Orderly
import Verif.Props.Views

/-!
# Layouts with attributes of size zero: C15, C18, C24

As in Props/Orderly.lean, for collecting, mutable slices and raw attribute views.
-/

namespace Pasture.Props

open Spec BorrowedBuffer BorrowedMutBuffer OwningBuffer

/-! ## C15 -/

/-- C15, all layouts whose points take memory. (For the others see `C100_collect_violated`.) Missing, as in
    `C15_collect_vector_partial`: a `VectorBuffer` from an iterator whose upper bound is not exact. -/
theorem C15_any_layout_partial (l : PointLayout) (hl : Orderly l) (hsz : 0 < l.size) (points : List Bytes)
    (hp : AllLen l.size points) :
    (∃ b, HashMapBuffer.fromIter l points = .ok b ∧ ReadsPoints b l (points.map (pointOf l)) ∧ HashMapConsistent b) ∧
    (∀ hint : Option Nat, (∀ n, hint = some n → n = points.length) →
      ∃ b, VectorBuffer.fromIter l points hint = .ok b ∧ ReadsRecords b l points ∧ VectorConsistent b) := by
  refine ⟨⟨HashMapBuffer.ofRecords l points, ?_, HashMapBuffer.reads hl hp, HashMapBuffer.ofRecords_inv hl hp⟩, ?_⟩
  · have key : ∀ (ps rs : List Bytes), AllLen l.size ps →
        forLoop ps (HashMapBuffer.ofRecords l rs) (fun b p => b.pushPoints p) = .ok (HashMapBuffer.ofRecords l (rs ++ ps)) := by
      intro ps
      induction ps with
      | nil => intro rs _; simp
      | cons p ps ih =>
        intro rs h
        obtain ⟨h1, h2⟩ := AllLen.cons_iff.1 h
        have := HashMapBuffer.pushPoints_orderly (rs := rs) hl hsz (ds := [p]) (by simp [AllLen, h1])
        rw [List.flatten_singleton] at this
        rw [forLoop_cons, this]
        simp only [Except.bind]
        rw [ih _ h2]
        simp
    unfold HashMapBuffer.fromIter
    rw [HashMapBuffer.newFromLayout_eq, key _ _ hp]
    rfl
  · intro hint hh
    refine ⟨Interleaved.ofRecords l points, ?_, interleaved_reads hl hp, Interleaved.ofRecords_inv hp⟩
    cases hint with
    | none =>
      have key : ∀ (ps rs : List Bytes), AllLen l.size ps →
          forLoop ps (Interleaved.ofRecords l rs : VectorBuffer) (fun b p => VectorBuffer.pushPoints b p) =
            .ok (Interleaved.ofRecords l (rs ++ ps)) := by
        intro ps
        induction ps with
        | nil => intro rs _; simp
        | cons p ps ih =>
          intro rs h
          obtain ⟨h1, h2⟩ := AllLen.cons_iff.1 h
          have := Interleaved.pushPoints_ok (rs := rs) hsz (ds := [p]) (by simp [AllLen, h1])
          rw [List.flatten_singleton] at this
          rw [forLoop_cons, this]
          simp only [Except.bind]
          rw [ih _ h2]
          simp
      exact key points [] hp
    | some n =>
      have := hh n rfl
      subst this
      have := fromIter_bound hp (Nat.le_refl _)
      rw [Nat.sub_self] at this
      simpa using this

/-! ## C18 -/

theorem sliceMut_orderly {β : Type} [OwningBuffer β] [HoldsOrderly β] {l : PointLayout} (hl : Orderly l)
    {rs : List Bytes} (h : AllLen l.size rs) {s e : Nat} (hse : s ≤ e) (he : e ≤ rs.length) {op : Op}
    (hp : op.inPlace) (hw : op.wellFormed l) (ha : op.allowed l (e - s)) (hc : HoldsOrderly.can β l (op.shift s)) :
    runInPlace (⟨HoldsOrderly.ofRecords l rs, ⟨s, e⟩⟩ : BufferSliceMut β) op =
      .ok ⟨HoldsOrderly.ofRecords l (rs.take s ++ op.onRecords l (part rs s e) ++ rs.drop e), ⟨s, e⟩⟩ ∧
    AllLen l.size (rs.take s ++ op.onRecords l (part rs s e) ++ rs.drop e) := by
  have hpart : AllLen l.size (part rs s e) := (h.drop s).take (e - s)
  constructor
  · rw [BufferSliceMut.run_shift op hp hw ha (by omega), runInPlace_eq _ (shift_inPlace s hp),
      HoldsOrderly.step hl h _ (shift_wellFormed s hw) (shift_allowed hp ha (by omega)) hc]
    have e1 := split_parts rs hse
    have e2 : (rs.take s).length = s := by simp; omega
    have := shift_onRecords (l := l) (a := rs.take s) (w := part rs s e) (c := rs.drop e) hp hw (by
      rw [part_length he]; exact ha)
    rw [e2, ← e1] at this
    rw [this]; rfl
  · exact ((h.take s).append (onRecords_allLen hl hpart hw)).append (h.drop e)

/-- C18, all layouts, writes with local indices inside the slice: the points outside `s..e` are unchanged, and those
    inside change as the operation says. Missing, as in `C18_write_interleaved_partial`: other local indices. -/
theorem C18_any_layout_partial (l : PointLayout) (hl : Orderly l) (s e : Nat) (hse : s ≤ e) (op : Op) (hp : op.inPlace)
    (hw : op.wellFormed l) (ha : op.allowed l (e - s)) :
    (∀ b : VectorBuffer, b.layout = l → VectorConsistent b → e ≤ len b → ∀ ps, ReadsPoints b l ps →
      ∃ c : VectorBuffer, runInPlace (b.sliceMut ⟨s, e⟩) op = .ok (c.sliceMut ⟨s, e⟩) ∧ VectorConsistent c ∧
        ReadsPoints c l (ps.take s ++ op.onPoints l (sub ps s e) ++ ps.drop e)) ∧
    (∀ b : HashMapBuffer, b.layout = l → HashMapConsistent b → e ≤ len b → ∀ ps, ReadsPoints b l ps →
      ∃ c : HashMapBuffer, runInPlace (b.sliceMut ⟨s, e⟩) op = .ok (c.sliceMut ⟨s, e⟩) ∧ HashMapConsistent c ∧
        ReadsPoints c l (ps.take s ++ op.onPoints l (sub ps s e) ++ ps.drop e)) := by
  have push : ∀ data, op.shift s ≠ .pushPoints data := by
    intro data he
    have := shift_inPlace s hp
    rw [he] at this
    simp [Op.inPlace] at this
  have points : ∀ rs, AllLen l.size rs → e ≤ rs.length →
      (rs.take s ++ op.onRecords l (part rs s e) ++ rs.drop e).map (pointOf l) =
        (rs.map (pointOf l)).take s ++ op.onPoints l (sub (rs.map (pointOf l)) s e) ++ (rs.map (pointOf l)).drop e := by
    intro rs h he
    have hpart : AllLen l.size (part rs s e) := (h.drop s).take (e - s)
    rw [List.map_append, List.map_append, onRecords_map hl hpart hw (by rw [part_length he]; exact ha), ← part_map,
      List.map_take, List.map_drop]
    rfl
  refine ⟨?_, ?_⟩
  · intro b hbl hb he ps h
    obtain ⟨rs, h1, h2⟩ := vector_shows b hb
    rw [hbl] at h1 h2
    subst h2
    rw [h.unique (interleaved_reads hl h1).points]
    have he : e ≤ rs.length := he
    obtain ⟨g1, g2⟩ := sliceMut_orderly (β := VectorBuffer) hl h1 hse he hp hw ha trivial
    refine ⟨Interleaved.ofRecords l (rs.take s ++ op.onRecords l (part rs s e) ++ rs.drop e), ?_,
      Interleaved.ofRecords_inv g2, ?_⟩
    · have lift : ∀ (op : Op) (x : BufferSliceMut Interleaved),
          runInPlace (⟨x⟩ : BufferSliceInterleavedMut Interleaved) op =
            (runInPlace x op).map BufferSliceInterleavedMut.mk := by
        intro op x
        cases op <;> rfl
      unfold Interleaved.sliceMut
      rw [lift op]
      exact congrArg (Except.map BufferSliceInterleavedMut.mk) g1
    · rw [← points rs h1 he]
      exact (interleaved_reads hl g2).points
  · intro b hbl hb he ps h
    obtain ⟨rs, h1, h2⟩ := hashmap_shows b (hbl ▸ hl) hb
    rw [hbl] at h1 h2
    subst h2
    rw [h.unique (HashMapBuffer.reads hl h1)]
    have he : e ≤ rs.length := he
    obtain ⟨g1, g2⟩ := sliceMut_orderly (β := HashMapBuffer) hl h1 hse he hp hw ha (fun d hd => absurd hd (push d))
    refine ⟨HashMapBuffer.ofRecords l (rs.take s ++ op.onRecords l (part rs s e) ++ rs.drop e), ?_,
      HashMapBuffer.ofRecords_inv hl g2, ?_⟩
    · have lift : ∀ (op : Op) (x : BufferSliceMut HashMapBuffer),
          runInPlace (⟨x⟩ : BufferSliceColumnarMut HashMapBuffer) op =
            (runInPlace x op).map BufferSliceColumnarMut.mk := by
        intro op x
        cases op <;> rfl
      unfold HashMapBuffer.sliceMut
      rw [lift op]
      exact congrArg (Except.map BufferSliceColumnarMut.mk) g1
    · rw [← points rs h1 he]
      exact HashMapBuffer.reads hl g2

/-! ## C24 -/

/-- C24, all layouts: element `i` of a raw view is `get_attribute(attr, i)`, and the view has the length of the buffer
    if its stride is not zero. (Otherwise it has none: `C100_raw_view_violated`.) -/
theorem C24_any_layout (l : PointLayout) (hl : Orderly l) (m : Member) (hm : m ∈ l.attributes) :
    (∀ {β : Type} [InterleavedBuffer β] (b : β) (rs : List Bytes), ReadsRecords b l rs → AllLen l.size rs →
      ∃ v, RawAttributeView.fromInterleaved b m = .ok v ∧ (0 < l.size → v.len = .ok (len b)) ∧
        ∀ i < len b, ∀ data, data.length = m.size → v.index i = getAttribute b m.definition i data) ∧
    (∀ b : HashMapBuffer, b.layout = l → HashMapConsistent b →
      ∃ v, RawAttributeView.fromColumnar b m.definition = .ok v ∧ (0 < m.size → v.len = .ok (len b)) ∧
        ∀ i < len b, ∀ data, data.length = m.size → v.index i = getAttribute b m.definition i data) := by
  refine ⟨?_, ?_⟩
  · intro β _ b rs h ha
    have hn : len b = rs.length := by rw [h.points.len_eq]; simp
    refine ⟨⟨rs.flatten, m.offset, l.size, m.size⟩, ?_, ?_, ?_⟩
    · unfold RawAttributeView.fromInterleaved
      have hw := h.getPointRangeRef 0 (len b) (Nat.zero_le _) (Nat.le_of_eq hn)
      rw [hn, List.drop_zero, Nat.sub_zero, List.take_length] at hw
      rw [hn, hw, h.points.layout_eq]
      rfl
    · intro hsz
      unfold RawAttributeView.len
      dsimp only
      rw [assertThat_true (by simp; omega), ha.flatten_length, Nat.mul_div_cancel _ hsz, hn]
      rfl
    · intro i hi data hd
      rw [hn] at hi
      rw [h.points.getAttribute _ _ _ data (value?_inside hl hm hi) hd]
      have := Interleaved.read_attribute_ok ha (hl.inside m hm) (List.getElem?_eq_getElem hi)
      unfold RawAttributeView.index
      dsimp only
      rw [Nat.mul_comm l.size i, Nat.add_comm m.offset]
      exact this
  · intro b hbl hb
    obtain ⟨rs, h1, h2⟩ := hashmap_shows b (hbl ▸ hl) hb
    rw [hbl] at h1 h2
    subst h2
    have hlen : len (HashMapBuffer.ofRecords l rs) = rs.length := rfl
    have hv : AllLen m.size (vals m rs) := vals_allLen h1 (hl.inside m hm)
    refine ⟨⟨(vals m rs).flatten, 0, m.size, m.size⟩, ?_, ?_, ?_⟩
    · have hw := HashMapBuffer.getAttributeRangeRef_ok hl h1 hm (Nat.zero_le _) (Nat.le_refl rs.length)
      rw [List.drop_zero, Nat.sub_zero, ← vals_length m rs, List.take_length, vals_length] at hw
      show Except.bind ((HashMapBuffer.ofRecords l rs).getAttributeRangeRef m.definition ⟨0, rs.length⟩) _ = _
      rw [hw]
      rfl
    · intro hsz
      unfold RawAttributeView.len
      dsimp only
      rw [assertThat_true (by simp; omega), hv.flatten_length, Nat.mul_div_cancel _ hsz, vals_length]
      rfl
    · intro i hi data hd
      rw [hlen] at hi
      have hr := List.getElem?_eq_getElem hi
      refine Eq.trans ?_ (HashMapBuffer.getAttribute_orderly hl h1 hm hr hd).symm
      refine Eq.trans ?_ (HashMapBuffer.col_get_ok hl h1 hm hr)
      unfold RawAttributeView.index
      dsimp only
      rw [Nat.zero_add, Nat.mul_comm]
      show _ = sliceGet _ (i * m.size) ((i + 1) * m.size)
      rw [Nat.add_mul, Nat.one_mul]

/-- Two points with an attribute of size zero: collected, written through a slice of the second, and viewed. -/
example : (∃ b, VectorBuffer.fromIter gapLayout [[1, 2, 3, 0], [4, 5, 6, 0]] (some 2) = .ok b ∧
      VectorConsistent b ∧
      runInPlace (b.sliceMut ⟨1, 2⟩) (.setAttribute ⟨"mark", .byteArray 0⟩ 0 []) = .ok (b.sliceMut ⟨1, 2⟩)) ∧
    RawAttributeView.len ⟨[1, 2, 3, 0, 4, 5, 6, 0], 2, 4, 0⟩ = .ok 2 :=
  ⟨⟨⟨[1, 2, 3, 0, 4, 5, 6, 0], gapLayout, 2⟩, by decide, by decide, rfl⟩, by decide⟩

end Pasture.Props
