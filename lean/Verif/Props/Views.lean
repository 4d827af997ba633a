import Verif.Lemmas.Sort
import Verif.Props.Slices

/-!
# Properties C21 (iterators), C22 (sorting), C24 (raw attribute views), C62 (typed views)

`results cs xs` (Spec/Iter.lean) is what Rust's `Iterator` contract answers to the calls `cs` on an
iterator over `xs`; `Within cs xs` says that no `nth(n)` asks to skip more elements than are left.
-/

namespace Pasture.Props

open Spec BorrowedBuffer BorrowedMutBuffer

/-! ## C21 -/

/-- The contract: `nth(n)` answers like the last of `n + 1` calls of `next`, and leaves the same
    elements. -/
theorem C21_contract_nth {α : Type} (xs : List α) (n : Nat) (cs : List IterCall) :
    (results (List.replicate n .next ++ .next :: cs) xs).drop n = results (.nth n :: cs) xs := by
  induction n generalizing xs with
  | zero =>
    cases xs <;> simp [results, Call.result, Call.rest]
  | succ n ih =>
    rw [List.replicate_succ, List.cons_append, results, List.drop_succ_cons, ih]
    cases xs with
    | nil => simp [results, Call.result, Call.rest]
    | cons x xs => simp [results, Call.result, Call.rest]

/-- The contract: calls of `next` give the elements in order, then `None` for ever. -/
theorem C21_contract_next {α : Type} (xs : List α) (k : Nat) :
    results (List.replicate k .next) xs = (List.range k).map fun i => xs[i]? := by
  induction k generalizing xs with
  | zero => rfl
  | succ k ih =>
    rw [List.replicate_succ, results, ih, List.range_succ_eq_map, List.map_cons, List.map_map]
    cases xs with
    | nil => simp [Call.result, Call.rest, Function.comp_def]
    | cons x xs => simp [Call.result, Call.rest, Function.comp_def]

/-- Sequences without `nth` are always `Within`. -/
theorem C21_next_within {α : Type} (xs : List α) (k : Nat) : Within (List.replicate k .next) xs := by
  induction k generalizing xs with
  | zero => trivial
  | succ k ih => exact ⟨fun n h => (by cases h), ih _⟩

/-- C21, `view.into_iter()` of any buffer: there are records `rs` describing the points, which is what
    `at` returns, and the iterator follows the contract over them as long as no `nth` skips past the
    end. (C21 asks for all sequences: see `C21_violated_by_value`.) -/
theorem C21_points_by_value_partial {β : Type} [BorrowedBuffer β] (b : β) (l : PointLayout)
    (ps : List Point) (h : ShowsPoints b l ps) :
    ∃ rs : List Bytes, rs.map (pointOf l) = ps ∧
      (∀ i r, rs[i]? = some r → PointView.get b l i = .ok r) ∧
      ∀ cs, Within cs rs → PointView.iterByValue b l cs = .ok (results cs rs) := by
  obtain ⟨rs, _, h2, h3⟩ := fetches_points h
  refine ⟨rs, h2, h3.ok, ?_⟩
  intro cs hw
  have := runIter_within h3 cs 0 (Nat.zero_le _) (by simpa using hw)
  rw [List.drop_zero] at this
  exact this

/-- The same for an interleaved buffer, whose records are returned exactly. -/
theorem C21_records_by_value_partial {β : Type} [InterleavedBuffer β] (b : β) (l : PointLayout)
    (rs : List Bytes) (h : ShowsRecords b l rs) (cs : List IterCall) (hw : Within cs rs) :
    PointView.iterByValue b l cs = .ok (results cs rs) := by
  have := runIter_within (fetches_records h) cs 0 (Nat.zero_le _) (by simpa using hw)
  rw [List.drop_zero] at this
  exact this

/-- C21, `view.iter()`. -/
theorem C21_points_by_ref_partial {β : Type} [InterleavedBuffer β] (b : β) (l : PointLayout)
    (hl : Solid l) (rs : List Bytes) (h : ShowsRecords b l rs) (cs : List IterCall) (hw : Within cs rs) :
    PointView.iterByRef b l cs = .ok (results cs rs) := by
  unfold PointView.iterByRef
  rw [wholeRange h]
  simp only [bind, Except.bind]
  rw [castSlice_blocks (showsRecords_allLen h) hl.size_pos]
  simpa using runIter_within (fetches_elemAt rs) cs 0 (Nat.zero_le _) (by simpa using hw)

/-- C21, `view.iter_mut()`: the references handed out are those to the points `0, 1, 2, ...`. -/
theorem C21_points_by_mut_partial {β : Type} [InterleavedBufferMut β] (b : β) (l : PointLayout)
    (hl : Solid l) (rs : List Bytes) (h : ShowsRecords b l rs) (cs : List IterCall)
    (hw : Within cs (List.range rs.length)) :
    PointView.iterByMut b l cs = .ok (results cs (List.range rs.length)) := by
  unfold PointView.iterByMut
  rw [wholeRange h]
  simp only [bind, Except.bind]
  rw [castSlice_blocks (showsRecords_allLen h) hl.size_pos]
  simpa using runIter_within (fetches_elemPtr rs) cs 0 (Nat.zero_le _) (by simpa using hw)

/-- No two of the mutable references handed out are to the same point. -/
theorem C21_mut_references_distinct (n : Nat) (cs : List IterCall) :
    ((results cs (List.range n)).filterMap id).Nodup := by
  have : ∀ (cs : List IterCall) (xs : List Nat), ((results cs xs).filterMap id).Sublist xs := by
    intro cs
    induction cs with
    | nil => intro xs; simp [results]
    | cons c cs ih =>
      intro xs
      unfold results
      cases c with
      | next =>
        cases xs with
        | nil => simpa [Call.result, Call.rest] using ih []
        | cons x xs => simpa [Call.result, Call.rest] using ih xs
      | nth k =>
        simp only [Call.result, Call.rest]
        by_cases hk : k < xs.length
        · rw [List.getElem?_eq_getElem hk]
          simp only [List.filterMap_cons, id]
          refine ((ih _).cons_cons _).trans ?_
          rw [← List.drop_eq_getElem_cons hk]
          exact List.drop_sublist _ _
        · rw [List.getElem?_eq_none (by omega)]
          simp only [List.filterMap_cons, id]
          exact (ih _).trans (List.drop_sublist _ _)
  exact (this cs _).nodup List.nodup_range

/-- A loop that assigns through every reference of `iter_mut()` maps the points. -/
theorem C21_for_each_mut (b : VectorBuffer) (hl : Solid b.layout) (hb : VectorConsistent b) (rs : List Bytes)
    (h : ShowsRecords b b.layout rs) (f : Bytes → Bytes) (hf : ∀ r, (f r).length = r.length) :
    ∃ c, PointView.forEachMut b b.layout f = .ok c ∧ ShowsRecords c b.layout (rs.map f) := by
  obtain ⟨xs, h1, h2⟩ := vector_shows b hb
  generalize b.layout = l at *
  subst h2
  have := h.unique (interleaved_shows_records hl h1)
  subst this
  have hq : AllLen l.size (rs.map f) := by
    intro r hr
    obtain ⟨x, hx, rfl⟩ := List.mem_map.1 hr
    rw [hf, h1 x hx]
  refine ⟨_, Interleaved.getPointRangeMut_all h1 hq (by simp) ?_, interleaved_shows_records hl hq⟩
  rw [castSlice_blocks h1 hl.size_pos]
  simp only [bind, Except.bind]
  have := forLoop_set f rs.length rs (Nat.le_refl _)
  simp only [bind, Except.bind] at this
  rw [this]
  simp [pure, Except.pure]

/-- C21, `view_attribute(..).into_iter()` of any buffer: the values in point order. -/
theorem C21_attributes_by_value_partial {β : Type} [BorrowedBuffer β] (b : β) (l : PointLayout)
    (hl : Solid l) (ps : List Point) (h : ShowsPoints b l ps) (m : Member) (hm : m ∈ l.attributes) :
    ∃ xs : List Bytes, xs.length = ps.length ∧ (∀ i, xs[i]? = value? ps m.definition i) ∧
      ∀ cs, Within cs xs → AttributeView.iterByValue b ⟨m.datatype, m⟩ cs = .ok (results cs xs) := by
  obtain ⟨xs, hx, _⟩ := column_some hl h hm
  obtain ⟨g1, g2⟩ := column_get hx
  refine ⟨xs, g1, fun i => (g2 i).symm, ?_⟩
  intro cs hw
  unfold AttributeView.iterByValue
  rw [h.layout_eq, lookup_member hl hm]
  simp only [expectSome, bind, Except.bind]
  have := runIter_within (fetches_column h hm hx) cs 0 (Nat.zero_le _) (by simpa using hw)
  rw [List.drop_zero] at this
  exact this

/-- C21, `view_attribute(..).iter()` of a columnar buffer. -/
theorem C21_attributes_by_ref_partial {β : Type} [ColumnarBuffer β] (b : β) (l : PointLayout)
    (hl : Solid l) (ps : List Point) (h : ShowsColumns b l ps) (m : Member) (hm : m ∈ l.attributes) :
    ∃ xs : List Bytes, xs.length = ps.length ∧ (∀ i, xs[i]? = value? ps m.definition i) ∧
      ∀ cs, Within cs xs → AttributeView.iterByRef b ⟨m.datatype, m⟩ cs = .ok (results cs xs) := by
  obtain ⟨xs, hx, ha⟩ := column_some hl h.points hm
  obtain ⟨g1, g2⟩ := column_get hx
  refine ⟨xs, g1, fun i => (g2 i).symm, ?_⟩
  intro cs hw
  unfold AttributeView.iterByRef
  rw [wholeColumn h hm hx]
  simp only [bind, Except.bind]
  have hc : castSlice m.datatype.size xs.flatten = .ok xs := castSlice_blocks ha (hl.positive m hm)
  rw [hc]
  simpa using runIter_within (fetches_elemAt xs) cs 0 (Nat.zero_le _) (by simpa using hw)

/-- C21, `view_attribute_mut(..).iter_mut()` of a columnar buffer. -/
theorem C21_attributes_by_mut_partial {β : Type} [ColumnarBufferMut β] (b : β) (l : PointLayout)
    (hl : Solid l) (ps : List Point) (h : ShowsColumns b l ps) (m : Member) (hm : m ∈ l.attributes)
    (cs : List IterCall) (hw : Within cs (List.range ps.length)) :
    AttributeView.iterByMut b ⟨m.datatype, m⟩ cs = .ok (results cs (List.range ps.length)) := by
  obtain ⟨xs, hx, ha⟩ := column_some hl h.points hm
  obtain ⟨g1, _⟩ := column_get hx
  unfold AttributeView.iterByMut
  rw [wholeColumn h hm hx]
  simp only [bind, Except.bind]
  have hc : castSlice m.datatype.size xs.flatten = .ok xs := castSlice_blocks ha (hl.positive m hm)
  rw [hc, ← g1]
  rw [← g1] at hw
  simpa using runIter_within (fetches_elemPtr xs) cs 0 (Nat.zero_le _) (by simpa using hw)

/-- Traversals with `next` alone follow the contract on every buffer, also past the end. -/
theorem C21_traversal {β : Type} [InterleavedBuffer β] (b : β) (l : PointLayout) (hl : Solid l)
    (rs : List Bytes) (h : ShowsRecords b l rs) (k : Nat) :
    PointView.iterByValue b l (List.replicate k .next) = .ok ((List.range k).map fun i => rs[i]?) ∧
    PointView.iterByRef b l (List.replicate k .next) = .ok ((List.range k).map fun i => rs[i]?) := by
  rw [← C21_contract_next]
  exact ⟨C21_records_by_value_partial b l rs h _ (C21_next_within rs k),
    C21_points_by_ref_partial b l hl rs h _ (C21_next_within rs k)⟩

/-- C21 does not hold for `nth` past the end, for any buffer: the contract answers `None`, the
    by-value iterators panic. -/
theorem C21_violated_by_value {β : Type} [BorrowedBuffer β] (b : β) (l : PointLayout)
    (ps : List Point) (h : ShowsPoints b l ps) (k : Nat) (hk : len b < k) :
    results [.nth k] ps = [none] ∧ PointView.iterByValue b l [.nth k] = .error .panic := by
  have hn := h.len_eq
  constructor
  · simp only [results, Call.result]
    rw [List.getElem?_eq_none (by omega)]
  · obtain ⟨rs, _, h2, h3⟩ := fetches_points h
    refine runIter_past h3 ?_ []
    have := congrArg List.length h2
    simp at this
    omega

/-- The by-reference iterators panic as well. -/
theorem C21_violated_by_ref {β : Type} [InterleavedBuffer β] (b : β) (l : PointLayout) (hl : Solid l)
    (rs : List Bytes) (h : ShowsRecords b l rs) (k : Nat) (hk : len b < k) :
    PointView.iterByRef b l [.nth k] = .error .panic := by
  have hn := h.points.len_eq
  rw [List.length_map] at hn
  unfold PointView.iterByRef
  rw [wholeRange h]
  simp only [bind, Except.bind]
  rw [castSlice_blocks (showsRecords_allLen h) hl.size_pos]
  exact runIter_past (fetches_elemAt rs) (by omega) []

/-- The mutable iterators hand out a reference outside the buffer's memory. -/
theorem C21_violated_by_mut {β : Type} [InterleavedBufferMut β] (b : β) (l : PointLayout) (hl : Solid l)
    (rs : List Bytes) (h : ShowsRecords b l rs) (k : Nat) (hk : len b < k) :
    PointView.iterByMut b l [.nth k] = .error .ub := by
  have hn := h.points.len_eq
  rw [List.length_map] at hn
  unfold PointView.iterByMut
  rw [wholeRange h]
  simp only [bind, Except.bind]
  rw [castSlice_blocks (showsRecords_allLen h) hl.size_pos]
  exact runIter_past (fetches_elemPtr rs) (by rw [List.length_range]; omega) []

/-- The same for the mutable iterator over an attribute. -/
theorem C21_violated_attribute_by_mut {β : Type} [ColumnarBufferMut β] (b : β) (l : PointLayout)
    (hl : Solid l) (ps : List Point) (h : ShowsColumns b l ps) (m : Member) (hm : m ∈ l.attributes)
    (k : Nat) (hk : len b < k) :
    AttributeView.iterByMut b ⟨m.datatype, m⟩ [.nth k] = .error .ub := by
  obtain ⟨xs, hx, ha⟩ := column_some hl h.points hm
  obtain ⟨g1, _⟩ := column_get hx
  have hn := h.points.len_eq
  unfold AttributeView.iterByMut
  rw [wholeColumn h hm hx]
  simp only [bind, Except.bind]
  have hc : castSlice m.datatype.size xs.flatten = .ok xs := castSlice_blocks ha (hl.positive m hm)
  rw [hc]
  exact runIter_past (fetches_elemPtr xs) (by rw [List.length_range]; omega) []

/-- Concrete: three points, `next, nth(1), next, next`; and the three ways to fail. -/
example : let b : VectorBuffer := ⟨[1, 9, 2, 3, 4, 9, 5, 0, 1, 2, 7, 0, 6, 0, 3, 4, 8, 0], exLayout, 3⟩
    PointView.iterByRef b exLayout [.next, .nth 1, .next, .next] =
      .ok [some [1, 9, 2, 3, 4, 9], some [6, 0, 3, 4, 8, 0], none, none] ∧
    PointView.iterByValue b exLayout [.nth 4] = .error .panic ∧
    PointView.iterByRef b exLayout [.nth 3, .nth 1] = .error .panic ∧
    PointView.iterByMut b exLayout [.nth 2, .nth 1] = .error .ub := by decide

/-! ## C22 -/

/-- C22: `sort_by` leaves the points stably sorted and the layout and number of points unchanged. -/
theorem C22_sort_by (b : VectorBuffer) (hl : Solid b.layout) (hb : VectorConsistent b) (rs : List Bytes)
    (h : ShowsRecords b b.layout rs) (cmp : Bytes → Bytes → Ordering) (hc : Ranks cmp) :
    ∃ c rs', PointView.sortBy b b.layout cmp = .ok c ∧ ShowsRecords c b.layout rs' ∧
      StablySorted cmp rs rs' ∧ len c = len b ∧ VectorConsistent c := by
  obtain ⟨xs, h1, h2⟩ := vector_shows b hb
  generalize b.layout = l at *
  subst h2
  have := h.unique (interleaved_shows_records hl h1)
  subst this
  have hs := mergeSort_stable hc rs
  have hq := allLen_perm h1 hs.same
  have hlen := hs.same.length_eq
  refine ⟨_, _, Interleaved.getPointRangeMut_all h1 hq hlen ?_, interleaved_shows_records hl hq, hs, hlen,
    Interleaved.ofRecords_inv hq⟩
  rw [castSlice_blocks h1 hl.size_pos]
  rfl

/-- C22 through a mutable slice: only the points of the slice are sorted. -/
theorem C22_sort_by_slice (b : VectorBuffer) (hl : Solid b.layout) (hb : VectorConsistent b) (rs : List Bytes)
    (h : ShowsRecords b b.layout rs) (s e : Nat) (hse : s ≤ e) (he : e ≤ len b)
    (cmp : Bytes → Bytes → Ordering) (hc : Ranks cmp) :
    ∃ (c : VectorBuffer) (rs' : List Bytes), PointView.sortBy (b.sliceMut ⟨s, e⟩) b.layout cmp = .ok (c.sliceMut ⟨s, e⟩) ∧
      ShowsRecords c b.layout (rs.take s ++ rs' ++ rs.drop e) ∧ StablySorted cmp (sub rs s e) rs' := by
  rw [h.points.len_eq, List.length_map] at he
  obtain ⟨xs, h1, h2⟩ := vector_shows b hb
  generalize b.layout = l at *
  subst h2
  have := h.unique (interleaved_shows_records hl h1)
  subst this
  have hpart : AllLen l.size (sub rs s e) := (h1.drop s).take (e - s)
  have hs := mergeSort_stable hc (sub rs s e)
  have hq := allLen_perm hpart hs.same
  have hlen : _ = (sub rs s e).length := hs.same.length_eq
  have hsub : (sub rs s e).length = e - s := by unfold sub; simp; omega
  have hover : overwrite rs s ((sub rs s e).mergeSort fun x y => cmp x y != .gt) =
      rs.take s ++ ((sub rs s e).mergeSort fun x y => cmp x y != .gt) ++ rs.drop e := by
    unfold overwrite
    rw [hlen, hsub, show s + (e - s) = e by omega]
  have hall : AllLen l.size (rs.take s ++ ((sub rs s e).mergeSort fun x y => cmp x y != .gt) ++ rs.drop e) :=
    ((h1.take s).append hq).append (h1.drop e)
  have hf : (fun data => do
      let xs ← castSlice l.size data
      pure (xs.mergeSort fun x y => cmp x y != .gt).flatten : Bytes → Out Bytes) (sub rs s e).flatten =
      .ok ((sub rs s e).mergeSort fun x y => cmp x y != .gt).flatten := by
    dsimp only
    rw [castSlice_blocks hpart hl.size_pos]; rfl
  refine ⟨Interleaved.ofRecords l _, _, ?_, interleaved_shows_records hl hall, hs⟩
  unfold PointView.sortBy
  show Except.map BufferSliceInterleavedMut.mk
    (((⟨Interleaved.ofRecords l rs, ⟨s, e⟩⟩ : BufferSliceMut Interleaved).globalRange ⟨0, e - s⟩).bind _) = _
  have key : ∀ r : Rng, r.start ≤ r.stop → r.stop ≤ rs.length → r = ⟨s, e⟩ ∨ (r = ⟨e, e⟩ ∧ s = e) →
      (Interleaved.ofRecords l rs).getPointRangeMut r (fun data => do
        let xs ← castSlice l.size data
        pure (xs.mergeSort fun x y => cmp x y != .gt).flatten) =
      .ok (Interleaved.ofRecords l (rs.take s ++ ((sub rs s e).mergeSort fun x y => cmp x y != .gt) ++ rs.drop e)) := by
    intro r _ _ hr
    have hr' : r = ⟨s, e⟩ := by
      rcases hr with hr | ⟨hr, hse⟩
      · exact hr
      · rw [hr, hse]
    rw [hr', Interleaved.getPointRangeMut_ok h1 hse he hq (by rw [hlen, hsub]) hf, hover]
  by_cases h0 : 0 < e - s
  · rw [BufferSliceMut.globalRange_ok h0 (by omega)]
    have := key ⟨0 + s, e - s + s⟩ (by simp) (by simp; omega) (.inl (by rw [Rng.mk.injEq]; omega))
    exact congrArg (fun x => Except.map BufferSliceInterleavedMut.mk
      (Except.map (fun c => (⟨c, ⟨s, e⟩⟩ : BufferSliceMut Interleaved)) x)) this
  · have hg : (⟨Interleaved.ofRecords l rs, ⟨s, e⟩⟩ : BufferSliceMut Interleaved).globalRange ⟨0, e - s⟩ = .ok ⟨e, e⟩ := by
      unfold BufferSliceMut.globalRange
      rw [assertThat_true (decide_eq_true (show e - s ≤ e by omega))]
      show (if 0 ≥ e - s then _ else _) = _
      rw [if_pos (by omega)]; rfl
    rw [hg]
    have := key ⟨e, e⟩ (Nat.le_refl _) he (.inr ⟨rfl, by omega⟩)
    exact congrArg (fun x => Except.map BufferSliceInterleavedMut.mk
      (Except.map (fun c => (⟨c, ⟨s, e⟩⟩ : BufferSliceMut Interleaved)) x)) this

/-- Comparators meet the hypothesis: here, comparing the first byte. -/
theorem byFirst_ranks : Ranks fun a b : Bytes => compare (a.headD 0).toNat (b.headD 0).toNat where
  swap a b := by rw [Nat.compare_swap]
  trans a b c h1 h2 := by
    rw [Nat.compare_ne_gt] at *
    omega

/-- A stable sort of two points of equal rank, one before and one behind a smaller one. -/
example : PointView.sortBy (β := VectorBuffer)
    ⟨[7, 9, 2, 3, 4, 9, 5, 0, 1, 2, 7, 0, 7, 0, 3, 4, 8, 0], exLayout, 3⟩ exLayout
    (fun a b => compare (a.headD 0).toNat (b.headD 0).toNat) =
    .ok ⟨[5, 0, 1, 2, 7, 0, 7, 9, 2, 3, 4, 9, 7, 0, 3, 4, 8, 0], exLayout, 3⟩ := by
  have h : castSlice 6 [7, 9, 2, 3, 4, 9, 5, 0, 1, 2, 7, 0, 7, 0, 3, 4, 8, 0] =
      .ok [[7, 9, 2, 3, 4, 9], [5, 0, 1, 2, 7, 0], [7, 0, 3, 4, 8, 0]] := by decide
  have hs : ([[7, 9, 2, 3, 4, 9], [5, 0, 1, 2, 7, 0], [7, 0, 3, 4, 8, 0]] : List Bytes).mergeSort
      (fun x y => compare (x.headD 0).toNat (y.headD 0).toNat != .gt) =
      [[5, 0, 1, 2, 7, 0], [7, 9, 2, 3, 4, 9], [7, 0, 3, 4, 8, 0]] := by
    simp [List.mergeSort, List.MergeSort.Internal.splitInTwo, List.splitAt, List.splitAt.go,
      show compare 7 5 = Ordering.gt by decide, show compare 5 7 = Ordering.lt by decide]
  have hf : ∀ f : Bytes → Out Bytes,
      f [7, 9, 2, 3, 4, 9, 5, 0, 1, 2, 7, 0, 7, 0, 3, 4, 8, 0] = .ok [5, 0, 1, 2, 7, 0, 7, 9, 2, 3, 4, 9, 7, 0, 3, 4, 8, 0] →
      Interleaved.getPointRangeMut ⟨[7, 9, 2, 3, 4, 9, 5, 0, 1, 2, 7, 0, 7, 0, 3, 4, 8, 0], exLayout, 3⟩ ⟨0, 3⟩ f =
      .ok ⟨[5, 0, 1, 2, 7, 0, 7, 9, 2, 3, 4, 9, 7, 0, 3, 4, 8, 0], exLayout, 3⟩ := by
    intro f hf
    unfold Interleaved.getPointRangeMut Interleaved.update
    have : Interleaved.read ⟨[7, 9, 2, 3, 4, 9, 5, 0, 1, 2, 7, 0, 7, 0, 3, 4, 8, 0], exLayout, 3⟩
      (Interleaved.byteRangeOfPoints ⟨[7, 9, 2, 3, 4, 9, 5, 0, 1, 2, 7, 0, 7, 0, 3, 4, 8, 0], exLayout, 3⟩ ⟨0, 3⟩) =
      .ok [7, 9, 2, 3, 4, 9, 5, 0, 1, 2, 7, 0, 7, 0, 3, 4, 8, 0] := by decide
    rw [this]
    simp only [bind, Except.bind]
    rw [hf]
    decide
  unfold PointView.sortBy
  refine hf (fun data => (castSlice 6 data).bind fun xs =>
    .ok (xs.mergeSort fun x y => compare (x.headD 0).toNat (y.headD 0).toNat != .gt).flatten) ?_
  rw [h]
  simp only [Except.bind]
  rw [hs]
  decide

/-! ## C24 -/

/-- C24, interleaved: element `i` of the raw view is `get_attribute(attr, i)` for every `i` (both panic
    from `len()` on), and the view has the buffer's length. -/
theorem C24_interleaved {β : Type} [InterleavedBuffer β] (b : β) (l : PointLayout) (hl : Solid l)
    (rs : List Bytes) (h : ShowsRecords b l rs) (m : Member) (hm : m ∈ l.attributes) :
    ∃ v, RawAttributeView.fromInterleaved b m = .ok v ∧ v.len = .ok (len b) ∧
      ∀ i data, data.length = m.size → v.index i = getAttribute b m.definition i data := by
  have ha := showsRecords_allLen h
  have hn := h.points.len_eq
  rw [List.length_map] at hn
  refine ⟨⟨rs.flatten, m.offset, l.size, m.size⟩, ?_, ?_, ?_⟩
  · unfold RawAttributeView.fromInterleaved
    rw [wholeRange h, h.points.layout_eq]
    rfl
  · unfold RawAttributeView.len
    dsimp only
    rw [assertThat_true (by have := hl.size_pos; simp; omega), ha.flatten_length,
      Nat.mul_div_cancel _ hl.size_pos, hn]
    rfl
  · intro i data hd
    rw [h.points.getAttribute_eq _ _ _ hd]
    unfold RawAttributeView.index
    have e : m.offset + l.size * i = i * l.size + m.offset := by rw [Nat.mul_comm, Nat.add_comm]
    dsimp only
    rw [e]
    unfold value?
    rw [List.getElem?_map]
    cases hr : rs[i]? with
    | none =>
      exact Interleaved.read_attribute_panic ha (hl.positive m hm) (by simpa using hr)
    | some r =>
      have := Interleaved.read_attribute_ok ha (hl.inside m hm) hr
      refine Eq.trans this ?_
      simp only [Option.map_some, bind, Option.bind]
      rw [pointOf_get, find_def_mem hl hm]
      rfl

/-- C24, columnar. -/
theorem C24_columnar {β : Type} [ColumnarBuffer β] (b : β) (l : PointLayout) (hl : Solid l)
    (ps : List Point) (h : ShowsColumns b l ps) (m : Member) (hm : m ∈ l.attributes) :
    ∃ v, RawAttributeView.fromColumnar b m.definition = .ok v ∧ v.len = .ok (len b) ∧
      ∀ i data, data.length = m.size → v.index i = getAttribute b m.definition i data := by
  obtain ⟨xs, hx, ha⟩ := column_some hl h.points hm
  obtain ⟨g1, g2⟩ := column_get hx
  have hpos := hl.positive m hm
  refine ⟨⟨xs.flatten, 0, m.size, m.size⟩, ?_, ?_, ?_⟩
  · unfold RawAttributeView.fromColumnar
    rw [wholeColumn h hm hx]
    rfl
  · unfold RawAttributeView.len
    dsimp only
    rw [assertThat_true (by simp; omega), ha.flatten_length, Nat.mul_div_cancel _ hpos, g1, h.points.len_eq]
    rfl
  · intro i data hd
    rw [h.points.getAttribute_eq _ _ _ hd, g2 i]
    unfold RawAttributeView.index
    dsimp only
    rw [Nat.zero_add, Nat.mul_comm]
    cases hr : xs[i]? with
    | none =>
      exact sliceGet_panic (by
        rw [ha.flatten_length]; exact Interleaved.block_end_gt hpos (by simpa using hr))
    | some r =>
      have hlt : i < xs.length := (List.getElem?_eq_some_iff.1 hr).1
      rw [sliceGet_ok (by rw [ha.flatten_length]; exact Interleaved.block_end_le hlt), window_block ha hr]
      rfl

/-- Writing an element of the mutable raw view of an interleaved buffer is `set_attribute`. -/
theorem C24_write_interleaved (b : VectorBuffer) (hl : Solid b.layout) (hb : VectorConsistent b)
    (m : Member) (hm : m ∈ b.layout.attributes) (i : Nat) (x : Bytes) :
    RawAttributeView.withInterleaved b m (fun v => v.put i x) = setAttribute b m.definition i x := by
  show Interleaved.getPointRangeMut b ⟨0, b.length⟩ _ = Interleaved.setAttribute b m.definition i x
  have hread : b.read (b.byteRangeOfPoints ⟨0, b.length⟩) = .ok b.storage := by
    unfold Interleaved.read Interleaved.byteRangeOfPoints sliceGet
    dsimp only
    rw [if_pos ⟨by simp, Nat.le_of_eq hb.symm⟩, ← hb]
    simp
  have e : m.offset + b.layout.size * i = i * b.layout.size + m.offset := by rw [Nat.mul_comm, Nat.add_comm]
  unfold Interleaved.getPointRangeMut Interleaved.update Interleaved.setAttribute
  rw [hread, lookup_member hl hm]
  simp only [bind, Except.bind, expectSome, RawAttributeView.put, Interleaved.write,
    Interleaved.byteRangeOfAttribute, Interleaved.byteRangeOfPoints]
  have hlay : (layout b).size = b.layout.size := rfl
  rw [hlay, e]
  cases hp : slicePut b.storage (i * b.layout.size + m.offset) (i * b.layout.size + m.offset + m.size) x with
  | error f => rfl
  | ok s =>
    have hlen : s.length = b.length * b.layout.size := by
      unfold slicePut at hp
      split at hp
      · next hc =>
        rw [← Except.ok.inj hp, put_eq_overwrite, length_overwrite (by omega), hb]
      · cases hp
    have : slicePut b.storage (0 * b.layout.size) (b.length * b.layout.size) s = .ok s := by
      unfold slicePut
      rw [if_pos ⟨by simp, Nat.le_of_eq hb.symm, by simp [hlen]⟩]
      unfold put
      have hb' : List.length b.storage ≤ b.length * b.layout.size := Nat.le_of_eq hb
      simp [hlen, hb']
    simp only [pure, Except.pure]
    rw [this]

/-- The same for a columnar buffer. -/
theorem C24_write_columnar (b : HashMapBuffer) (hb : HashMapConsistent b)
    (m : Member) (i : Nat) (x : Bytes) :
    RawAttributeView.withColumnar b m.definition (fun v => v.put i x) = setAttribute b m.definition i x := by
  show HashMapBuffer.getAttributeRangeMut b m.definition ⟨0, b.length⟩ _ =
    HashMapBuffer.setAttribute b m.definition i x
  unfold HashMapBuffer.getAttributeRangeMut HashMapBuffer.setAttribute
  cases hg : b.columns.get m.definition with
  | none => rfl
  | some col =>
    have hcol : col.length = b.length * m.definition.size := by
      obtain ⟨l1, l2, e, _⟩ := List.lookup_eq_some_iff.1 hg
      exact hb.2 (m.definition, col) (by rw [e]; simp)
    have hread : sliceGet col (0 * m.definition.size) (b.length * m.definition.size) = .ok col := by
      unfold sliceGet
      rw [if_pos ⟨by simp, Nat.le_of_eq hcol.symm⟩, ← hcol]
      simp
    simp only [bind, Except.bind, expectSome, RawAttributeView.put, HashMapBuffer.byteRange,
      HashMapBuffer.byteRangeOf]
    rw [hread]
    simp only
    rw [Nat.zero_add, Nat.mul_comm m.definition.size i, Nat.succ_mul i]
    cases hp : slicePut col (i * m.definition.size) (i * m.definition.size + m.definition.size) x with
    | error f => rfl
    | ok s =>
      have hlen : s.length = b.length * m.definition.size := by
        unfold slicePut at hp
        split at hp
        · next hc =>
          rw [← Except.ok.inj hp, put_eq_overwrite, length_overwrite (by omega), hcol]
        · cases hp
      have : slicePut col (0 * m.definition.size) (b.length * m.definition.size) s = .ok s := by
        unfold slicePut
        rw [if_pos ⟨by simp, Nat.le_of_eq hcol.symm, by simp [hlen]⟩]
        unfold put
        simp [hlen, hcol]
      simp only [pure, Except.pure]
      rw [this]

example : (RawAttributeView.fromInterleaved
      (⟨[1, 9, 2, 3, 4, 9, 5, 0, 1, 2, 7, 0], exLayout, 2⟩ : VectorBuffer) ⟨⟨"b", .u16⟩, 2⟩).bind
        (fun v => v.index 1) = .ok [1, 2] := by decide

end Pasture.Props
