import Verif.Lemmas.Pusher
import Verif.Props.Buffers

/-!
# Properties C13 (append), C15 (collect), C16 (filter), C23 (attribute pusher)
-/

namespace Pasture.Props

open Spec BorrowedBuffer BorrowedMutBuffer OwningBuffer

/-! ## Consistent buffers show points -/

theorem vector_shows (b : VectorBuffer) (hb : VectorConsistent b) :
    ∃ rs, AllLen b.layout.size rs ∧ b = Interleaved.ofRecords b.layout rs :=
  ⟨b.records, Interleaved.records_allLen hb, (Interleaved.ofRecords_records hb).symm⟩

theorem hashmap_shows (b : HashMapBuffer) (hl : Orderly b.layout) (hb : HashMapConsistent b) :
    ∃ rs, AllLen b.layout.size rs ∧ b = HashMapBuffer.ofRecords b.layout rs := by
  obtain ⟨rs, h1, _, h3⟩ := HashMapBuffer.exists_records hl hb
  exact ⟨rs, h1, h3⟩

/-! ## C13 -/

/-- C13, `append` onto a `VectorBuffer`, from any buffer: the points of `a` followed by those of `b`. -/
theorem C13_append_to_vector {γ : Type} [BorrowedBuffer γ] (a : VectorBuffer) (b : γ)
    (hl : Solid a.layout) (ha : VectorConsistent a) (ps qs : List Point)
    (hps : ShowsPoints a a.layout ps) (hqs : ShowsPoints b a.layout qs) :
    ∃ c, append a b = .ok c ∧ ShowsPoints c a.layout (ps ++ qs) ∧ VectorConsistent c := by
  obtain ⟨rs, h1, h2⟩ := vector_shows a ha
  generalize a.layout = l at *
  subst h2
  obtain ⟨ys, g1, g2, g3, g4⟩ := append_records (β := VectorBuffer) hl h1 hqs
  refine ⟨_, g4, ?_, Interleaved.ofRecords_inv (h1.append g2)⟩
  have := interleaved_shows_points hl (h1.append g2)
  rw [List.map_append, ys_of_points hqs g1 g3, hps.unique (interleaved_shows_points hl h1)] at *
  exact this

/-- C13, `append` onto a `HashMapBuffer`, from any buffer. -/
theorem C13_append_to_hashmap {γ : Type} [BorrowedBuffer γ] (a : HashMapBuffer) (b : γ)
    (hl : Solid a.layout) (ha : HashMapConsistent a) (ps qs : List Point)
    (hps : ShowsPoints a a.layout ps) (hqs : ShowsPoints b a.layout qs) :
    ∃ c, append a b = .ok c ∧ ShowsPoints c a.layout (ps ++ qs) ∧ HashMapConsistent c := by
  obtain ⟨rs, h1, h2⟩ := hashmap_shows a hl ha
  generalize a.layout = l at *
  subst h2
  obtain ⟨ys, g1, g2, g3, g4⟩ := append_records (β := HashMapBuffer) hl h1 hqs
  refine ⟨_, g4, ?_, HashMapBuffer.ofRecords_inv hl (h1.append g2)⟩
  have := HashMapBuffer.shows_points hl (h1.append g2)
  rw [List.map_append, ys_of_points hqs g1 g3, hps.unique (HashMapBuffer.shows_points hl h1)] at *
  exact this

/-- C13, `append_interleaved` onto a `VectorBuffer`, bytes included. -/
theorem C13_append_interleaved_to_vector {γ : Type} [InterleavedBuffer γ] (a : VectorBuffer) (b : γ)
    (hl : Solid a.layout) (ha : VectorConsistent a) (rs qs : List Bytes)
    (hrs : ShowsRecords a a.layout rs) (hqs : ShowsRecords b a.layout qs) (hq : AllLen a.layout.size qs) :
    ∃ c, VectorBuffer.appendInterleaved a b = .ok c ∧ ShowsRecords c a.layout (rs ++ qs) ∧
      VectorConsistent c := by
  obtain ⟨xs, h1, h2⟩ := vector_shows a ha
  generalize a.layout = l at *
  subst h2
  have e : xs = rs := by
    have h3 := interleaved_shows_records hl h1
    have hlen : xs.length = rs.length := by
      have h4 := h3.points.len_eq; rw [hrs.points.len_eq] at h4; simpa using h4.symm
    apply List.ext_getElem hlen
    intro i hi hi'
    have e1 := h3.getPointRef_eq i
    rw [hrs.getPointRef_eq i, List.getElem?_eq_getElem hi, List.getElem?_eq_getElem hi'] at e1
    exact (Except.ok.inj e1).symm
  subst e
  exact ⟨_, vector_appendInterleaved hl hq hqs, interleaved_shows_records hl (h1.append hq),
    Interleaved.ofRecords_inv (h1.append hq)⟩

/-- C13, `append_interleaved` onto a `HashMapBuffer`. -/
theorem C13_append_interleaved_to_hashmap {γ : Type} [InterleavedBuffer γ] (a : HashMapBuffer) (b : γ)
    (hl : Solid a.layout) (ha : HashMapConsistent a) (ps : List Point) (qs : List Bytes)
    (hps : ShowsPoints a a.layout ps) (hqs : ShowsRecords b a.layout qs) (hq : AllLen a.layout.size qs) :
    ∃ c, HashMapBuffer.appendInterleaved a b = .ok c ∧
      ShowsPoints c a.layout (ps ++ qs.map (pointOf a.layout)) ∧ HashMapConsistent c := by
  obtain ⟨rs, h1, h2⟩ := hashmap_shows a hl ha
  generalize a.layout = l at *
  subst h2
  refine ⟨_, hashmap_appendInterleaved hl hq hqs, ?_, HashMapBuffer.ofRecords_inv hl (h1.append hq)⟩
  rw [hps.unique (HashMapBuffer.shows_points hl h1), ← List.map_append]
  exact HashMapBuffer.shows_points hl (h1.append hq)

/-- C13, `append_columnar` onto a `VectorBuffer`. -/
theorem C13_append_columnar_to_vector {γ : Type} [ColumnarBuffer γ] (a : VectorBuffer) (b : γ)
    (hl : Solid a.layout) (ha : VectorConsistent a) (ps qs : List Point)
    (hps : ShowsPoints a a.layout ps) (hqs : ShowsColumns b a.layout qs) :
    ∃ c, VectorBuffer.appendColumnar a b = .ok c ∧ ShowsPoints c a.layout (ps ++ qs) ∧
      VectorConsistent c := by
  obtain ⟨rs, h1, h2⟩ := vector_shows a ha
  generalize a.layout = l at *
  subst h2
  obtain ⟨ys, g1, g2, g3, g4⟩ := vector_appendColumnar h1 hqs.points
  refine ⟨_, g4, ?_, Interleaved.ofRecords_inv (h1.append g2)⟩
  have := interleaved_shows_points hl (h1.append g2)
  rw [List.map_append, ys_of_points hqs.points g1 g3] at this
  rw [hps.unique (interleaved_shows_points hl h1)]
  exact this

/-- C13, `append_columnar` onto a `HashMapBuffer`. -/
theorem C13_append_columnar_to_hashmap {γ : Type} [ColumnarBuffer γ] (a : HashMapBuffer) (b : γ)
    (hl : Solid a.layout) (ha : HashMapConsistent a) (ps qs : List Point)
    (hps : ShowsPoints a a.layout ps) (hqs : ShowsColumns b a.layout qs) :
    ∃ c, HashMapBuffer.appendColumnar a b = .ok c ∧ ShowsPoints c a.layout (ps ++ qs) ∧
      HashMapConsistent c := by
  obtain ⟨rs, h1, h2⟩ := hashmap_shows a hl ha
  generalize a.layout = l at *
  subst h2
  obtain ⟨ys, g1, g2⟩ := hqs.points.records
  subst g2
  refine ⟨_, hashmap_appendColumnar hl hqs, ?_, HashMapBuffer.ofRecords_inv hl (h1.append g1)⟩
  rw [hps.unique (HashMapBuffer.shows_points hl h1), ← List.map_append]
  exact HashMapBuffer.shows_points hl (h1.append g1)

/-- C13, different layouts panic, for all five entry points. -/
theorem C13_different_layouts_panic {γ δ ε : Type} [BorrowedBuffer γ] [InterleavedBuffer δ] [ColumnarBuffer ε]
    (v : VectorBuffer) (h : HashMapBuffer) (b : γ) (i : δ) (c : ε) :
    (v.layout ≠ layout b → append v b = .error .panic) ∧
    (h.layout ≠ layout b → append h b = .error .panic) ∧
    (v.layout ≠ layout i → VectorBuffer.appendInterleaved v i = .error .panic) ∧
    (h.layout ≠ layout i → HashMapBuffer.appendInterleaved h i = .error .panic) ∧
    (v.layout ≠ layout c → VectorBuffer.appendColumnar v c = .error .panic) ∧
    (h.layout ≠ layout c → HashMapBuffer.appendColumnar h c = .error .panic) := by
  refine ⟨fun hne => ?_, fun hne => ?_, fun hne => ?_, fun hne => ?_, fun hne => ?_, fun hne => ?_⟩
  · unfold append
    rw [assertThat_false (show decide (layout v = layout b) = false from decide_eq_false hne)]; rfl
  · unfold append
    rw [assertThat_false (show decide (layout h = layout b) = false from decide_eq_false hne)]; rfl
  · unfold VectorBuffer.appendInterleaved
    rw [assertThat_false (decide_eq_false hne)]; rfl
  · unfold HashMapBuffer.appendInterleaved
    rw [assertThat_false (decide_eq_false hne)]; rfl
  · unfold VectorBuffer.appendColumnar
    rw [assertThat_false (decide_eq_false hne)]; rfl
  · unfold HashMapBuffer.appendColumnar
    rw [assertThat_false (decide_eq_false hne)]; rfl

/-- The hypotheses of the C13 theorems hold for every consistent source and target. -/
theorem C13_hypotheses_met (v : VectorBuffer) (h : HashMapBuffer) (hv : Solid v.layout) (hh : Solid h.layout)
    (cv : VectorConsistent v) (ch : HashMapConsistent h) :
    (∃ rs, ShowsRecords v v.layout rs ∧ AllLen v.layout.size rs) ∧ (∃ ps, ShowsPoints v v.layout ps) ∧
    (∃ ps, ShowsColumns h h.layout ps) := by
  obtain ⟨rs, h1, h2⟩ := vector_shows v cv
  obtain ⟨qs, g1, g2⟩ := hashmap_shows h hh ch
  generalize v.layout = l at *
  generalize h.layout = k at *
  subst h2
  subst g2
  exact ⟨⟨rs, interleaved_shows_records hv h1, h1⟩, ⟨_, interleaved_shows_points hv h1⟩,
    ⟨_, HashMapBuffer.shows_columns hh g1⟩⟩

example : append (⟨[1, 9, 2, 3, 4, 9], exLayout, 1⟩ : VectorBuffer)
    (⟨[(⟨"a", .u8⟩, [5, 6]), (⟨"b", .u16⟩, [1, 2, 3, 4]), (⟨"c", .u8⟩, [7, 8])], exLayout, 2⟩ : HashMapBuffer) =
    .ok ⟨[1, 9, 2, 3, 4, 9, 5, 0, 1, 2, 7, 0, 6, 0, 3, 4, 8, 0], exLayout, 3⟩ := by decide

/-! ## C15 -/

/-- C15 for `HashMapBuffer`: collecting keeps number and order of the points. -/
theorem C15_collect_hashmap (l : PointLayout) (hl : Solid l) (points : List Bytes)
    (hp : AllLen l.size points) :
    ∃ b, HashMapBuffer.fromIter l points = .ok b ∧ ShowsPoints b l (points.map (pointOf l)) := by
  have := push_each (β := HashMapBuffer) hl points [] AllLen.nil hp
  exact ⟨_, this, HashMapBuffer.shows_points hl hp⟩

/-- C15 for `VectorBuffer`, for iterators with an exact upper bound or none. -/
theorem C15_collect_vector_partial (l : PointLayout) (hl : Solid l) (points : List Bytes)
    (hp : AllLen l.size points) (hint : Option Nat) (hh : ∀ n, hint = some n → n = points.length) :
    ∃ b, VectorBuffer.fromIter l points hint = .ok b ∧ ShowsRecords b l points := by
  cases hint with
  | none =>
    have := push_each (β := VectorBuffer) hl points [] AllLen.nil hp
    exact ⟨_, this, interleaved_shows_records hl hp⟩
  | some n =>
    have := hh n rfl
    subst this
    have := fromIter_bound hp (Nat.le_refl _)
    refine ⟨_, this, ?_⟩
    rw [Nat.sub_self]
    simp only [List.replicate_zero, List.append_nil]
    exact interleaved_shows_records hl hp

/-- C15 is false for `VectorBuffer`: whatever points are collected, an upper bound `n` that is not
    exact gives a buffer of `n` points, the surplus ones zero. -/
theorem C15_violated_for_loose_bounds (l : PointLayout) (hl : Solid l) (points : List Bytes)
    (hp : AllLen l.size points) (n : Nat) (hn : points.length < n) :
    ∃ b, VectorBuffer.fromIter l points (some n) = .ok b ∧ len b = n ∧ len b ≠ points.length ∧
      ShowsRecords b l (points ++ List.replicate (n - points.length) (List.replicate l.size 0)) := by
  refine ⟨_, fromIter_bound hp (by omega), ?_, ?_, ?_⟩
  · show (points ++ List.replicate (n - points.length) (zeros l.size)).length = n
    simp; omega
  · show (points ++ List.replicate (n - points.length) (zeros l.size)).length ≠ _
    simp; omega
  · exact interleaved_shows_records hl (hp.append (AllLen.replicate (by simp [zeros]) _))

/-- A concrete case: an iterator of two points that reports at most three (`filter` does this). -/
theorem C15_violated : ∃ b, VectorBuffer.fromIter exLayout [[1, 0, 2, 3, 4, 0], [5, 0, 6, 7, 8, 0]] (some 3) = .ok b ∧
    len b = 3 ∧ getPoint b 2 (zeros 6) = .ok [0, 0, 0, 0, 0, 0] := by
  refine ⟨⟨[1, 0, 2, 3, 4, 0, 5, 0, 6, 7, 8, 0, 0, 0, 0, 0, 0, 0], exLayout, 3⟩, ?_, ?_, ?_⟩ <;> decide

/-- Iterators that yield more than their upper bound (which breaks the contract of `size_hint`)
    panic. -/
theorem C15_too_small_bound_panics (l : PointLayout) (hl : Solid l) (points : List Bytes)
    (hp : AllLen l.size points) (n : Nat) (hn : n < points.length) :
    VectorBuffer.fromIter l points (some n) = .error .panic := fromIter_short hl hp hn

example : ∃ b, VectorBuffer.fromIter exLayout [[1, 0, 2, 3, 4, 0], [5, 0, 6, 7, 8, 0]] none = .ok b ∧
    b = ⟨[1, 0, 2, 3, 4, 0, 5, 0, 6, 7, 8, 0], exLayout, 2⟩ := by
  refine ⟨_, ?_, rfl⟩; decide

/-! ## C16 -/

/-- The elements whose index satisfies `p`, in order. -/
def keep {α : Type} (p : Nat → Bool) (xs : List α) : List α :=
  (xs.zipIdx.filter fun x => p x.2).map Prod.fst

theorem sel_keep {rs : List Bytes} (p : Nat → Bool) {l : PointLayout} :
    sel rs ((HashMapBuffer.ofRecords l rs).matching p) = keep p rs := by
  unfold sel keep HashMapBuffer.matching
  show List.map _ ((List.range rs.length).filter p) = _
  have : ∀ (xs : List Bytes) (k : Nat) (f : Nat → Bytes), (∀ i x, xs[i]? = some x → f (k + i) = x) →
      ((List.range' k xs.length).filter p).map f = ((xs.zipIdx k).filter fun x => p x.2).map Prod.fst := by
    intro xs
    induction xs with
    | nil => intro k f _; rfl
    | cons x xs ih =>
      intro k f hf
      rw [List.length_cons, List.range'_succ, List.zipIdx_cons]
      have hx := hf 0 x (by simp)
      have hrec := ih (k + 1) f (by
        intro i y hy
        have := hf (i + 1) y (by simpa using hy)
        rw [show k + (i + 1) = k + 1 + i by omega] at this
        exact this)
      rw [Nat.add_zero] at hx
      by_cases hpk : p k
      · rw [List.filter_cons_of_pos hpk, List.filter_cons_of_pos (by exact hpk), List.map_cons, List.map_cons, hrec, hx]
      · rw [List.filter_cons_of_neg hpk, List.filter_cons_of_neg (by exact hpk), hrec]
  have := this rs 0 (fun i => (rs[i]?).getD []) (by intro i x hx; simp [hx])
  rw [List.range_eq_range']
  exact this

theorem keep_map {α β : Type} (p : Nat → Bool) (f : α → β) (xs : List α) :
    keep p (xs.map f) = (keep p xs).map f := by
  unfold keep
  rw [List.zipIdx_map, List.filter_map, List.map_map, List.map_map]
  rfl

theorem keep_length {l : PointLayout} {rs : List Bytes} (p : Nat → Bool) :
    ((HashMapBuffer.ofRecords l rs).matching p).length = (keep p rs).length := by
  rw [← sel_keep (l := l)]; simp [sel]

/-- C16, `filter` into a new `HashMapBuffer`. -/
theorem C16_filter_to_hashmap (b : HashMapBuffer) (hl : Solid b.layout) (hb : HashMapConsistent b)
    (ps : List Point) (hps : ShowsPoints b b.layout ps) (p : Nat → Bool) :
    ∃ c, b.filterToHashMap p = .ok c ∧ ShowsPoints c b.layout (keep p ps) ∧ HashMapConsistent c := by
  obtain ⟨rs, h1, h2⟩ := hashmap_shows b hl hb
  generalize b.layout = l at *
  subst h2
  have hz : (List.replicate l.size (0 : Byte)).length = l.size := by simp
  unfold HashMapBuffer.filterToHashMap
  dsimp only
  rw [HashMapBuffer.newFromLayout_eq, HashMapBuffer.resize_ok hl AllLen.nil]
  have hr : AllLen l.size (resized [] ((HashMapBuffer.ofRecords l rs).matching p).length (List.replicate l.size (0 : Byte))) := by
    simp only [resized, List.take_nil, List.nil_append]; exact AllLen.replicate hz _
  have hrl : (resized [] ((HashMapBuffer.ofRecords l rs).matching p).length (List.replicate l.size (0 : Byte))).length =
      ((HashMapBuffer.ofRecords l rs).matching p).length := by simp [resized]
  have := HashMapBuffer.filterIntoColumnar_ok hl h1 hr p (some _) (by rw [hrl]) rfl
  rw [sel_keep] at this
  have e : overwrite (resized [] ((HashMapBuffer.ofRecords l rs).matching p).length (List.replicate l.size (0 : Byte))) 0
      (keep p rs) = keep p rs := by
    unfold overwrite
    rw [List.drop_eq_nil_of_le (by rw [hrl, keep_length]; omega)]
    simp
  rw [e] at this
  have hk : AllLen l.size (keep p rs) := by
    rw [← sel_keep (l := l)]
    exact sel_allLen h1 (HashMapBuffer.matching_lt (HashMapBuffer.ofRecords l rs) p)
  refine ⟨_, this, ?_, HashMapBuffer.ofRecords_inv hl hk⟩
  rw [hps.unique (HashMapBuffer.shows_points hl h1), keep_map]
  exact HashMapBuffer.shows_points hl hk

/-- C16, `filter` into a new `VectorBuffer`. -/
theorem C16_filter_to_vector (b : HashMapBuffer) (hl : Solid b.layout) (hb : HashMapConsistent b)
    (ps : List Point) (hps : ShowsPoints b b.layout ps) (p : Nat → Bool) :
    ∃ c, b.filterToVector p = .ok c ∧ ShowsPoints c b.layout (keep p ps) ∧ VectorConsistent c := by
  obtain ⟨rs, h1, h2⟩ := hashmap_shows b hl hb
  generalize b.layout = l at *
  subst h2
  have hz : (zeros l.size).length = l.size := by simp [zeros]
  unfold HashMapBuffer.filterToVector
  dsimp only
  have e0 : VectorBuffer.newFromLayout l = Interleaved.ofRecords l [] := rfl
  rw [e0, Interleaved.resize_ok AllLen.nil]
  have hr : AllLen l.size (resized [] ((HashMapBuffer.ofRecords l rs).matching p).length (zeros l.size)) := by
    simp only [resized, List.take_nil, List.nil_append]; exact AllLen.replicate hz _
  have hrl : (resized [] ((HashMapBuffer.ofRecords l rs).matching p).length (zeros l.size)).length =
      ((HashMapBuffer.ofRecords l rs).matching p).length := by simp [resized]
  obtain ⟨us, g1, g2, _, g3⟩ := HashMapBuffer.filterIntoInterleaved_ok hl h1 hr p (some _) (by rw [hrl]) rfl
  rw [sel_keep] at g2
  have e : overwrite (resized [] ((HashMapBuffer.ofRecords l rs).matching p).length (zeros l.size)) 0
      (keep p rs) = keep p rs := by
    unfold overwrite
    rw [List.drop_eq_nil_of_le (by rw [hrl, keep_length]; omega)]
    simp
  rw [e] at g2
  refine ⟨_, g3, ?_, Interleaved.ofRecords_inv g1⟩
  rw [hps.unique (HashMapBuffer.shows_points hl h1), keep_map, ← g2]
  exact interleaved_shows_points hl g1

/-- C16, `filter_into` an existing columnar buffer: the selected points come first, the points
    behind them keep their values. -/
theorem C16_filter_into_hashmap (b t : HashMapBuffer) (hl : Solid b.layout) (hb : HashMapConsistent b)
    (ht : HashMapConsistent t) (hlay : t.layout = b.layout) (ps ts : List Point)
    (hps : ShowsPoints b b.layout ps) (hts : ShowsPoints t b.layout ts) (p : Nat → Bool)
    (hint : Option Nat) (hh : ∀ n, hint = some n → n = (keep p ps).length)
    (hn : (keep p ps).length ≤ ts.length) :
    ∃ c, b.filterIntoColumnar t p hint = .ok c ∧
      ShowsPoints c b.layout (keep p ps ++ ts.drop (keep p ps).length) := by
  obtain ⟨rs, h1, h2⟩ := hashmap_shows b hl hb
  obtain ⟨xs, g1, g2⟩ := hashmap_shows t (hlay ▸ hl) ht
  rw [hlay] at g1 g2
  generalize b.layout = l at *
  subst h2
  subst g2
  have e1 := hps.unique (HashMapBuffer.shows_points hl h1)
  have e2 := hts.unique (HashMapBuffer.shows_points hl g1)
  subst e1
  subst e2
  rw [keep_map, List.length_map] at hn hh
  have := HashMapBuffer.filterIntoColumnar_ok hl h1 g1 p hint (by rw [keep_length]; simpa using hn) (by
    cases hint with
    | none => rfl
    | some n => rw [Option.getD_some, keep_length]; exact hh n rfl)
  rw [sel_keep] at this
  have hk : AllLen l.size (keep p rs) := by
    rw [← sel_keep (l := l)]
    exact sel_allLen h1 (HashMapBuffer.matching_lt (HashMapBuffer.ofRecords l rs) p)
  refine ⟨_, this, ?_⟩
  have hs := HashMapBuffer.shows_points hl (rs := overwrite xs 0 (keep p rs)) (by
    simp only [overwrite, List.take_zero, List.nil_append]
    exact hk.append (g1.drop _))
  simp only [overwrite, List.take_zero, List.nil_append, Nat.zero_add, List.map_append, List.map_drop] at hs
  rw [keep_map, List.length_map]
  simp only [overwrite, List.take_zero, List.nil_append, Nat.zero_add]
  exact hs

/-- C16, `filter_into` an existing interleaved buffer. -/
theorem C16_filter_into_vector (b : HashMapBuffer) (t : VectorBuffer) (hl : Solid b.layout)
    (hb : HashMapConsistent b) (ht : VectorConsistent t) (hlay : t.layout = b.layout) (ps ts : List Point)
    (hps : ShowsPoints b b.layout ps) (hts : ShowsPoints t b.layout ts) (p : Nat → Bool)
    (hint : Option Nat) (hh : ∀ n, hint = some n → n = (keep p ps).length)
    (hn : (keep p ps).length ≤ ts.length) :
    ∃ c, b.filterIntoInterleaved t p hint = .ok c ∧
      ShowsPoints c b.layout (keep p ps ++ ts.drop (keep p ps).length) := by
  obtain ⟨rs, h1, h2⟩ := hashmap_shows b hl hb
  obtain ⟨xs, g1, g2⟩ := vector_shows t ht
  rw [hlay] at g1 g2
  generalize b.layout = l at *
  subst h2
  subst g2
  have e1 := hps.unique (HashMapBuffer.shows_points hl h1)
  have e2 := hts.unique (interleaved_shows_points hl g1)
  subst e1
  subst e2
  rw [keep_map, List.length_map] at hn hh
  obtain ⟨us, k1, k2, _, k3⟩ := HashMapBuffer.filterIntoInterleaved_ok hl h1 g1 p hint
    (by rw [keep_length]; simpa using hn) (by
    cases hint with
    | none => rfl
    | some n => rw [Option.getD_some, keep_length]; exact hh n rfl)
  rw [sel_keep] at k2
  refine ⟨_, k3, ?_⟩
  have hs := interleaved_shows_points hl k1
  rw [k2] at hs
  simp only [overwrite, List.take_zero, List.nil_append, Nat.zero_add, List.map_append, List.map_drop] at hs
  rw [keep_map, List.length_map]
  exact hs

example : HashMapBuffer.filterToVector
    ⟨[(⟨"a", .u8⟩, [5, 6, 7]), (⟨"b", .u16⟩, [1, 2, 3, 4, 5, 6]), (⟨"c", .u8⟩, [7, 8, 9])], exLayout, 3⟩
    (fun i => i != 1) = .ok ⟨[5, 0, 1, 2, 7, 0, 7, 0, 5, 6, 9, 0], exLayout, 2⟩ := by decide

/-- A hint that is too small makes `filter_into` panic (after part of the work). -/
theorem C16_wrong_hint_panics : HashMapBuffer.filterIntoInterleaved
    ⟨[(⟨"a", .u8⟩, [5, 6, 7]), (⟨"b", .u16⟩, [1, 2, 3, 4, 5, 6]), (⟨"c", .u8⟩, [7, 8, 9])], exLayout, 3⟩
    (VectorBuffer.resize (VectorBuffer.newFromLayout exLayout) 3) (fun _ => true) (some 2) = .error .panic := by
  decide

/-! ## C23 -/

/-- A session with the attribute pusher: begin, push, done. -/
def pushSession (b : HashMapBuffer) (pushes : List Push) : Out HashMapBuffer := do
  let p ← forLoop pushes (AttributePusher.new b) fun p c => p.pushAttributeRange c.1 c.2.1 c.2.2
  p.done

/-- The point whose attribute values are the `i`-th values pushed. -/
def pushedPoint (l : PointLayout) (pushes : List Push) (i : Nat) : Point :=
  l.attributes.map fun m => (m.definition, ((pushed pushes m.definition)[i]?).getD [])

/-- C23. Pushing every attribute of the layout once, in any order, with `n` values each, appends
    `n` points that consist of those values, and keeps all columns at `len` entries. -/
theorem C23_push_every_attribute_once (b : HashMapBuffer) (hl : Solid b.layout) (hb : HashMapConsistent b)
    (ps : List Point) (hps : ShowsPoints b b.layout ps) (pushes : List Push) (n : Nat)
    (hcover : (pushes.map Prod.fst).Perm (b.layout.attributes.map Member.definition))
    (hok : ∀ c ∈ pushes, c.2.1 = c.1.datatype ∧ c.2.2.length = n ∧ ∀ v ∈ c.2.2, v.length = c.1.size) :
    ∃ c, pushSession b pushes = .ok c ∧
      ShowsPoints c b.layout (ps ++ (List.range n).map (pushedPoint b.layout pushes)) ∧
      HashMapConsistent c := by
  obtain ⟨rs, h1, h2⟩ := hashmap_shows b hl hb
  generalize b.layout = l at *
  subst h2
  have e1 := hps.unique (HashMapBuffer.shows_points hl h1)
  subst e1
  have hnd : (pushes.map Prod.fst).Nodup := hcover.nodup_iff.2 (defs_nodup hl)
  have hloop := AttributePusher.push_loop hl n (HashMapBuffer.ofRecords l rs) pushes [] (by simpa using hnd)
    (fun c hc => ⟨(hcover.mem_iff).1 (List.mem_map_of_mem hc), (hok c hc).1, (hok c hc).2.1⟩) (by simp)
  rw [List.nil_append] at hloop
  have e0 : AttributePusher.new (HashMapBuffer.ofRecords l rs) =
      ⟨colsOf l.attributes fun m => (pushed [] m.definition).flatten, if ([] : List Push) = [] then none else some n,
        HashMapBuffer.ofRecords l rs⟩ := rfl
  have hv : ∀ m ∈ l.attributes, AllLen m.size (pushed pushes m.definition) ∧
      (pushed pushes m.definition).length = n := by
    intro m hm
    obtain ⟨c, hc, he⟩ := List.mem_map.1 ((hcover.mem_iff).2 (List.mem_map_of_mem hm))
    rw [← he, pushed_mem hnd hc]
    obtain ⟨_, k2, k3⟩ := hok c hc
    refine ⟨fun v hv => ?_, k2⟩
    rw [k3 v hv, he]; rfl
  have hne : pushes ≠ [] := by
    intro he
    subst he
    have := hcover.length_eq
    simp at this
    exact hl.nonempty (List.eq_nil_of_length_eq_zero this.symm)
  rw [if_neg hne] at hloop
  unfold pushSession
  rw [e0, hloop]
  by_cases hn : n = 0
  · subst hn
    refine ⟨HashMapBuffer.ofRecords l rs, rfl, ?_, HashMapBuffer.ofRecords_inv hl h1⟩
    simpa using HashMapBuffer.shows_points hl h1
  · obtain ⟨qs, q1, q2, q3, q4⟩ := exists_rows hl hv
    have hd := AttributePusher.done_ok hl (rs := rs) (Nat.pos_of_ne_zero hn) hv
    have hc : (⟨colsOf l.attributes fun m => (vals m rs).flatten ++ (pushed pushes m.definition).flatten, l,
        rs.length + n⟩ : HashMapBuffer) = HashMapBuffer.ofRecords l (rs ++ qs) := by
      unfold HashMapBuffer.ofRecords
      rw [List.length_append, q2]
      congr 1
      apply List.map_congr_left
      intro m hm
      dsimp only
      rw [show vals m (rs ++ qs) = vals m rs ++ vals m qs from List.map_append, List.flatten_append, q3 m hm]
    rw [hc] at hd
    refine ⟨_, hd, ?_, HashMapBuffer.ofRecords_inv hl (h1.append q1)⟩
    have := HashMapBuffer.shows_points hl (h1.append q1)
    rw [List.map_append, q4] at this
    exact this

/-- C23. If some attribute was not pushed (and something was), `done` panics. -/
theorem C23_missing_attribute_panics (b : HashMapBuffer) (hl : Solid b.layout) (pushes : List Push) (n : Nat)
    (hn : 0 < n) (hne : pushes ≠ []) (hnd : (pushes.map Prod.fst).Nodup)
    (hok : ∀ c ∈ pushes, c.1 ∈ b.layout.attributes.map Member.definition ∧ c.2.1 = c.1.datatype ∧ c.2.2.length = n)
    (m : Member) (hm : m ∈ b.layout.attributes) (hmiss : m.definition ∉ pushes.map Prod.fst) :
    pushSession b pushes = .error .panic := by
  have hloop := AttributePusher.push_loop hl n b pushes [] (by simpa using hnd) hok (by simp)
  rw [List.nil_append, if_neg hne] at hloop
  have e0 : AttributePusher.new b = ⟨colsOf b.layout.attributes fun m => (pushed [] m.definition).flatten,
      if ([] : List Push) = [] then none else some n, b⟩ := rfl
  unfold pushSession
  rw [e0, hloop]
  exact AttributePusher.done_missing (v := fun m => pushed pushes m.definition) hn hm (pushed_absent hmiss) b

/-- C23. A push whose number of values differs from the first push panics, as does a push of an
    unknown attribute or with the wrong element type. -/
theorem C23_bad_push_panics (p : AttributePusher) (d : AttrDef) (t : DataType) (data : List Bytes) :
    (∀ n, p.numNewPoints = some n → data.length ≠ n → p.pushAttributeRange d t data = .error .panic) ∧
    (p.storage.get d = none → p.pushAttributeRange d t data = .error .panic) ∧
    (t ≠ d.datatype → p.pushAttributeRange d t data = .error .panic) := by
  refine ⟨fun n hn hne => ?_, fun hg => ?_, fun ht => ?_⟩
  · unfold AttributePusher.pushAttributeRange
    by_cases ht : t = d.datatype
    · rw [assertThat_true (decide_eq_true ht)]
      cases hg : p.storage.get d with
      | none => rfl
      | some col =>
        simp only [expectSome, bind, Except.bind, hn]
        rw [assertThat_false (decide_eq_false (Ne.symm hne))]
    · rw [assertThat_false (decide_eq_false ht)]; rfl
  · unfold AttributePusher.pushAttributeRange
    by_cases ht : t = d.datatype
    · rw [assertThat_true (decide_eq_true ht), hg]; rfl
    · rw [assertThat_false (decide_eq_false ht)]; rfl
  · unfold AttributePusher.pushAttributeRange
    rw [assertThat_false (decide_eq_false ht)]; rfl

/-- C23 is false when an attribute is pushed twice with the same number of values: `done` succeeds,
    but the columns disagree with `len()` and with each other. -/
theorem C23_double_push_violated : ∃ (b c : HashMapBuffer) (pushes : List Push),
    Solid b.layout ∧ HashMapConsistent b ∧ pushSession b pushes = .ok c ∧ ¬ HashMapConsistent c ∧
    len c = 1 ∧ c.columns = [(⟨"a", .u8⟩, [1, 2]), (⟨"b", .u16⟩, [3, 4]), (⟨"c", .u8⟩, [5])] := by
  refine ⟨HashMapBuffer.newFromLayout exLayout,
    ⟨[(⟨"a", .u8⟩, [1, 2]), (⟨"b", .u16⟩, [3, 4]), (⟨"c", .u8⟩, [5])], exLayout, 1⟩,
    [(⟨"a", .u8⟩, .u8, [[1]]), (⟨"a", .u8⟩, .u8, [[2]]), (⟨"b", .u16⟩, .u16, [[3, 4]]), (⟨"c", .u8⟩, .u8, [[5]])],
    exLayout_solid, by decide, by decide, by decide, by decide, by decide⟩

example : pushSession (HashMapBuffer.newFromLayout exLayout)
    [(⟨"c", .u8⟩, .u8, [[5], [6]]), (⟨"a", .u8⟩, .u8, [[1], [2]]), (⟨"b", .u16⟩, .u16, [[3, 4], [5, 6]])] =
    .ok ⟨[(⟨"a", .u8⟩, [1, 2]), (⟨"b", .u16⟩, [3, 4, 5, 6]), (⟨"c", .u8⟩, [5, 6])], exLayout, 2⟩ := by decide

end Pasture.Props
