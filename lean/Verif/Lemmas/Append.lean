import Verif.Lemmas.Buffers

/-! # Appending, collecting, filtering and attribute pushing -/

namespace Pasture

open Spec BorrowedBuffer BorrowedMutBuffer OwningBuffer

/-! ### what a buffer shows determines its points -/

/-- The points a buffer shows are unique. -/
theorem Spec.ShowsPoints.unique {β : Type} [BorrowedBuffer β] {b : β} {l : PointLayout} {ps qs : List Point}
    (h1 : ShowsPoints b l ps) (h2 : ShowsPoints b l qs) : ps = qs := by
  have hlen : ps.length = qs.length := by rw [← h1.len_eq, ← h2.len_eq]
  apply List.ext_getElem hlen
  intro i hi hi'
  obtain ⟨r1, a1, _, c1⟩ := h1.getPoint_ok i _ (zeros l.size) (List.getElem?_eq_getElem hi) (by simp [zeros])
  obtain ⟨r2, a2, _, c2⟩ := h2.getPoint_ok i _ (zeros l.size) (List.getElem?_eq_getElem hi') (by simp [zeros])
  rw [a1] at a2
  cases a2
  rw [← c1, ← c2]

/-- The points a buffer shows come from records. -/
theorem Spec.ShowsPoints.records {β : Type} [BorrowedBuffer β] {b : β} {l : PointLayout} {ps : List Point}
    (h : ShowsPoints b l ps) : ∃ rs, AllLen l.size rs ∧ rs.map (pointOf l) = ps := by
  have : ∀ p ∈ ps, ∃ r : Bytes, r.length = l.size ∧ pointOf l r = p := by
    intro p hp
    obtain ⟨i, hi, rfl⟩ := List.mem_iff_getElem.1 hp
    obtain ⟨r, _, h2, h3⟩ := h.getPoint_ok i _ (zeros l.size) (List.getElem?_eq_getElem hi) (by simp [zeros])
    exact ⟨r, h2, h3⟩
  clear h
  induction ps with
  | nil => exact ⟨[], AllLen.nil, rfl⟩
  | cons p ps ih =>
    obtain ⟨rs, h1, h2⟩ := ih fun q hq => this q (by simp [hq])
    obtain ⟨r, h3, h4⟩ := this p (by simp)
    exact ⟨r :: rs, AllLen.cons_iff.2 ⟨h3, h1⟩, by simp [h2, h4]⟩

theorem values?_pointOf {l : PointLayout} (hl : Orderly l) {rs : List Bytes} {m : Member}
    (hm : m ∈ l.attributes) (s e : Nat) :
    values? (rs.map (pointOf l)) m.definition s e =
      if e ≤ rs.length then some (((vals m rs).drop s).take (e - s)).flatten else none := by
  unfold values? range?
  rw [List.length_map]
  by_cases he : e ≤ rs.length
  · simp only [if_pos he, bind, Option.bind, pure]
    rw [← List.map_drop, ← List.map_take, List.mapM_map]
    rw [mapM_some (g := fun r => window r m.offset m.size) (by
      intro r _
      simp only [Function.comp_apply]
      rw [pointOf_get, find_def_mem hl hm]; rfl)]
    simp [vals, List.map_take, List.map_drop]
  · simp only [if_neg he]; rfl

theorem values?_absent {l : PointLayout} {rs : List Bytes} {d : AttrDef} {s e : Nat} (hse : s < e)
    (hd : d ∉ l.attributes.map Member.definition) :
    values? (rs.map (pointOf l)) d s e = none := by
  unfold values? range?
  split
  · next he =>
    rw [List.length_map] at he
    simp only [bind, Option.bind]
    have hlt : s < rs.length := by omega
    rw [mapM_none (f := fun p : Point => p.get d) (x := pointOf l rs[s]) (by
      rw [List.mem_iff_getElem]
      exact ⟨0, by simp; omega, by simp⟩) (by rw [pointOf_get, find_def_none hd]; rfl)]
  · rfl

theorem HashMapBuffer.shows_columns {l : PointLayout} (hl : Solid l) {rs : List Bytes}
    (h : AllLen l.size rs) :
    ShowsColumns (HashMapBuffer.ofRecords l rs) l (rs.map (pointOf l)) where
  points := HashMapBuffer.shows_points hl h
  getAttributeRef_eq := by
    intro d i
    show (HashMapBuffer.ofRecords l rs).getAttributeRef d i = _
    rw [value?_pointOf]
    by_cases hmem : d ∈ l.attributes.map Member.definition
    · obtain ⟨m, hf⟩ := find_def_isSome hmem
      obtain ⟨hm, rfl⟩ := find_def_some hf
      have hg := colsOf_get hl (fun m => (vals m rs).flatten) hm
      simp only [HashMapBuffer.getAttributeRef, hg, expectSome, bind, Except.bind, hf]
      cases hr : rs[i]? with
      | none => exact HashMapBuffer.col_get_panic hl h hm (by simpa using hr)
      | some r => exact HashMapBuffer.col_get_ok hl h hm hr
    · have hg := colsOf_get_none (fun m => (vals m rs).flatten) hmem
      simp only [HashMapBuffer.getAttributeRef, hg, expectSome, bind, Except.bind, find_def_none hmem]
      cases rs[i]? <;> rfl
  getAttributeRangeRef_eq := by
    intro d s e hse
    show (HashMapBuffer.ofRecords l rs).getAttributeRangeRef d ⟨s, e⟩ = _
    rw [List.length_map] at hse
    by_cases hmem : d ∈ l.attributes.map Member.definition
    · obtain ⟨m, hf⟩ := find_def_isSome hmem
      obtain ⟨hm, rfl⟩ := find_def_some hf
      rw [values?_pointOf hl hm]
      by_cases he : e ≤ rs.length
      · rw [if_pos he]; exact HashMapBuffer.getAttributeRangeRef_ok hl h hm (by omega) he
      · rw [if_neg he]; exact HashMapBuffer.getAttributeRangeRef_panic hl h (by omega)
    · rw [values?_absent (hse.resolve_right fun h => hmem h.2.2) hmem]
      have hg := colsOf_get_none (fun m => (vals m rs).flatten) hmem
      simp only [HashMapBuffer.getAttributeRangeRef, hg, expectSome, bind, Except.bind]
      rfl

/-! ### appending -/

theorem resized_append {α : Type} (xs : List α) (n : Nat) (z : α) :
    resized xs (xs.length + n) z = xs ++ List.replicate n z := by
  unfold resized
  rw [List.take_of_length_le (by omega), Nat.add_sub_cancel_left]

/-- A loop that writes the points of `other` behind `rs`, whatever its scratch state. -/
theorem append_loop {β σ : Type} {l : PointLayout} {rep : List Bytes → σ → β} {get : Nat → Bytes → Out Bytes}
    {z : Bytes} {rs : List Bytes} (n : Nat) (extra : σ → Prop)
    {body : β → Nat → Out β}
    (step : ∀ k ys t, k < n → ys.length = k → AllLen l.size ys → extra t →
      ∃ data r t', data.length = l.size ∧ get k data = .ok r ∧ r.length = l.size ∧ extra t' ∧
        body (rep (rs ++ ys ++ List.replicate (n - k) z) t) k =
          .ok (rep ((rs ++ ys ++ List.replicate (n - k) z).set (rs.length + k) r) t'))
    (t : σ) (ht : extra t) :
    ∃ ys t', ys.length = n ∧ AllLen l.size ys ∧
      (∀ i r, ys[i]? = some r → ∃ data, data.length = l.size ∧ get i data = .ok r) ∧
      forLoop (List.range n) (rep (rs ++ List.replicate n z) t) body = .ok (rep (rs ++ ys) t') := by
  have key : ∀ k, k ≤ n → ∃ ys t', ys.length = k ∧ AllLen l.size ys ∧
      (∀ i r, ys[i]? = some r → ∃ data, data.length = l.size ∧ get i data = .ok r) ∧ extra t' ∧
      forLoop (List.range k) (rep (rs ++ List.replicate n z) t) body =
        .ok (rep (rs ++ ys ++ List.replicate (n - k) z) t') := by
    intro k
    induction k with
    | zero => intro _; exact ⟨[], t, rfl, AllLen.nil, by simp, ht, by simp⟩
    | succ k ih =>
      intro hk
      obtain ⟨ys, t1, h1, h2, h3, h4, h5⟩ := ih (by omega)
      obtain ⟨data, r, t2, g1, g2, g3, g4, g5⟩ := step k ys t1 (by omega) h1 h2 h4
      refine ⟨ys ++ [r], t2, by simp [h1], h2.append (by simp [AllLen, g3]), ?_, g4, ?_⟩
      · intro i x hx
        by_cases hi : i < k
        · rw [List.getElem?_append_left (by omega)] at hx
          exact h3 i x hx
        · have : i = k := by
            have := (List.getElem?_eq_some_iff.1 hx).1
            simp at this; omega
          subst this
          rw [List.getElem?_append_right (by omega)] at hx
          simp [h1] at hx
          subst hx
          exact ⟨data, g1, g2⟩
      · rw [List.range_succ, forLoop_append, h5]
        simp only [Except.bind]
        rw [forLoop_cons, g5]
        simp only [Except.bind, forLoop_nil]
        congr 3
        rw [List.set_append_right _ _ (by simp; omega)]
        have e : rs.length + k - (rs ++ ys).length = 0 := by simp; omega
        rw [e, show n - k = (n - (k + 1)) + 1 by omega, List.replicate_succ]
        simp
  obtain ⟨ys, t', h1, h2, h3, _, h5⟩ := key n (Nat.le_refl _)
  exact ⟨ys, t', h1, h2, h3, by simpa using h5⟩

theorem resize_records {β : Type} [OwningBuffer β] [HoldsRecords β] {l : PointLayout} (hl : Solid l)
    {rs : List Bytes} (h : AllLen l.size rs) (n : Nat) :
    resize (HoldsRecords.ofRecords l rs : β) n =
      HoldsRecords.ofRecords l (resized rs n (List.replicate l.size 0)) := by
  have := HoldsRecords.step_eq (β := β) hl h (.resize n) trivial
  exact Except.ok.inj this

theorem setPoint_records {β : Type} [OwningBuffer β] [HoldsRecords β] {l : PointLayout} (hl : Solid l)
    {rs : List Bytes} (h : AllLen l.size rs) {i : Nat} (hi : i < rs.length) {r : Bytes}
    (hr : r.length = l.size) :
    setPoint (HoldsRecords.ofRecords l rs : β) i r = .ok (HoldsRecords.ofRecords l (rs.set i r)) := by
  have := HoldsRecords.step_eq (β := β) hl h (.setPoint i r) hr
  unfold Op.stepRecords at this
  rw [if_pos (show (Op.setPoint i r).allowed l rs.length from hi)] at this
  exact this

/-- `append` writes what `get_point` of the source returns. -/
theorem append_records {β γ : Type} [OwningBuffer β] [HoldsRecords β] [BorrowedBuffer γ] {l : PointLayout}
    (hl : Solid l) {rs : List Bytes} (h : AllLen l.size rs) {other : γ} {qs : List Point}
    (ho : ShowsPoints other l qs) :
    ∃ ys, ys.length = qs.length ∧ AllLen l.size ys ∧
      (∀ i r, ys[i]? = some r → ∃ data, data.length = l.size ∧ getPoint other i data = .ok r) ∧
      append (HoldsRecords.ofRecords l rs : β) other = .ok (HoldsRecords.ofRecords l (rs ++ ys)) := by
  have hz : (List.replicate l.size (0 : Byte)).length = l.size := by simp
  have sh := HoldsRecords.shows (β := β) hl h
  have hlen : len (HoldsRecords.ofRecords l rs : β) = rs.length := by rw [sh.len_eq]; simp
  have hrep : ∀ k, AllLen l.size (List.replicate k (List.replicate l.size (0 : Byte))) :=
    fun k => AllLen.replicate hz k
  obtain ⟨ys, t', h1, h2, h3, h4⟩ := append_loop (β := β × Bytes) (rep := fun rs t => (HoldsRecords.ofRecords l rs, t))
    (get := getPoint other) (rs := rs) qs.length (fun t : Bytes => t.length = l.size)
    (body := fun (self, scratch) i => do
      let scratch ← getPoint other i scratch
      let self ← setPoint self (rs.length + i) scratch
      pure (self, scratch)) (by
      intro k ys t hk hys hall ht
      obtain ⟨r, a, b, _⟩ := ho.getPoint_ok k _ t (List.getElem?_eq_getElem hk) ht
      refine ⟨t, r, r, ht, a, b, b, ?_⟩
      simp only [a, bind, Except.bind]
      rw [setPoint_records hl ((h.append hall).append (hrep _)) (by simp; omega) b]
      rfl) (zeros l.size) (by simp [zeros])
  refine ⟨ys, h1, h2, h3, ?_⟩
  unfold append
  rw [sh.layout_eq, ho.layout_eq, assertThat_true (decide_eq_true rfl)]
  simp only [bind, Except.bind, hlen, ho.len_eq] at h4 ⊢
  rw [resize_records hl h, resized_append]
  have sh2 := HoldsRecords.shows (β := β) hl (h.append (hrep qs.length))
  rw [sh2.layout_eq, h4]
  rfl

theorem ys_of_points {γ : Type} [BorrowedBuffer γ] {l : PointLayout} {other : γ} {qs : List Point}
    (ho : ShowsPoints other l qs) {ys : List Bytes} (hlen : ys.length = qs.length)
    (h : ∀ i r, ys[i]? = some r → ∃ data : Bytes, data.length = l.size ∧ getPoint other i data = .ok r) :
    ys.map (pointOf l) = qs := by
  apply List.ext_getElem (by simpa using hlen)
  intro i hi hi'
  obtain ⟨data, h1, h2⟩ := h i _ (List.getElem?_eq_getElem (by omega))
  obtain ⟨r, a, _, c⟩ := ho.getPoint_ok i _ data (List.getElem?_eq_getElem hi') h1
  rw [h2] at a
  cases a
  simpa using c

theorem ys_of_records {γ : Type} [InterleavedBuffer γ] {l : PointLayout} {other : γ} {qs : List Bytes}
    (ho : ShowsRecords other l qs) {ys : List Bytes} (hlen : ys.length = qs.length)
    (h : ∀ i r, ys[i]? = some r → ∃ data : Bytes, data.length = l.size ∧ getPoint other i data = .ok r) :
    ys = qs := by
  apply List.ext_getElem hlen
  intro i hi hi'
  obtain ⟨data, h1, h2⟩ := h i _ (List.getElem?_eq_getElem hi)
  rw [ho.getPoint_eq i data h1, List.getElem?_eq_getElem hi'] at h2
  exact (Except.ok.inj h2).symm

theorem getRangeRef_all {γ : Type} [InterleavedBuffer γ] {l : PointLayout} {other : γ} {qs : List Bytes}
    (ho : ShowsRecords other l qs) :
    InterleavedBuffer.getPointRangeRef other ⟨0, len other⟩ = .ok qs.flatten := by
  rw [ho.points.len_eq, List.length_map, ho.getPointRangeRef_eq 0 qs.length (by omega)]
  simp [range?, answer]

theorem vector_appendInterleaved {γ : Type} [InterleavedBuffer γ] {l : PointLayout}
    (hl : Solid l) {rs : List Bytes} {other : γ} {qs : List Bytes}
    (hq : AllLen l.size qs) (ho : ShowsRecords other l qs) :
    VectorBuffer.appendInterleaved (Interleaved.ofRecords l rs) other = .ok (Interleaved.ofRecords l (rs ++ qs)) := by
  unfold VectorBuffer.appendInterleaved
  rw [ho.points.layout_eq, assertThat_true (decide_eq_true rfl), getRangeRef_all ho]
  exact Interleaved.pushPoints_ok hl.size_pos hq

theorem hashmap_appendInterleaved {γ : Type} [InterleavedBuffer γ] {l : PointLayout}
    (hl : Solid l) {rs : List Bytes} {other : γ} {qs : List Bytes}
    (hq : AllLen l.size qs) (ho : ShowsRecords other l qs) :
    HashMapBuffer.appendInterleaved (HashMapBuffer.ofRecords l rs) other =
      .ok (HashMapBuffer.ofRecords l (rs ++ qs)) := by
  unfold HashMapBuffer.appendInterleaved
  rw [ho.points.layout_eq, assertThat_true (decide_eq_true rfl), getRangeRef_all ho]
  exact HashMapBuffer.pushPoints_ok hl hq

theorem Interleaved.getPointMut_ok {l : PointLayout} {rs : List Bytes} (h : AllLen l.size rs) {i : Nat}
    {r r' : Bytes} (hi : rs[i]? = some r) {f : Bytes → Out Bytes} (hf : f r = .ok r')
    (hr : r'.length = l.size) :
    (Interleaved.ofRecords l rs).getPointMut i f = .ok (Interleaved.ofRecords l (rs.set i r')) := by
  have h1 : (Interleaved.ofRecords l rs).read ((Interleaved.ofRecords l rs).byteRangeOfPoint i) = .ok r :=
    Interleaved.getPointRef_ok h hi
  unfold Interleaved.getPointMut Interleaved.update
  rw [h1]
  simp only [bind, Except.bind, hf]
  exact Interleaved.write_block h (List.getElem?_eq_some_iff.1 hi).1 hr

theorem vector_appendColumnar {γ : Type} [ColumnarBuffer γ] {l : PointLayout}
    {rs : List Bytes} (h : AllLen l.size rs) {other : γ} {qs : List Point}
    (ho : ShowsPoints other l qs) :
    ∃ ys, ys.length = qs.length ∧ AllLen l.size ys ∧
      (∀ i r, ys[i]? = some r → ∃ data : Bytes, data.length = l.size ∧ getPoint other i data = .ok r) ∧
      VectorBuffer.appendColumnar (Interleaved.ofRecords l rs) other =
        .ok (Interleaved.ofRecords l (rs ++ ys)) := by
  have hz : (List.replicate l.size (0 : Byte)).length = l.size := by simp
  have hrep : ∀ k, AllLen l.size (List.replicate k (List.replicate l.size (0 : Byte))) :=
    fun k => AllLen.replicate hz k
  obtain ⟨ys, t', h1, h2, h3, h4⟩ := append_loop (β := VectorBuffer) (rep := fun rs _ => Interleaved.ofRecords l rs)
    (get := getPoint other) (rs := rs) qs.length (fun _ : Unit => True)
    (body := fun b i => b.getPointMut (rs.length + i) fun mem => getPoint other i mem) (by
      intro k ys t hk hys hall _
      obtain ⟨r, a, b, _⟩ := ho.getPoint_ok k _ _ (List.getElem?_eq_getElem hk) hz
      refine ⟨_, r, (), hz, a, b, trivial, ?_⟩
      exact Interleaved.getPointMut_ok ((h.append hall).append (hrep _)) (r := List.replicate l.size 0) (by
        rw [List.getElem?_append_right (by simp; omega), List.getElem?_replicate, if_pos (by simp; omega)]) a b)
    () trivial
  refine ⟨ys, h1, h2, h3, ?_⟩
  unfold VectorBuffer.appendColumnar
  rw [ho.layout_eq, assertThat_true (decide_eq_true rfl)]
  simp only [bind, Except.bind, ho.len_eq]
  rw [Interleaved.resize_ok h, resized_append]
  exact h4

theorem hashmap_appendColumnar {γ : Type} [ColumnarBuffer γ] {l : PointLayout} (hl : Solid l)
    {rs : List Bytes} {other : γ} {qs : List Bytes}
    (ho : ShowsColumns other l (qs.map (pointOf l))) :
    HashMapBuffer.appendColumnar (HashMapBuffer.ofRecords l rs) other =
      .ok (HashMapBuffer.ofRecords l (rs ++ qs)) := by
  have := cols_loop_layout hl (f := fun m => (vals m rs).flatten)
    (g := fun m => (vals m (rs ++ qs)).flatten)
    (body := fun cols m => do
      let col ← expectSome (cols.get m.definition)
      let src ← ColumnarBuffer.getAttributeRangeRef other m.definition ⟨0, qs.length⟩
      pure (cols.set m.definition (col ++ src))) (by
    intro m hm cols hg
    simp only [hg]
    rw [ho.getAttributeRangeRef_eq m.definition 0 qs.length (by
      rw [List.length_map]
      by_cases h0 : qs.length = 0
      · exact .inr ⟨h0.symm, Nat.le_refl _, List.mem_map_of_mem hm⟩
      · exact .inl (by omega)), values?_pointOf hl hm, if_pos (Nat.le_refl _)]
    have e : (vals m qs).take qs.length = vals m qs :=
      List.take_of_length_le (by rw [vals_length])
    simp only [List.drop_zero, Nat.sub_zero, e, vals_append, List.flatten_append]
    rfl)
  unfold HashMapBuffer.appendColumnar
  rw [ho.points.layout_eq, assertThat_true (decide_eq_true rfl)]
  simp only [bind, Except.bind, ho.points.len_eq, List.length_map] at this ⊢
  rw [this]
  simp [pure, Except.pure]

end Pasture
