import Verif.Lemmas.Append

/-! # Collecting iterators, filtering, attribute pushing -/

namespace Pasture

open Spec BorrowedBuffer BorrowedMutBuffer OwningBuffer

theorem forLoop_zipIdx {α σ : Type} {f : σ → α × Nat → Out σ} {g : σ → Nat → Out σ} :
    ∀ (xs : List α) (k : Nat) (_ : ∀ i x s, xs[i]? = some x → f s (x, k + i) = g s (k + i)) (s : σ),
    forLoop (xs.zipIdx k) s f = forLoop (List.range' k xs.length) s g := by
  intro xs
  induction xs with
  | nil => intro k _ s; rfl
  | cons x xs ih =>
    intro k h s
    have h0 := h 0 x s (by simp)
    rw [Nat.add_zero] at h0
    rw [List.zipIdx_cons, List.length_cons, List.range'_succ, forLoop_cons, forLoop_cons, h0]
    congr 1
    funext s'
    apply ih
    intro i y s hy
    have := h (i + 1) y s (by simpa using hy)
    rw [show k + (i + 1) = k + 1 + i by omega] at this
    exact this

theorem forLoop_map {α β σ : Type} (g : α → β) (f : σ → β → Out σ) : ∀ (xs : List α) (s : σ),
    forLoop (xs.map g) s f = forLoop xs s fun s x => f s (g x) := by
  intro xs
  induction xs with
  | nil => intro s; rfl
  | cons x xs ih =>
    intro s
    rw [List.map_cons, forLoop_cons, forLoop_cons]
    congr 1
    funext s'
    exact ih s'

theorem modify_const {α : Type} (ys : List α) (k : Nat) (v : α) : ys.modify k (fun _ => v) = ys.set k v := by
  apply List.ext_getElem?
  intro j
  rw [List.getElem?_modify, List.getElem?_set]
  by_cases hj : k = j
  · subst hj
    by_cases hk : k < ys.length
    · simp [hk]
    · simp [hk]
  · simp [hj]

/-! ### collecting -/

/-- Pushing points one by one. -/
theorem push_each {β : Type} [OwningBuffer β] [HoldsRecords β] {l : PointLayout} (hl : Solid l) :
    ∀ (points : List Bytes) (rs : List Bytes), AllLen l.size rs → AllLen l.size points →
    forLoop points (HoldsRecords.ofRecords l rs : β) (fun b p => pushPoints b p) =
      .ok (HoldsRecords.ofRecords l (rs ++ points)) := by
  intro points
  induction points with
  | nil => intro rs _ _; simp
  | cons p ps ih =>
    intro rs h hp
    obtain ⟨h1, h2⟩ := AllLen.cons_iff.1 hp
    have hstep := HoldsRecords.step_eq (β := β) hl h (.pushPoints p) (by
      show p.length % l.size = 0
      rw [h1, Nat.mod_self])
    have hstep : pushPoints (HoldsRecords.ofRecords l rs : β) p =
        .ok (HoldsRecords.ofRecords l (rs ++ recordsOf l.size (p.length / l.size) p)) := hstep
    have e : recordsOf l.size (p.length / l.size) p = [p] := by
      rw [h1, Nat.div_self hl.size_pos]
      simp [recordsOf, window_zero_full h1]
    rw [e] at hstep
    rw [forLoop_cons, hstep]
    simp only [Except.bind]
    rw [ih _ (h.append (by simp [AllLen, h1])) h2]
    simp

theorem mapIdx_overwrite {α : Type} (xs ys : List α) (h : ys.length ≤ xs.length)
    {F : Nat → α → α} (hF : ∀ k x y, ys[k]? = some y → F k x = y) :
    (xs.mapIdx fun j x => if 0 ≤ j ∧ j < 0 + ys.length then F (j - 0) x else x) = overwrite xs 0 ys := by
  apply List.ext_getElem?
  intro j
  rw [List.getElem?_mapIdx]
  unfold overwrite
  simp only [Nat.zero_add, List.take_zero, List.nil_append, Nat.zero_le, true_and, Nat.sub_zero]
  by_cases hj : j < ys.length
  · rw [List.getElem?_append_left hj, List.getElem?_eq_getElem hj,
      List.getElem?_eq_getElem (show j < xs.length by omega)]
    simp only [Option.map_some, if_pos hj]
    rw [hF j _ _ (List.getElem?_eq_getElem hj)]
  · rw [List.getElem?_append_right (by omega), List.getElem?_drop,
      show ys.length + (j - ys.length) = j by omega]
    cases xs[j]? <;> simp [hj]

/-- Collecting with an upper bound. -/
theorem fromIter_bound {l : PointLayout} {points : List Bytes} (hp : AllLen l.size points) {n : Nat}
    (hn : points.length ≤ n) :
    VectorBuffer.fromIter l points (some n) =
      .ok (Interleaved.ofRecords l (points ++ List.replicate (n - points.length) (zeros l.size))) := by
  have hz : (zeros l.size).length = l.size := by simp [zeros]
  have hinit : (⟨zeros (n * l.size), l, n⟩ : VectorBuffer) =
      Interleaved.ofRecords l (List.replicate n (zeros l.size)) := by
    simp [Interleaved.ofRecords, zeros]
  show forLoop points.zipIdx (⟨zeros (n * l.size), l, n⟩ : VectorBuffer) (fun b (p, i) =>
    Interleaved.setPoint b i p) = _
  rw [hinit, forLoop_zipIdx (g := fun b i => Interleaved.setPoint b i ((points[i]?).getD [])) points 0
    (by intro i x s hx; simp [hx])]
  have := modify_loop (σ := VectorBuffer) (rep := Interleaved.ofRecords l) (inv := AllLen l.size)
    (fun k _ => (points[k]?).getD [])
    (body := fun b i => Interleaved.setPoint b i ((points[i]?).getD [])) 0 points.length 0
    (List.replicate n (zeros l.size)) (AllLen.replicate hz n) (by
      intro k ys hk hys hlen
      rw [List.length_replicate] at hlen
      have e := List.getElem?_eq_getElem hk
      have hlk := hp.getElem e
      simp only [Nat.zero_add, e, Option.getD_some]
      rw [modify_const]
      exact ⟨Interleaved.write_block hys (by omega) hlk, hys.set hlk k⟩)
  rw [this]
  congr 2
  rw [mapIdx_overwrite _ points (by simpa using hn) (F := fun k _ => (points[k]?).getD [])
    (by intro k x y hy; simp [hy])]
  simp [overwrite]

/-- An upper bound that is too small. -/
theorem fromIter_short {l : PointLayout} (hl : Solid l) {points : List Bytes} (hp : AllLen l.size points)
    {n : Nat} (hn : n < points.length) :
    VectorBuffer.fromIter l points (some n) = .error .panic := by
  have h1 := fromIter_bound (l := l) (points := points.take n) (hp.take n) (n := n) (by simp)
  have h1 : forLoop (points.take n).zipIdx (⟨zeros (n * l.size), l, n⟩ : VectorBuffer) (fun b (p, i) =>
    Interleaved.setPoint b i p) = _ := h1
  show forLoop points.zipIdx (⟨zeros (n * l.size), l, n⟩ : VectorBuffer) (fun b (p, i) =>
    Interleaved.setPoint b i p) = _
  have e : points.zipIdx = (points.take n).zipIdx ++ (points[n], n) :: (points.drop (n + 1)).zipIdx (n + 1) := by
    conv_lhs => rw [← List.take_append_drop n points]
    rw [List.zipIdx_append, List.drop_eq_getElem_cons hn, List.zipIdx_cons]
    simp [show min n points.length = n by omega]
  have hlen : (List.take n points).length = n := by simp; omega
  rw [e, forLoop_append, h1]
  simp only [Except.bind]
  rw [forLoop_cons, Interleaved.setPoint_panic ((hp.take n).append (AllLen.replicate (by simp [zeros]) _))
    hl.size_pos (by simp [show min n points.length = n by omega])]
  rfl

/-! ### filtering -/

/-- The selected records. -/
def sel (rs : List Bytes) (idxs : List Nat) : List Bytes := idxs.map fun i => (rs[i]?).getD []

theorem sel_allLen {n : Nat} {rs : List Bytes} (h : AllLen n rs) {idxs : List Nat}
    (hi : ∀ i ∈ idxs, i < rs.length) : AllLen n (sel rs idxs) := by
  intro r hr
  obtain ⟨i, hi', rfl⟩ := List.mem_map.1 hr
  rw [List.getElem?_eq_getElem (hi i hi')]
  exact h _ (List.getElem_mem _)

theorem vals_sel {rs : List Bytes} {idxs : List Nat} (hi : ∀ i ∈ idxs, i < rs.length) (m : Member) :
    vals m (sel rs idxs) = sel (vals m rs) idxs := by
  unfold vals sel
  rw [List.map_map]
  apply List.map_congr_left
  intro i h
  simp [List.getElem?_eq_getElem (hi i h)]

theorem filter_column_loop {sz : Nat} {vs ds : List Bytes} (hvs : AllLen sz vs) (hds : AllLen sz ds)
    {idxs : List Nat} (hi : ∀ i ∈ idxs, i < vs.length) (hlen : ds.length = idxs.length) :
    (forLoop idxs.zipIdx ds.flatten fun dst (si, di) => do
      let v ← sliceGet vs.flatten (si * sz) ((si + 1) * sz)
      slicePut dst (di * sz) ((di + 1) * sz) v) = .ok (sel vs idxs).flatten := by
  rw [forLoop_zipIdx (g := fun dst i => do
    let v ← sliceGet vs.flatten ((idxs[i]?).getD 0 * sz) (((idxs[i]?).getD 0 + 1) * sz)
    slicePut dst (i * sz) ((i + 1) * sz) v) idxs 0 (by intro i x s hx; simp [hx])]
  have hsel := sel_allLen hvs hi
  have hsl : (sel vs idxs).length = idxs.length := by simp [sel]
  rw [modify_loop (rep := List.flatten) (inv := AllLen sz) (fun k _ => ((sel vs idxs)[k]?).getD []) 0
    idxs.length 0 ds hds (by
      intro k ys hk hys hyl
      have e := List.getElem?_eq_getElem hk
      have hik : idxs[k] < vs.length := hi _ (List.getElem_mem hk)
      have ev := List.getElem?_eq_getElem hik
      have es : (sel vs idxs)[k]? = some vs[idxs[k]] := by simp [sel, e, ev]
      simp only [Nat.zero_add, e, Option.getD_some, es]
      have hlk := hvs.getElem ev
      rw [modify_const]
      refine ⟨?_, hys.set hlk k⟩
      have h1 : sliceGet vs.flatten (idxs[k] * sz) ((idxs[k] + 1) * sz) = .ok vs[idxs[k]] := by
        rw [Nat.succ_mul, sliceGet_ok (by rw [hvs.flatten_length]; exact Interleaved.block_end_le hik),
          window_block hvs ev]
      simp only [h1, bind, Except.bind]
      rw [Nat.succ_mul, slicePut_ok (by omega)
        (by rw [hys.flatten_length]; exact Interleaved.block_end_le (by omega))]
      have := put_blocks hys (ds := [vs[idxs[k]]]) (by simp [AllLen, hlk]) k
      rw [overwrite_singleton _ (by omega)] at this
      rw [← this]
      simp)]
  congr 2
  have := mapIdx_overwrite ds (sel vs idxs) (by omega) (F := fun k _ => ((sel vs idxs)[k]?).getD [])
    (by intro k x y hy; simp [hy])
  rw [hsl] at this
  rw [this]
  simp [overwrite, hsl, ← hlen]

/-- One attribute of the selected records written into a record. -/
theorem filter_record_loop {l : PointLayout} {vs ds : List Bytes} {m : Member} (hm : m.offset + m.size ≤ l.size)
    (hvs : AllLen m.size vs) (hds : AllLen l.size ds)
    {idxs : List Nat} (hi : ∀ i ∈ idxs, i < vs.length) (hlen : ds.length = idxs.length) :
    (forLoop idxs.zipIdx ds.flatten fun dst (si, di) => do
      let start := m.offset + di * l.size
      let v ← sliceGet vs.flatten (si * m.size) ((si + 1) * m.size)
      slicePut dst start (start + m.size) v) =
        .ok (ds.mapIdx fun k d => overwrite d m.offset (((sel vs idxs)[k]?).getD [])).flatten := by
  rw [forLoop_zipIdx (g := fun dst i => do
    let v ← sliceGet vs.flatten ((idxs[i]?).getD 0 * m.size) (((idxs[i]?).getD 0 + 1) * m.size)
    slicePut dst (m.offset + i * l.size) (m.offset + i * l.size + m.size) v) idxs 0
    (by intro i x s hx; simp [hx])]
  rw [modify_loop (rep := List.flatten) (inv := AllLen l.size)
    (fun k d => overwrite d m.offset (((sel vs idxs)[k]?).getD [])) 0
    idxs.length 0 ds hds (by
      intro k ys hk hys hyl
      have e := List.getElem?_eq_getElem hk
      have hik : idxs[k] < vs.length := hi _ (List.getElem_mem hk)
      have ev := List.getElem?_eq_getElem hik
      have es : (sel vs idxs)[k]? = some vs[idxs[k]] := by simp [sel, e, ev]
      simp only [Nat.zero_add, e, Option.getD_some, es]
      have hlk := hvs.getElem ev
      have hb := Interleaved.block_end_le (sz := l.size) (show k < ys.length by omega)
      refine ⟨?_, allLen_modify hys k (fun r hr => by rw [length_overwrite (by omega), hr])⟩
      have h1 : sliceGet vs.flatten (idxs[k] * m.size) ((idxs[k] + 1) * m.size) = .ok vs[idxs[k]] := by
        rw [Nat.succ_mul, sliceGet_ok (by rw [hvs.flatten_length]; exact Interleaved.block_end_le hik),
          window_block hvs ev]
      simp only [h1, bind, Except.bind]
      rw [slicePut_ok (by omega) (by rw [hys.flatten_length]; omega), Nat.add_comm m.offset,
        put_flatten hys (by omega) m.offset _ (by omega)])]
  congr 2
  apply List.ext_getElem?
  intro j
  rw [List.getElem?_mapIdx, List.getElem?_mapIdx]
  cases hj : ds[j]? with
  | none => rfl
  | some d =>
    have := (List.getElem?_eq_some_iff.1 hj).1
    simp [show j < idxs.length by omega]

/-- Overlay the first records of `ts` with the attributes `ms` of `qs`. -/
def overlay (ms : List Member) (qs ts : List Bytes) : List Bytes :=
  ts.mapIdx fun i r =>
    if i < qs.length then scatter ms (fun m => window ((qs[i]?).getD []) m.offset m.size) r else r

theorem overlay_allLen {l : PointLayout} (hl : Orderly l) {qs ts : List Bytes} (hq : AllLen l.size qs)
    (ht : AllLen l.size ts) : ∀ ms : List Member, (∀ m ∈ ms, m ∈ l.attributes) →
    AllLen l.size (overlay ms qs ts) := by
  intro ms hms
  apply allLen_mapIdx ht
  intro i r hr
  split
  · next h =>
    have e := List.getElem?_eq_getElem h
    rw [e]
    have hqi := hq.getElem e
    have : ∀ (ms : List Member) (r : Bytes), (∀ m ∈ ms, m ∈ l.attributes) → r.length = l.size →
        (scatter ms (fun m => window qs[i] m.offset m.size) r).length = l.size := by
      intro ms
      induction ms with
      | nil => intro r _ hr; exact hr
      | cons m ms ih =>
        intro r hms hr
        have hin := hl.inside m (hms m (by simp))
        have hwl := Interleaved.length_window_member hqi hin
        exact ih _ (fun x hx => hms x (by simp [hx])) (by
          show (overwrite r m.offset (window qs[i] m.offset m.size)).length = _
          rw [length_overwrite (by omega), hr])
    exact this ms r hms hr
  · exact hr

theorem overlay_points {l : PointLayout} (hl : Orderly l) {qs ts : List Bytes} (hq : AllLen l.size qs)
    (ht : AllLen l.size ts) (hlen : qs.length ≤ ts.length) :
    (overlay l.attributes qs ts).map (pointOf l) = (overwrite ts 0 qs).map (pointOf l) := by
  apply List.ext_getElem?
  intro i
  rw [List.getElem?_map, List.getElem?_map]
  unfold overlay overwrite
  rw [List.getElem?_mapIdx]
  simp only [List.take_zero, List.nil_append, Nat.zero_add]
  by_cases hi : i < qs.length
  · have e := List.getElem?_eq_getElem hi
    have et := List.getElem?_eq_getElem (show i < ts.length by omega)
    rw [List.getElem?_append_left hi, e, et]
    simp only [Option.map_some, if_pos hi, Option.getD_some]
    congr 1
    exact (scatter_spec hl (fun m hm => Interleaved.length_window_member (hq.getElem e) (hl.inside m hm)) _
      (ht.getElem et)).2
  · rw [List.getElem?_append_right (by omega), List.getElem?_drop,
      show qs.length + (i - qs.length) = i by omega]
    cases ts[i]? <;> simp [hi]

theorem overlay_snoc {qs ts : List Bytes} (ms : List Member) (m : Member) :
    overlay (ms ++ [m]) qs ts = (overlay ms qs ts).mapIdx fun i r =>
      if i < qs.length then overwrite r m.offset (window ((qs[i]?).getD []) m.offset m.size) else r := by
  unfold overlay scatter
  apply List.ext_getElem?
  intro i
  simp only [List.getElem?_mapIdx]
  cases ts[i]? with
  | none => rfl
  | some r =>
    simp only [Option.map_some]
    by_cases hi : i < qs.length
    · simp [if_pos hi, List.foldl_append]
    · simp [if_neg hi]

theorem setAttrs_vals {qs ts : List Bytes} {m : Member} {n : Nat} (hm : m.offset + m.size ≤ n)
    (hq : AllLen n qs) :
    HashMapBuffer.setAttrs m 0 qs.length (vals m qs).flatten ts = ts.mapIdx fun i r =>
      if i < qs.length then overwrite r m.offset (window ((qs[i]?).getD []) m.offset m.size) else r := by
  unfold HashMapBuffer.setAttrs
  apply List.ext_getElem?
  intro i
  rw [List.getElem?_mapIdx, List.getElem?_mapIdx]
  cases ts[i]? with
  | none => rfl
  | some r =>
    simp only [Option.map_some, Nat.zero_le, true_and, Nat.sub_zero]
    by_cases hi : i < qs.length
    · rw [if_pos hi, if_pos hi]
      have e : (vals m qs)[i]? = some (window ((qs[i]?).getD []) m.offset m.size) := by
        simp [vals, List.getElem?_eq_getElem hi]
      rw [window_block (vals_allLen hq hm) e]
    · rw [if_neg hi, if_neg hi]

namespace HashMapBuffer

theorem matching_lt (b : HashMapBuffer) (p : Nat → Bool) : ∀ i ∈ b.matching p, i < b.length := by
  intro i hi
  unfold matching at hi
  simpa using (List.mem_filter.1 hi).1

/-- `filter_into` with a columnar target. -/
theorem filterIntoColumnar_ok {l : PointLayout} (hl : Orderly l) {rs ts : List Bytes} (h : AllLen l.size rs)
    (ht : AllLen l.size ts) (p : Nat → Bool) (hint : Option Nat)
    (hn : ((ofRecords l rs).matching p).length ≤ ts.length)
    (hh : hint.getD ((ofRecords l rs).matching p).length = ((ofRecords l rs).matching p).length) :
    (ofRecords l rs).filterIntoColumnar (ofRecords l ts) p hint =
      .ok (ofRecords l (overwrite ts 0 (sel rs ((ofRecords l rs).matching p)))) := by
  have hlt := matching_lt (ofRecords l rs) p
  have hlt : ∀ i ∈ (ofRecords l rs).matching p, i < rs.length := hlt
  generalize hidx : (ofRecords l rs).matching p = idxs at *
  have hq := sel_allLen h hlt
  have hql : (sel rs idxs).length = idxs.length := by simp [sel]
  have key : ∀ (suf pre : List Member), (∀ m ∈ pre ++ suf, m ∈ l.attributes) →
      (forLoop suf (ofRecords l (overlay pre (sel rs idxs) ts)) fun target m => do
        let src ← (ofRecords l rs).getAttributeRangeRef m.definition ⟨0, rs.length⟩
        ColumnarBufferMut.getAttributeRangeMut target m.definition ⟨0, idxs.length⟩ fun dst =>
          forLoop idxs.zipIdx dst fun dst (si, di) => do
            let v ← sliceGet src (si * m.size) ((si + 1) * m.size)
            slicePut dst (di * m.size) ((di + 1) * m.size) v) =
        .ok (ofRecords l (overlay (pre ++ suf) (sel rs idxs) ts)) := by
    intro suf
    induction suf with
    | nil => intro pre _; simp
    | cons m suf ih =>
      intro pre hms
      have hm := hms m (by simp)
      have hin := hl.inside m hm
      have hov := overlay_allLen hl hq ht pre (fun x hx => hms x (by simp [hx]))
      have hol : (overlay pre (sel rs idxs) ts).length = ts.length := by simp [overlay]
      have hv := vals_allLen h hin
      have h1 := getAttributeRangeRef_ok hl h hm (Nat.zero_le rs.length) (Nat.le_refl _)
      have e1 : ((vals m rs).drop 0).take (rs.length - 0) = vals m rs := by
        rw [List.drop_zero, Nat.sub_zero, List.take_of_length_le (by rw [vals_length])]
      rw [e1] at h1
      have h2 := getAttributeRangeMut_ok hl hov hm (Nat.zero_le idxs.length) (by omega)
        (f := fun dst => forLoop idxs.zipIdx dst fun dst (si, di) => do
            let v ← sliceGet (vals m rs).flatten (si * m.size) ((si + 1) * m.size)
            slicePut dst (di * m.size) ((di + 1) * m.size) v)
        (filter_column_loop hv (((vals_allLen hov hin).drop 0).take (idxs.length - 0))
          (idxs := idxs) (by rw [vals_length]; exact hlt) (by simp [vals_length]; omega))
        (by rw [(sel_allLen hv (by rw [vals_length]; exact hlt)).flatten_length]; simp [sel])
      have h2 : ColumnarBufferMut.getAttributeRangeMut (ofRecords l (overlay pre (sel rs idxs) ts))
        m.definition ⟨0, idxs.length⟩ _ = _ := h2
      rw [forLoop_cons]
      simp only [bind, Except.bind] at h1 h2 ⊢
      rw [h1]
      simp only
      rw [h2]
      simp only
      have e3 := setAttrs_vals (ts := overlay pre (sel rs idxs) ts) hin hq
      rw [← overlay_snoc, vals_sel hlt, hql] at e3
      rw [e3]
      have := ih (pre ++ [m]) (by simpa using hms)
      simp only [bind, Except.bind] at this
      rw [this]
      simp
  have e0 : overlay [] (sel rs idxs) ts = ts := by
    unfold overlay scatter
    apply List.ext_getElem?
    intro i
    rw [List.getElem?_mapIdx]
    cases ts[i]? <;> simp
  have := key l.attributes [] (by simp)
  rw [e0, List.nil_append] at this
  unfold filterIntoColumnar
  rw [hidx, assertThat_true (decide_eq_true (show BorrowedBuffer.layout (ofRecords l ts) = l from rfl))]
  simp only [bind, Except.bind, hh] at this ⊢
  rw [assertThat_true (decide_eq_true (show idxs.length ≤ len (ofRecords l ts) from hn))]
  simp only
  rw [this, ofRecords_congr (overlay_points hl hq ht (by omega))]

/-- `filter_into` with an interleaved target: the points. -/
theorem filterIntoInterleaved_ok {l : PointLayout} (hl : Orderly l) {rs ts : List Bytes} (h : AllLen l.size rs)
    (ht : AllLen l.size ts) (p : Nat → Bool) (hint : Option Nat)
    (hn : ((ofRecords l rs).matching p).length ≤ ts.length)
    (hh : hint.getD ((ofRecords l rs).matching p).length = ((ofRecords l rs).matching p).length) :
    ∃ us, AllLen l.size us ∧ us.map (pointOf l) =
        (overwrite ts 0 (sel rs ((ofRecords l rs).matching p))).map (pointOf l) ∧
      us.drop ((ofRecords l rs).matching p).length = ts.drop ((ofRecords l rs).matching p).length ∧
      (ofRecords l rs).filterIntoInterleaved (Interleaved.ofRecords l ts) p hint =
        .ok (Interleaved.ofRecords l us) := by
  have hlt : ∀ i ∈ (ofRecords l rs).matching p, i < rs.length := matching_lt (ofRecords l rs) p
  generalize hidx : (ofRecords l rs).matching p = idxs at *
  have hq := sel_allLen h hlt
  have hql : (sel rs idxs).length = idxs.length := by simp [sel]
  have htk : (ts.take idxs.length).length = idxs.length := by simp; omega
  have hv : ∀ k, k < idxs.length → ∀ m ∈ l.attributes,
      (((sel (vals m rs) idxs)[k]?).getD []) = window (((sel rs idxs)[k]?).getD []) m.offset m.size := by
    intro k hk m hm
    rw [← vals_sel hlt, List.getElem?_eq_getElem (show k < (sel rs idxs).length by omega)]
    simp [vals, List.getElem?_eq_getElem (show k < (sel rs idxs).length by omega)]
  have hlay := layers_loop (l := l) (n := idxs.length)
    (v := fun k m => ((sel (vals m rs) idxs)[k]?).getD [])
    (body := fun dst m => do
      let src ← (ofRecords l rs).getAttributeRangeRef m.definition ⟨0, rs.length⟩
      forLoop idxs.zipIdx dst fun dst (si, di) => do
        let start := m.offset + di * l.size
        let v ← sliceGet src (si * m.size) ((si + 1) * m.size)
        slicePut dst start (start + m.size) v) l.attributes (by
      intro m hm ds hds hdl
      have hin := hl.inside m hm
      have h1 := getAttributeRangeRef_ok hl h hm (Nat.zero_le rs.length) (Nat.le_refl _)
      have e1 : ((vals m rs).drop 0).take (rs.length - 0) = vals m rs := by
        rw [List.drop_zero, Nat.sub_zero, List.take_of_length_le (by rw [vals_length])]
      rw [e1] at h1
      have h2 := filter_record_loop hin (vals_allLen h hin) hds (idxs := idxs)
        (by rw [vals_length]; exact hlt) hdl
      simp only [bind, Except.bind] at h1 h2 ⊢
      rw [h1]
      exact h2) (by
      intro m hm k hk
      have hin := hl.inside m hm
      have hqk := hq.getElem (List.getElem?_eq_getElem (show k < (sel rs idxs).length by omega))
      simp only [hv k hk m hm]
      rw [List.getElem?_eq_getElem (show k < (sel rs idxs).length by omega), Option.getD_some,
        Interleaved.length_window_member hqk hin]
      exact hin) (ts.take idxs.length) (ht.take _) htk
  have hov : (ts.take idxs.length).mapIdx (fun k d => scatter l.attributes
      (fun m => ((sel (vals m rs) idxs)[k]?).getD []) d) =
      (overlay l.attributes (sel rs idxs) ts).take idxs.length := by
    apply List.ext_getElem?
    intro k
    rw [List.getElem?_mapIdx, List.getElem?_take, List.getElem?_take]
    unfold overlay
    rw [List.getElem?_mapIdx]
    by_cases hk : k < idxs.length
    · rw [if_pos hk, if_pos hk]
      cases ts[k]? with
      | none => rfl
      | some t =>
        simp only [Option.map_some, hql, if_pos hk]
        congr 1
        have : ∀ (ms : List Member) (t : Bytes), (∀ m ∈ ms, m ∈ l.attributes) →
            scatter ms (fun m => ((sel (vals m rs) idxs)[k]?).getD []) t =
            scatter ms (fun m => window (((sel rs idxs)[k]?).getD []) m.offset m.size) t := by
          intro ms
          induction ms with
          | nil => intro t _; rfl
          | cons m ms ih =>
            intro t hms
            have := ih (overwrite t m.offset (window (((sel rs idxs)[k]?).getD []) m.offset m.size))
              (fun x hx => hms x (by simp [hx]))
            unfold scatter at this ⊢
            rw [List.foldl_cons, List.foldl_cons]
            simp only [hv k hk m (hms m (by simp))]
            exact this
        exact this _ t (fun _ h => h)
    · rw [if_neg hk, if_neg hk]; rfl
  rw [hov] at hlay
  have hoa := overlay_allLen hl hq ht l.attributes (fun _ h => h)
  have hol : (overlay l.attributes (sel rs idxs) ts).length = ts.length := by simp [overlay]
  refine ⟨overlay l.attributes (sel rs idxs) ts, hoa, overlay_points hl hq ht (by omega), ?_, ?_⟩
  · apply List.ext_getElem?
    intro i
    rw [List.getElem?_drop, List.getElem?_drop]
    unfold overlay
    rw [List.getElem?_mapIdx]
    cases ts[idxs.length + i]? <;> simp [hql]
  · unfold filterIntoInterleaved
    rw [hidx, assertThat_true (decide_eq_true (show BorrowedBuffer.layout (Interleaved.ofRecords l ts) = l from rfl))]
    simp only [bind, Except.bind, hh] at hlay ⊢
    rw [assertThat_true (decide_eq_true (show idxs.length ≤ len (Interleaved.ofRecords l ts) from hn))]
    simp only
    show (Interleaved.ofRecords l ts).update _ _ = _
    unfold Interleaved.update
    have hread : (Interleaved.ofRecords l ts).read ((Interleaved.ofRecords l ts).byteRangeOfPoints ⟨0, idxs.length⟩) =
        .ok (ts.take idxs.length).flatten := by
      have := Interleaved.getPointRangeRef_ok ht (r := ⟨0, idxs.length⟩) (Nat.zero_le _) hn
      simp only [List.drop_zero, Nat.sub_zero] at this
      exact this
    rw [hread]
    simp only [bind, Except.bind]
    rw [hlay]
    simp only
    have := Interleaved.setPointRange_ok ht (r := ⟨0, idxs.length⟩) (Nat.zero_le _) hn (hoa.take idxs.length)
      (by simp [hol]; omega)
    have this : (Interleaved.ofRecords l ts).write _ _ = _ := this
    rw [this]
    congr 2
    unfold overwrite
    simp only [List.take_zero, List.nil_append, Nat.zero_add, List.length_take, hol,
      show min idxs.length ts.length = idxs.length by omega]
    have e : ts.drop idxs.length = (overlay l.attributes (sel rs idxs) ts).drop idxs.length := by
      apply List.ext_getElem?
      intro i
      rw [List.getElem?_drop, List.getElem?_drop]
      unfold overlay
      rw [List.getElem?_mapIdx]
      cases ts[idxs.length + i]? <;> simp [hql]
    rw [e, List.take_append_drop]

end HashMapBuffer

end Pasture
