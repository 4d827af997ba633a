import Verif.Lemmas.Blocks
import Verif.Lemmas.Layout
import Verif.Model.VectorBuffer

/-!
# Interleaved buffers as lists of records
-/

namespace Pasture
open Spec

theorem Spec.Solid.size_pos {l : PointLayout} (h : Solid l) : 0 < l.size := by
  obtain ⟨m, hm⟩ := List.exists_mem_of_ne_nil _ h.nonempty
  have := h.positive m hm
  have := h.inside m hm
  omega

theorem matchesDef_iff (d : AttrDef) (m : Member) :
    PointLayout.matchesDef d m = decide (m.definition = d) := by
  cases m with | mk md mo =>
  cases md with | mk n t =>
  cases d with | mk n' t' =>
  simp only [PointLayout.matchesDef, Member.name, Member.datatype, AttrDef.mk.injEq]
  congr

theorem getAttribute_eq (l : PointLayout) (d : AttrDef) :
    l.getAttribute d = l.attributes.find? (fun m => m.definition = d) := by
  unfold PointLayout.getAttribute
  congr 1
  funext m
  exact matchesDef_iff d m

theorem find_def_some {l : PointLayout} {d : AttrDef} {m : Member}
    (h : l.attributes.find? (fun m => m.definition = d) = some m) :
    m ∈ l.attributes ∧ m.definition = d := by
  have h1 := List.find?_some h
  exact ⟨List.mem_of_find?_eq_some h, by simpa using h1⟩

theorem find_def_isSome {l : PointLayout} {d : AttrDef}
    (h : d ∈ l.attributes.map Member.definition) :
    ∃ m, l.attributes.find? (fun m => m.definition = d) = some m := by
  cases hf : l.attributes.find? (fun m => m.definition = d) with
  | some m => exact ⟨m, rfl⟩
  | none =>
    obtain ⟨m, hm, hd⟩ := List.mem_map.1 h
    have := List.find?_eq_none.1 hf m hm
    simp [hd] at this

theorem find_def_none {l : PointLayout} {d : AttrDef}
    (h : d ∉ l.attributes.map Member.definition) :
    l.attributes.find? (fun m => m.definition = d) = none := by
  rw [List.find?_eq_none]
  intro m hm hd
  exact h (List.mem_map.2 ⟨m, hm, by simpa using hd⟩)

theorem overwrite_singleton {α : Type} {xs : List α} {i : Nat} (x : α) (h : i < xs.length) :
    overwrite xs i [x] = xs.set i x := by
  rw [List.set_eq_take_append_cons_drop, if_pos h]
  simp [overwrite]

theorem allLen_modify {sz : Nat} {rs : List Bytes} (h : AllLen sz rs) (i : Nat)
    {f : Bytes → Bytes} (hf : ∀ r, r.length = sz → (f r).length = sz) : AllLen sz (rs.modify i f) := by
  intro r hr
  rw [List.mem_iff_getElem?] at hr
  obtain ⟨j, hj⟩ := hr
  rw [List.getElem?_modify] at hj
  cases hx : rs[j]? with
  | none => rw [hx] at hj; simp at hj
  | some x =>
    rw [hx] at hj
    have := h.getElem hx
    by_cases hij : i = j
    · simp [hij] at hj; rw [← hj]; exact hf x this
    · simp [hij] at hj; rw [← hj]; exact this

theorem allLen_mapIdx {sz : Nat} {rs : List Bytes} (h : AllLen sz rs)
    {f : Nat → Bytes → Bytes} (hf : ∀ i r, r.length = sz → (f i r).length = sz) :
    AllLen sz (rs.mapIdx f) := by
  intro r hr
  obtain ⟨i, hi, rfl⟩ := List.mem_mapIdx.1 hr
  exact hf _ _ (h _ (List.getElem_mem hi))

theorem allLen_exchange {sz : Nat} {rs : List Bytes} (h : AllLen sz rs) (i j : Nat) :
    AllLen sz (exchange rs i j) := by
  unfold exchange
  split
  · next a b ha hb => exact (h.set (h.getElem hb) i).set (h.getElem ha) j
  · exact h

namespace Interleaved

/-- The buffer holding the given records. -/
abbrev ofRecords (l : PointLayout) (rs : List Bytes) : Interleaved := ⟨rs.flatten, l, rs.length⟩

/-- Storage and length agree. -/
def Inv (b : Interleaved) : Prop := b.storage.length = b.length * b.layout.size

/-- The records of a buffer. -/
def records (b : Interleaved) : List Bytes := recordsOf b.layout.size b.length b.storage

theorem ofRecords_records {b : Interleaved} (h : b.Inv) : ofRecords b.layout b.records = b := by
  cases b
  simp only [records, ofRecords, recordsOf_length]
  rw [flatten_recordsOf h]

theorem records_allLen {b : Interleaved} (h : b.Inv) : AllLen b.layout.size b.records :=
  recordsOf_allLen h

theorem ofRecords_inv {l : PointLayout} {rs : List Bytes} (h : AllLen l.size rs) :
    (ofRecords l rs).Inv := by simp [Inv, h.flatten_length]

theorem records_ofRecords {l : PointLayout} {rs : List Bytes} (h : AllLen l.size rs) :
    (ofRecords l rs).records = rs := by
  unfold records ofRecords
  exact recordsOf_flatten h rfl

section
variable {l : PointLayout} {rs : List Bytes}

theorem succ_mul' (i n : Nat) : (i + 1) * n = i * n + n := Nat.succ_mul i n

theorem block_end_le {i n sz : Nat} (h : i < n) : i * sz + sz ≤ n * sz := by
  rw [← Nat.succ_mul]; exact Nat.mul_le_mul_right _ h

theorem block_end_gt {i n sz : Nat} (hsz : 0 < sz) (h : n ≤ i) : n * sz < i * sz + sz := by
  have := Nat.mul_le_mul_right sz h
  omega

/-! ### reads -/

theorem getPointRef_ok (h : AllLen l.size rs) {i : Nat} {r : Bytes} (hi : rs[i]? = some r) :
    (ofRecords l rs).getPointRef i = .ok r := by
  have hlt : i < rs.length := (List.getElem?_eq_some_iff.1 hi).1
  simp only [getPointRef, read, byteRangeOfPoint, Nat.succ_mul]
  rw [sliceGet_ok (by rw [h.flatten_length]; exact block_end_le hlt), window_block h hi]

theorem getPointRef_panic (h : AllLen l.size rs) (hsz : 0 < l.size) {i : Nat} (hi : rs.length ≤ i) :
    (ofRecords l rs).getPointRef i = .error .panic := by
  simp only [getPointRef, read, byteRangeOfPoint, Nat.succ_mul]
  exact sliceGet_panic (by rw [h.flatten_length]; exact block_end_gt hsz hi)

theorem getPointRangeRef_ok (h : AllLen l.size rs) {r : Rng} (h1 : r.start ≤ r.stop)
    (h2 : r.stop ≤ rs.length) :
    (ofRecords l rs).getPointRangeRef r = .ok ((rs.drop r.start).take (r.stop - r.start)).flatten := by
  simp only [getPointRangeRef, read, byteRangeOfPoints]
  exact sliceGet_blocks h h1 h2

theorem getPointRangeRef_panic (h : AllLen l.size rs) (hsz : 0 < l.size) {r : Rng}
    (h2 : rs.length < r.stop) :
    (ofRecords l rs).getPointRangeRef r = .error .panic := by
  simp only [getPointRangeRef, read, byteRangeOfPoints]
  exact sliceGet_panic (by rw [h.flatten_length]; exact Nat.mul_lt_mul_of_pos_right h2 hsz)

theorem getPoint_ok (h : AllLen l.size rs) {i : Nat} {r : Bytes} (hi : rs[i]? = some r) (data : Bytes)
    (hd : data.length = l.size) : (ofRecords l rs).getPoint i data = .ok r := by
  have := h.getElem hi
  simp [getPoint, getPointRef_ok h hi, copyFromSlice, hd, this, bind, Except.bind]

theorem getPoint_panic (h : AllLen l.size rs) (hsz : 0 < l.size) {i : Nat} (hi : rs.length ≤ i)
    (data : Bytes) : (ofRecords l rs).getPoint i data = .error .panic := by
  simp [getPoint, getPointRef_panic h hsz hi, bind, Except.bind]

theorem read_attribute_ok (h : AllLen l.size rs) {m : Member} (hm : m.offset + m.size ≤ l.size)
    {i : Nat} {r : Bytes} (hi : rs[i]? = some r) :
    (ofRecords l rs).read ((ofRecords l rs).byteRangeOfAttribute i m) =
      .ok (window r m.offset m.size) := by
  have hlt : i < rs.length := (List.getElem?_eq_some_iff.1 hi).1
  simp only [read, byteRangeOfAttribute]
  have := block_end_le (sz := l.size) hlt
  rw [sliceGet_ok (by rw [h.flatten_length]; omega), window_flatten h hi _ _ hm]

theorem read_attribute_panic (h : AllLen l.size rs) {m : Member} (hp : 0 < m.size)
    {i : Nat} (hi : rs.length ≤ i) :
    (ofRecords l rs).read ((ofRecords l rs).byteRangeOfAttribute i m) = .error .panic := by
  simp only [read, byteRangeOfAttribute]
  refine sliceGet_panic ?_
  rw [h.flatten_length]
  have := Nat.mul_le_mul_right l.size hi
  omega

theorem length_window_member {m : Member} {r : Bytes} {n : Nat} (hr : r.length = n)
    (hm : m.offset + m.size ≤ n) : (window r m.offset m.size).length = m.size :=
  length_window (by omega)

theorem getAttributeUnchecked_ok (h : AllLen l.size rs) {m : Member}
    (hm : m.offset + m.size ≤ l.size) {i : Nat} {r : Bytes} (hi : rs[i]? = some r) (data : Bytes)
    (hd : data.length = m.size) :
    (ofRecords l rs).getAttributeUnchecked m i data = .ok (window r m.offset m.size) := by
  simp [getAttributeUnchecked, read_attribute_ok h hm hi, copyFromSlice, hd,
    length_window_member (h.getElem hi) hm, bind, Except.bind]

theorem getAttributeUnchecked_panic (h : AllLen l.size rs) {m : Member} (hp : 0 < m.size)
    {i : Nat} (hi : rs.length ≤ i) (data : Bytes) :
    (ofRecords l rs).getAttributeUnchecked m i data = .error .panic := by
  simp [getAttributeUnchecked, read_attribute_panic h hp hi, bind, Except.bind]

/-! ### writes -/

theorem write_block (h : AllLen l.size rs) {i : Nat} (hi : i < rs.length) {data : Bytes}
    (hd : data.length = l.size) :
    (ofRecords l rs).setPoint i data = .ok (ofRecords l (rs.set i data)) := by
  simp only [setPoint, write, byteRangeOfPoint, Nat.succ_mul]
  rw [slicePut_ok (by omega) (by rw [h.flatten_length]; exact block_end_le hi)]
  have := put_blocks h (ds := [data]) (by simp [AllLen, hd]) i
  simp only [List.flatten_cons, List.flatten_nil, List.append_nil] at this
  simp only [bind, Except.bind, pure, Except.pure]
  rw [this, overwrite_singleton _ hi]
  simp

theorem setPoint_panic (h : AllLen l.size rs) (hsz : 0 < l.size) {i : Nat} (hi : rs.length ≤ i)
    (data : Bytes) : (ofRecords l rs).setPoint i data = .error .panic := by
  simp only [setPoint, write, byteRangeOfPoint, Nat.succ_mul]
  rw [slicePut_panic (by rw [h.flatten_length]; exact block_end_gt hsz hi)]
  rfl

theorem setPointRange_ok (h : AllLen l.size rs) {r : Rng} (h1 : r.start ≤ r.stop)
    (h2 : r.stop ≤ rs.length) {ds : List Bytes} (hds : AllLen l.size ds)
    (hl : ds.length = r.stop - r.start) :
    (ofRecords l rs).setPointRange r ds.flatten = .ok (ofRecords l (overwrite rs r.start ds)) := by
  simp only [setPointRange, write, byteRangeOfPoints]
  rw [slicePut_ok (by rw [hds.flatten_length, hl, ← Nat.add_mul]; congr 1; omega)
    (by rw [h.flatten_length]; exact Nat.mul_le_mul_right _ h2)]
  simp only [bind, Except.bind, pure, Except.pure, ofRecords]
  rw [put_blocks h hds, length_overwrite (by omega)]

theorem setPointRange_panic (h : AllLen l.size rs) (hsz : 0 < l.size) {r : Rng}
    (h2 : rs.length < r.stop) (data : Bytes) :
    (ofRecords l rs).setPointRange r data = .error .panic := by
  simp only [setPointRange, write, byteRangeOfPoints]
  rw [slicePut_panic (by rw [h.flatten_length]; exact Nat.mul_lt_mul_of_pos_right h2 hsz)]
  rfl

theorem write_attribute (h : AllLen l.size rs) {m : Member} (hm : m.offset + m.size ≤ l.size)
    {i : Nat} (hi : i < rs.length) {v : Bytes} (hv : v.length = m.size) :
    (ofRecords l rs).write ((ofRecords l rs).byteRangeOfAttribute i m) v =
      .ok (ofRecords l (rs.modify i fun r => overwrite r m.offset v)) := by
  simp only [write, byteRangeOfAttribute]
  have := block_end_le (sz := l.size) hi
  rw [slicePut_ok (by omega) (by rw [h.flatten_length]; omega)]
  simp only [bind, Except.bind, pure, Except.pure]
  rw [put_flatten h hi _ _ (by omega)]
  simp

theorem write_attribute_panic (h : AllLen l.size rs) {m : Member} (hp : 0 < m.size)
    {i : Nat} (hi : rs.length ≤ i) (v : Bytes) :
    (ofRecords l rs).write ((ofRecords l rs).byteRangeOfAttribute i m) v = .error .panic := by
  simp only [write, byteRangeOfAttribute]
  have := Nat.mul_le_mul_right l.size hi
  rw [slicePut_panic (by rw [h.flatten_length]; omega)]
  rfl

theorem setAttribute_ok (h : AllLen l.size rs) {d : AttrDef} {m : Member}
    (hf : l.attributes.find? (fun m => m.definition = d) = some m)
    (hm : m.offset + m.size ≤ l.size) {i : Nat} (hi : i < rs.length) {v : Bytes}
    (hv : v.length = m.size) :
    (ofRecords l rs).setAttribute d i v =
      .ok (ofRecords l (rs.modify i fun r => overwrite r m.offset v)) := by
  have e : (ofRecords l rs).layout.getAttribute d = some m := by
    rw [getAttribute_eq]; exact hf
  simp only [setAttribute, e, expectSome, bind, Except.bind]
  exact write_attribute h hm hi hv

theorem setAttribute_panic_index (h : AllLen l.size rs) {d : AttrDef} {m : Member}
    (hf : l.attributes.find? (fun m => m.definition = d) = some m)
    (hp : 0 < m.size) {i : Nat} (hi : rs.length ≤ i) (v : Bytes) :
    (ofRecords l rs).setAttribute d i v = .error .panic := by
  have e : (ofRecords l rs).layout.getAttribute d = some m := by
    rw [getAttribute_eq]; exact hf
  simp only [setAttribute, e, expectSome, bind, Except.bind]
  exact write_attribute_panic h hp hi v

/-! ### attribute ranges -/

/-- Records after the attribute of points `a .. a+k` has been overwritten. -/
def setAttrs (m : Member) (a k : Nat) (data : Bytes) (rs : List Bytes) : List Bytes :=
  rs.mapIdx fun i r =>
    if a ≤ i ∧ i < a + k then overwrite r m.offset (window data ((i - a) * m.size) m.size) else r

theorem setAttrs_length (m : Member) (a k : Nat) (data : Bytes) (rs : List Bytes) :
    (setAttrs m a k data rs).length = rs.length := by simp [setAttrs]

theorem setAttrs_allLen (h : AllLen l.size rs) {m : Member} (hm : m.offset + m.size ≤ l.size)
    (a k : Nat) (data : Bytes) : AllLen l.size (setAttrs m a k data rs) := by
  apply allLen_mapIdx h
  intro i r hr
  split
  · rw [length_overwrite]
    · exact hr
    · have : (window data ((i - a) * m.size) m.size).length ≤ m.size := by simp [window]
      omega
  · exact hr

theorem setAttrs_succ (m : Member) (a k : Nat) (data : Bytes) (rs : List Bytes) :
    (setAttrs m a k data rs).modify (a + k) (fun r => overwrite r m.offset (window data (k * m.size) m.size))
      = setAttrs m a (k + 1) data rs := by
  apply List.ext_getElem?
  intro j
  rw [List.getElem?_modify]
  simp only [setAttrs, List.getElem?_mapIdx]
  cases hj : rs[j]? with
  | none => simp
  | some r =>
    simp only [Option.map_some, Option.map_eq_map]
    by_cases e : a + k = j
    · subst e
      have h1 : ¬ (a ≤ a + k ∧ a + k < a + k) := by omega
      have h2 : (a ≤ a + k ∧ a + k < a + (k + 1)) := by omega
      simp [h2]
    · have h1 : (a ≤ j ∧ j < a + k) ↔ (a ≤ j ∧ j < a + (k + 1)) := by omega
      simp only [if_neg e, h1]

/-- The body of the `set_attribute_range` loop. -/
abbrev setBody (m : Member) (a : Nat) (data : Bytes) (b : Interleaved) (i : Nat) : Out Interleaved :=
  (sliceGet data ((i - a) * m.size) ((i - a + 1) * m.size)).bind
    fun src => b.write (b.byteRangeOfAttribute i m) src

theorem setBody_loop (h : AllLen l.size rs) {m : Member} (hm : m.offset + m.size ≤ l.size)
    (a : Nat) (data : Bytes) : ∀ k, a + k ≤ rs.length → k * m.size ≤ data.length →
      forLoop (List.range' a k) (ofRecords l rs) (setBody m a data) =
        .ok (ofRecords l (setAttrs m a k data rs)) := by
  intro k
  induction k with
  | zero =>
    intro _ _
    have : setAttrs m a 0 data rs = rs := by
      unfold setAttrs
      apply List.ext_getElem?
      intro i
      rw [List.getElem?_mapIdx]
      have : ¬ (a ≤ i ∧ i < a + 0) := by omega
      simp only [if_neg this]
      simp
    simp [this]
  | succ k ih =>
    intro h1 h2
    rw [Nat.succ_mul] at h2
    rw [List.range'_1_concat, forLoop_append, ih (by omega) (by omega)]
    simp only [Except.bind, forLoop_cons, forLoop_nil]
    have e : a + k - a = k := by omega
    have hw : (window data (k * m.size) m.size).length = m.size := length_window h2
    simp only [setBody, e, Nat.succ_mul]
    rw [sliceGet_ok h2]
    simp only [Except.bind]
    rw [write_attribute (setAttrs_allLen h hm a k data) hm (by rw [setAttrs_length]; omega) hw,
      setAttrs_succ]

theorem setAttributeRange_ok (h : AllLen l.size rs) {d : AttrDef} {m : Member}
    (hf : l.attributes.find? (fun m => m.definition = d) = some m)
    (hm : m.offset + m.size ≤ l.size) {r : Rng} (h1 : r.start ≤ r.stop) (h2 : r.stop ≤ rs.length)
    {data : Bytes} (hd : data.length = (r.stop - r.start) * m.size) :
    (ofRecords l rs).setAttributeRange d r data =
      .ok (ofRecords l (setAttrs m r.start (r.stop - r.start) data rs)) := by
  have e : (ofRecords l rs).layout.getAttribute d = some m := by
    rw [getAttribute_eq]; exact hf
  simp only [setAttributeRange, e, expectSome, bind, Except.bind, Rng.toList]
  exact setBody_loop h hm _ _ _ (by omega) (by omega)

theorem setAttributeRange_panic (h : AllLen l.size rs) {d : AttrDef} {m : Member}
    (hf : l.attributes.find? (fun m => m.definition = d) = some m)
    (hm : m.offset + m.size ≤ l.size) (hp : 0 < m.size) {r : Rng} (h1 : r.start < r.stop)
    (h2 : rs.length < r.stop)
    {data : Bytes} (hd : data.length = (r.stop - r.start) * m.size) :
    (ofRecords l rs).setAttributeRange d r data = .error .panic := by
  have e : (ofRecords l rs).layout.getAttribute d = some m := by
    rw [getAttribute_eq]; exact hf
  simp only [setAttributeRange, e, expectSome, bind, Except.bind, Rng.toList]
  -- run up to the first index that is out of range
  obtain ⟨a, b⟩ := r
  simp only at *
  have hk : (rs.length - a) * m.size + m.size ≤ (b - a) * m.size := by
    rw [← Nat.succ_mul]; exact Nat.mul_le_mul_right _ (by omega)
  have e2 : List.range' a (b - a) =
      List.range' a (rs.length - a) ++ (a + (rs.length - a)) ::
        List.range' (a + (rs.length - a) + 1) (b - a - (rs.length - a) - 1) := by
    rw [← List.range'_succ, List.range'_append_1]
    congr 1; omega
  rw [e2, forLoop_append]
  have key : forLoop (List.range' a (rs.length - a)) (ofRecords l rs) (setBody m a data) =
      .ok (ofRecords l (setAttrs m a (rs.length - a) data rs)) := by
    rcases Nat.lt_or_ge a rs.length with hlt | hge
    · exact setBody_loop h hm _ _ _ (by omega) (by omega)
    · rw [show rs.length - a = 0 by omega]
      have : setAttrs m a 0 data rs = rs := by
        unfold setAttrs
        apply List.ext_getElem?
        intro i
        rw [List.getElem?_mapIdx]
        have : ¬ (a ≤ i ∧ i < a + 0) := by omega
        simp only [if_neg this]
        simp
      simp [this]
  have key' : forLoop (List.range' a (rs.length - a)) (ofRecords l rs)
      (fun b i => do
        let src ← sliceGet data ((i - a) * m.size) ((i - a + 1) * m.size)
        b.write (b.byteRangeOfAttribute i m) src) = _ := key
  simp only [bind, Except.bind] at key'
  rw [key']
  simp only [Except.bind, forLoop_cons]
  have e3 : a + (rs.length - a) - a = rs.length - a := by omega
  rw [e3, Nat.succ_mul, sliceGet_ok (by omega)]
  simp only
  rw [write_attribute_panic (setAttrs_allLen h hm a _ data) hp (by rw [setAttrs_length]; omega)]

/-! ### swap -/

theorem swap_ok (h : AllLen l.size rs) {i j : Nat} (hi : i < rs.length) (hj : j < rs.length) :
    (ofRecords l rs).swap i j = .ok (ofRecords l (exchange rs i j)) := by
  have e1 := List.getElem?_eq_getElem hi
  have e2 := List.getElem?_eq_getElem hj
  have ex : exchange rs i j = (rs.set i rs[j]).set j rs[i] := by
    unfold exchange; rw [e1, e2]
  have ai : assertThat (decide (i < (ofRecords l rs).length)) = .ok () := by
    unfold assertThat; rw [if_pos (decide_eq_true hi)]
  have aj : assertThat (decide (j < (ofRecords l rs).length)) = .ok () := by
    unfold assertThat; rw [if_pos (decide_eq_true hj)]
  simp only [swap, ai, aj, bind, Except.bind, pure, Except.pure]
  rcases Nat.lt_trichotomy i j with hlt | heq | hgt
  · rw [if_neg (by omega)]
    have b1 := block_end_le (sz := l.size) hi
    have b2 := block_end_le (sz := l.size) hj
    have b3 := block_end_le (sz := l.size) hlt
    simp only [swapNonoverlapping]
    rw [if_pos (by rw [h.flatten_length]; exact ⟨b1, b2, .inl b3⟩)]
    have w1 := window_block h e1
    have w2 := window_block h e2
    unfold window at w1 w2
    simp only [w1, w2]
    have p1 := put_blocks h (ds := [rs[j]]) (by simp [AllLen]; exact h.getElem e2) i
    simp only [List.flatten_cons, List.flatten_nil, List.append_nil] at p1
    rw [p1, overwrite_singleton _ hi]
    have p2 := put_blocks (h.set (h.getElem e2) i) (ds := [rs[i]]) (by simp [AllLen]; exact h.getElem e1) j
    simp only [List.flatten_cons, List.flatten_nil, List.append_nil] at p2
    rw [p2, overwrite_singleton _ (by simpa using hj), ex]
    simp
  · subst heq
    rw [if_pos rfl, ex]
    simp
  · rw [if_neg (by omega)]
    have b1 := block_end_le (sz := l.size) hi
    have b2 := block_end_le (sz := l.size) hj
    have b3 := block_end_le (sz := l.size) hgt
    simp only [swapNonoverlapping]
    rw [if_pos (by rw [h.flatten_length]; exact ⟨b1, b2, .inr (.inl b3)⟩)]
    have w1 := window_block h e1
    have w2 := window_block h e2
    unfold window at w1 w2
    simp only [w1, w2]
    have p1 := put_blocks h (ds := [rs[j]]) (by simp [AllLen]; exact h.getElem e2) i
    simp only [List.flatten_cons, List.flatten_nil, List.append_nil] at p1
    rw [p1, overwrite_singleton _ hi]
    have p2 := put_blocks (h.set (h.getElem e2) i) (ds := [rs[i]]) (by simp [AllLen]; exact h.getElem e1) j
    simp only [List.flatten_cons, List.flatten_nil, List.append_nil] at p2
    rw [p2, overwrite_singleton _ (by simpa using hj), ex]
    simp

theorem swap_panic {i j : Nat} (hij : ¬ (i < rs.length ∧ j < rs.length)) :
    (ofRecords l rs).swap i j = .error .panic := by
  simp only [swap, assertThat, panicked]
  by_cases hi : i < rs.length
  · have hj : ¬ j < rs.length := fun hj => hij ⟨hi, hj⟩
    simp [hi, hj, bind, Except.bind]
  · simp [hi, bind, Except.bind]

/-! ### growing and shrinking -/

theorem pushPoints_ok (h : 0 < l.size) {ds : List Bytes} (hd : AllLen l.size ds) :
    VectorBuffer.pushPoints (ofRecords l rs) ds.flatten = .ok (ofRecords l (rs ++ ds)) := by
  simp only [VectorBuffer.pushPoints]
  rw [if_neg (by omega)]
  simp only [hd.flatten_length]
  simp [assertThat, bind, Except.bind, pure, Except.pure, Nat.mul_div_cancel _ h]

theorem resize_ok (h : AllLen l.size rs) (n : Nat) :
    VectorBuffer.resize (ofRecords l rs) n = ofRecords l (resized rs n (zeros l.size)) := by
  simp only [VectorBuffer.resize]
  rw [resize_blocks h]
  congr 1
  simp [resized]; omega

theorem clear_ok : VectorBuffer.clear (ofRecords l rs) = ofRecords l [] := rfl

end

end Interleaved
end Pasture
