import Verif.Lemmas.Columns

/-! # The columnar buffer that holds given records -/

namespace Pasture

open Spec

/-- The values of attribute `m` of the records. -/
def vals (m : Member) (rs : List Bytes) : List Bytes := rs.map fun r => window r m.offset m.size

theorem vals_length (m : Member) (rs : List Bytes) : (vals m rs).length = rs.length := by simp [vals]

theorem vals_allLen {n : Nat} {m : Member} {rs : List Bytes} (h : AllLen n rs) (hm : m.offset + m.size ≤ n) :
    AllLen m.size (vals m rs) := by
  intro v hv
  obtain ⟨r, hr, rfl⟩ := List.mem_map.1 hv
  exact length_window (by have := h r hr; omega)

namespace HashMapBuffer

/-- The columnar buffer holding the points that `rs` describe. -/
abbrev ofRecords (l : PointLayout) (rs : List Bytes) : HashMapBuffer :=
  ⟨colsOf l.attributes fun m => (vals m rs).flatten, l, rs.length⟩

theorem ofRecords_congr {l : PointLayout} {rs rs' : List Bytes}
    (h : rs.map (pointOf l) = rs'.map (pointOf l)) : ofRecords l rs = ofRecords l rs' := by
  have hlen : rs.length = rs'.length := by simpa using congrArg List.length h
  unfold ofRecords
  rw [hlen]
  congr 1
  apply List.map_congr_left
  intro m hm
  suffices hv : vals m rs = vals m rs' by simp only [hv]
  apply List.ext_getElem?
  intro i
  have := congrArg (fun x => x[i]?) h
  simp only [List.getElem?_map] at this
  simp only [vals, List.getElem?_map]
  cases h1 : rs[i]? <;> cases h2 : rs'[i]? <;> simp only [h1, h2, Option.map_some, Option.map_none] at this ⊢
  · cases this
  · cases this
  · have := Option.some.inj this
    unfold pointOf at this
    have := (List.map_inj_left.1 this) m hm
    rw [(Prod.mk.inj this).2]

section
variable {l : PointLayout} {rs : List Bytes}

theorem newFromLayout_eq (l : PointLayout) : newFromLayout l = ofRecords l [] := rfl

/-! ### single values -/

theorem col_get_ok (hl : Orderly l) (h : AllLen l.size rs) {m : Member} (hm : m ∈ l.attributes) {i : Nat}
    {r : Bytes} (hi : rs[i]? = some r) :
    sliceGet (vals m rs).flatten (byteRange i m.definition).start (byteRange i m.definition).stop =
      .ok (window r m.offset m.size) := by
  have hlt : i < rs.length := (List.getElem?_eq_some_iff.1 hi).1
  have ha := vals_allLen h (hl.inside m hm)
  have hb : i * m.size + m.size ≤ rs.length * m.size := Interleaved.block_end_le hlt
  show sliceGet _ (i * m.size) ((i + 1) * m.size) = _
  rw [Nat.succ_mul, sliceGet_ok (by rw [ha.flatten_length, vals_length]; omega)]
  rw [window_block ha (r := window r m.offset m.size)]
  simp [vals, hi]

theorem col_get_panic (hl : Solid l) (h : AllLen l.size rs) {m : Member} (hm : m ∈ l.attributes) {i : Nat}
    (hi : rs.length ≤ i) :
    sliceGet (vals m rs).flatten (byteRange i m.definition).start (byteRange i m.definition).stop =
      .error .panic := by
  have ha := vals_allLen h (hl.inside m hm)
  show sliceGet _ (i * m.size) ((i + 1) * m.size) = _
  rw [Nat.succ_mul]
  exact sliceGet_panic (by
    rw [ha.flatten_length, vals_length]; exact Interleaved.block_end_gt (hl.positive m hm) hi)

theorem col_put_ok (hl : Orderly l) (h : AllLen l.size rs) {m : Member} (hm : m ∈ l.attributes) {i : Nat}
    (hi : i < rs.length) {v : Bytes} (hv : v.length = m.size) :
    slicePut (vals m rs).flatten (byteRange i m.definition).start (byteRange i m.definition).stop v =
      .ok ((vals m rs).set i v).flatten := by
  have ha := vals_allLen h (hl.inside m hm)
  have hb : i * m.size + m.size ≤ rs.length * m.size := Interleaved.block_end_le hi
  show slicePut _ (i * m.size) ((i + 1) * m.size) _ = _
  rw [Nat.succ_mul, slicePut_ok (by omega) (by rw [ha.flatten_length, vals_length]; omega)]
  have := put_blocks ha (ds := [v]) (by simp [AllLen, hv]) i
  simp only [List.flatten_cons, List.flatten_nil, List.append_nil] at this
  rw [this, overwrite_singleton _ (by rw [vals_length]; exact hi)]

theorem col_put_panic (hl : Solid l) (h : AllLen l.size rs) {m : Member} (hm : m ∈ l.attributes) {i : Nat}
    (hi : rs.length ≤ i) (v : Bytes) :
    slicePut (vals m rs).flatten (byteRange i m.definition).start (byteRange i m.definition).stop v =
      .error .panic := by
  have ha := vals_allLen h (hl.inside m hm)
  show slicePut _ (i * m.size) ((i + 1) * m.size) _ = _
  rw [Nat.succ_mul]
  exact slicePut_panic (by
    rw [ha.flatten_length, vals_length]; exact Interleaved.block_end_gt (hl.positive m hm) hi)

theorem getAttribute_eq' (hl : Solid l) (h : AllLen l.size rs) (d : AttrDef) (i : Nat) (data : Bytes)
    (hd : data.length = d.size) :
    (ofRecords l rs).getAttribute d i data = answer (value? (rs.map (pointOf l)) d i) := by
  rw [value?_pointOf]
  by_cases hmem : d ∈ l.attributes.map Member.definition
  · obtain ⟨m, hf⟩ := find_def_isSome hmem
    obtain ⟨hm, e⟩ := find_def_some hf
    rw [hf]
    subst e
    have hg := colsOf_get hl (fun m => (vals m rs).flatten) hm
    simp only [getAttribute, hg, expectSome, bind, Except.bind]
    cases hr : rs[i]? with
    | none => rw [col_get_panic hl h hm (by simpa using hr)]; rfl
    | some r =>
      rw [col_get_ok hl h hm hr]
      simp only [copyFromSlice]
      rw [if_pos (by rw [hd, Interleaved.length_window_member (h.getElem hr) (hl.inside m hm)]; rfl)]
      rfl
  · have hg := colsOf_get_none (fun m => (vals m rs).flatten) hmem
    simp only [getAttribute, hg, expectSome, bind, Except.bind, find_def_none hmem]
    cases rs[i]? <;> rfl

theorem getAttributeUnchecked_eq' (hl : Solid l) (h : AllLen l.size rs) (m : Member)
    (i : Nat) (data : Bytes) (hd : data.length = m.size) :
    (ofRecords l rs).getAttributeUnchecked m i data =
      answer (value? (rs.map (pointOf l)) m.definition i) :=
  getAttribute_eq' hl h m.definition i data hd

theorem getAttributeUnchecked_panic (hl : Solid l) (h : AllLen l.size rs) (m : Member)
    (hm : m ∈ l.attributes) (i : Nat) (hi : rs.length ≤ i) (data : Bytes) :
    (ofRecords l rs).getAttributeUnchecked m i data = .error .panic := by
  have hg := colsOf_get hl (fun m => (vals m rs).flatten) hm
  simp only [getAttributeUnchecked, hg, expectSome, bind, Except.bind]
  rw [col_get_panic hl h hm hi]

/-! ### points -/

theorem scatter_loop (ms : List Member) {body : Bytes → Member → Out Bytes} {v : Member → Bytes} {n : Nat}
    (step : ∀ m ∈ ms, ∀ d : Bytes, d.length = n →
      body d m = .ok (overwrite d m.offset (v m)) ∧ m.offset + (v m).length ≤ n) :
    ∀ d : Bytes, d.length = n → forLoop ms d body = .ok (scatter ms v d) := by
  induction ms with
  | nil => intro d _; rfl
  | cons m ms ih =>
    intro d hd
    obtain ⟨h1, h2⟩ := step m (by simp) d hd
    rw [forLoop_cons, h1]
    exact ih (fun x hx => step x (by simp [hx])) _ (by rw [length_overwrite (by omega), hd])

theorem getPoint_ok (hl : Orderly l) (h : AllLen l.size rs) {i : Nat} {r : Bytes} (hi : rs[i]? = some r)
    (data : Bytes) (hd : data.length = l.size) :
    (ofRecords l rs).getPoint i data =
      .ok (scatter l.attributes (fun m => window r m.offset m.size) data) := by
  unfold getPoint
  apply scatter_loop (n := l.size) _ _ data hd
  intro m hm d hdl
  have hg := colsOf_get hl (fun m => (vals m rs).flatten) hm
  have hw := Interleaved.length_window_member (h.getElem hi) (hl.inside m hm)
  have hin := hl.inside m hm
  simp only [hg, expectSome, bind, Except.bind]
  rw [col_get_ok hl h hm hi]
  simp only
  rw [slicePut_ok (by rw [hw]; rfl) (by rw [hdl]; exact hin)]
  exact ⟨rfl, by omega⟩

theorem getPoint_panic (hl : Solid l) (h : AllLen l.size rs) {i : Nat} (hi : rs.length ≤ i) (data : Bytes) :
    (ofRecords l rs).getPoint i data = .error .panic := by
  unfold getPoint
  apply attrs_loop_fails hl
  intro m hm
  have hg := colsOf_get hl (fun m => (vals m rs).flatten) hm
  simp only [hg, expectSome, bind, Except.bind]
  rw [col_get_panic hl h hm hi]

/-- The inner loop of `get_point_range`: one attribute of every point. -/
theorem getPointRange_inner (hl : Orderly l) (h : AllLen l.size rs) {m : Member} (hm : m ∈ l.attributes)
    {s e : Nat} (he : e ≤ rs.length) (ds : List Bytes) (hds : AllLen l.size ds) (hlen : ds.length = e - s) :
    (forLoop (List.range' s (e - s)) ds.flatten fun data i => do
      let src ← sliceGet (vals m rs).flatten (byteRange i m.definition).start (byteRange i m.definition).stop
      assertThat ((i - s) * l.size ≤ data.length)
      slicePut data ((i - s) * l.size + m.offset) ((i - s) * l.size + m.stop) src) =
    .ok (ds.mapIdx fun k d => overwrite d m.offset (window ((rs[s + k]?).getD []) m.offset m.size)).flatten := by
  have hin := hl.inside m hm
  have := modify_loop (rep := List.flatten) (inv := AllLen l.size)
    (F := fun k d => overwrite d m.offset (window ((rs[s + k]?).getD []) m.offset m.size))
    (body := fun data i => do
      let src ← sliceGet (vals m rs).flatten (byteRange i m.definition).start (byteRange i m.definition).stop
      assertThat ((i - s) * l.size ≤ data.length)
      slicePut data ((i - s) * l.size + m.offset) ((i - s) * l.size + m.stop) src)
    s (e - s) 0 ds hds (by
      intro k ys hk hys hyl
      have hlt : s + k < rs.length := by omega
      have hi := List.getElem?_eq_getElem hlt
      have hw := Interleaved.length_window_member (h.getElem hi) hin
      have hky : k < ys.length := by omega
      have hb := Interleaved.block_end_le (sz := l.size) hky
      have e1 : s + k - s = k := by omega
      simp only [bind, Except.bind]
      rw [col_get_ok hl h hm hi]
      simp only [e1, hi, Option.getD_some, Nat.zero_add]
      rw [assertThat_true (decide_eq_true (by rw [hys.flatten_length]; omega))]
      simp only
      rw [slicePut_ok (by rw [hw]; unfold Member.stop; omega)
        (by rw [hys.flatten_length]; unfold Member.stop; omega), put_flatten hys hky _ _ (by omega)]
      refine ⟨rfl, allLen_modify hys _ fun r hr => ?_⟩
      rw [length_overwrite (by omega), hr])
  rw [this]
  congr 2
  apply List.ext_getElem?
  intro j
  simp only [List.getElem?_mapIdx]
  cases hj : ds[j]? with
  | none => rfl
  | some d =>
    have : j < ds.length := (List.getElem?_eq_some_iff.1 hj).1
    rw [Option.map_some, Option.map_some, if_pos (by omega)]
    rfl

/-- A loop over attributes that overwrites every attribute of every block. -/
theorem layers_loop {n : Nat} {v : Nat → Member → Bytes} {body : Bytes → Member → Out Bytes} :
    ∀ (ms : List Member),
    (∀ m ∈ ms, ∀ ds : List Bytes, AllLen l.size ds → ds.length = n →
      body ds.flatten m = .ok (ds.mapIdx fun k d => overwrite d m.offset (v k m)).flatten) →
    (∀ m ∈ ms, ∀ k, k < n → m.offset + (v k m).length ≤ l.size) →
    ∀ ds : List Bytes, AllLen l.size ds → ds.length = n →
    forLoop ms ds.flatten body = .ok (ds.mapIdx fun k d => scatter ms (v k) d).flatten := by
  intro ms
  induction ms with
  | nil =>
    intro _ _ ds _ _
    have : (ds.mapIdx fun k d => scatter [] (v k) d) = ds := by
      apply List.ext_getElem?
      intro j
      simp [scatter]
    rw [this]; rfl
  | cons m ms ih =>
    intro hb hv ds hds hlen
    rw [forLoop_cons, hb m (by simp) ds hds hlen]
    simp only [Except.bind]
    rw [ih (fun x hx => hb x (by simp [hx])) (fun x hx => hv x (by simp [hx])) _ _ (by simpa using hlen)]
    · congr 2
      apply List.ext_getElem?
      intro j
      simp only [List.getElem?_mapIdx, Option.map_map]
      cases ds[j]? <;> rfl
    · intro d hd
      obtain ⟨k, hk, rfl⟩ := List.mem_mapIdx.1 hd
      have hdl := hds _ (List.getElem_mem hk)
      have := hv m (by simp) k (by omega)
      rw [length_overwrite (by omega), hdl]

theorem getPointRange_ok (hl : Orderly l) (h : AllLen l.size rs) {s e : Nat} (he : e ≤ rs.length)
    (ds : List Bytes) (hds : AllLen l.size ds) (hlen : ds.length = e - s) :
    (ofRecords l rs).getPointRange ⟨s, e⟩ ds.flatten =
      .ok (ds.mapIdx fun k d => scatter l.attributes
        (fun m => window ((rs[s + k]?).getD []) m.offset m.size) d).flatten := by
  unfold getPointRange
  apply layers_loop (n := e - s) (v := fun k m => window ((rs[s + k]?).getD []) m.offset m.size)
    _ _ _ ds hds hlen
  · intro m hm ds hds hlen
    have hg := colsOf_get hl (fun m => (vals m rs).flatten) hm
    rw [hg]
    exact getPointRange_inner hl h hm he ds hds hlen
  · intro m hm k _
    have := hl.inside m hm
    have : (window ((rs[s + k]?).getD []) m.offset m.size).length ≤ m.size := by simp [window]
    omega

theorem getPointRange_panic (hl : Solid l) (h : AllLen l.size rs) {s e : Nat} (hse : s < e)
    (he : rs.length < e) (data : Bytes) (hd : data.length = (e - s) * l.size) :
    (ofRecords l rs).getPointRange ⟨s, e⟩ data = .error .panic := by
  unfold getPointRange
  apply attrs_loop_fails hl
  intro m hm
  have hg := colsOf_get hl (fun m => (vals m rs).flatten) hm
  simp only [hg, expectSome, bind, Except.bind, Rng.toList]
  have hin := hl.inside m hm
  apply range_loop_fails (P := fun s' : Bytes => s'.length = (e - s) * l.size)
    (c := max s rs.length) (by omega) (by omega) data hd
  · intro i d hi1 hi2 hdl
    have hlt : i < rs.length := by omega
    have hi := List.getElem?_eq_getElem hlt
    have hw := Interleaved.length_window_member (h.getElem hi) hin
    have hb := Interleaved.block_end_le (sz := l.size) (show i - s < e - s by omega)
    rw [col_get_ok hl h hm hi]
    simp only
    rw [assertThat_true (decide_eq_true (by omega))]
    simp only
    rw [slicePut_ok (by rw [hw]; unfold Member.stop; omega) (by unfold Member.stop; omega)]
    exact ⟨_, rfl, by rw [put_eq_overwrite, length_overwrite (by omega), hdl]⟩
  · intro d _
    rw [col_get_panic hl h hm (by omega)]

/-! ### column references -/

theorem getAttributeRangeRef_ok (hl : Orderly l) (h : AllLen l.size rs) {m : Member} (hm : m ∈ l.attributes)
    {s e : Nat} (hse : s ≤ e) (he : e ≤ rs.length) :
    (ofRecords l rs).getAttributeRangeRef m.definition ⟨s, e⟩ =
      .ok (((vals m rs).drop s).take (e - s)).flatten := by
  have hg := colsOf_get hl (fun m => (vals m rs).flatten) hm
  simp only [getAttributeRangeRef, hg, expectSome, bind, Except.bind]
  exact sliceGet_blocks (vals_allLen h (hl.inside m hm)) hse (by rw [vals_length]; exact he)

theorem getAttributeRangeRef_panic (hl : Solid l) (h : AllLen l.size rs) {d : AttrDef}
    {s e : Nat} (he : rs.length < e) :
    (ofRecords l rs).getAttributeRangeRef d ⟨s, e⟩ = .error .panic := by
  by_cases hmem : d ∈ l.attributes.map Member.definition
  · obtain ⟨m, hf⟩ := find_def_isSome hmem
    obtain ⟨hm, rfl⟩ := find_def_some hf
    have hg := colsOf_get hl (fun m => (vals m rs).flatten) hm
    simp only [getAttributeRangeRef, hg, expectSome, bind, Except.bind]
    apply sliceGet_panic
    rw [(vals_allLen h (hl.inside m hm)).flatten_length, vals_length]
    exact Nat.mul_lt_mul_of_pos_right he (hl.positive m hm)
  · have hg := colsOf_get_none (fun m => (vals m rs).flatten) hmem
    simp only [getAttributeRangeRef, hg, expectSome, bind, Except.bind, panicked]

end

end HashMapBuffer
end Pasture
