import Verif.Lemmas.HashMap

/-! # Operations of the columnar buffer on records -/

namespace Pasture

open Spec

theorem window_overwrite {l : PointLayout} (h : Orderly l) {r : Bytes} (hr : r.length = l.size)
    {m : Member} (hm : m ∈ l.attributes) {v : Bytes} (hv : v.length = m.size) {x : Member}
    (hx : x ∈ l.attributes) :
    window (overwrite r m.offset v) x.offset x.size =
      if x.definition = m.definition then v else window r x.offset x.size := by
  have := pointOf_overwrite h hr hm hv
  unfold pointOf Point.set at this
  rw [List.map_map] at this
  have := (List.map_inj_left.1 this) x hx
  simp only [Function.comp_apply] at this
  split at this
  · next e => rw [if_pos e]; exact (Prod.mk.inj this).2
  · next e => rw [if_neg e]; exact (Prod.mk.inj this).2

theorem vals_set (m : Member) (rs : List Bytes) (i : Nat) (r : Bytes) :
    vals m (rs.set i r) = (vals m rs).set i (window r m.offset m.size) := by
  simp [vals, List.map_set]

theorem vals_append (m : Member) (rs qs : List Bytes) : vals m (rs ++ qs) = vals m rs ++ vals m qs := by
  simp [vals]

theorem vals_exchange (m : Member) (rs : List Bytes) (i j : Nat) :
    vals m (exchange rs i j) = exchange (vals m rs) i j := exchange_map ..

theorem vals_overwrite (m : Member) (rs qs : List Bytes) (s : Nat) :
    vals m (overwrite rs s qs) = overwrite (vals m rs) s (vals m qs) := overwrite_map ..

theorem vals_resized {l : PointLayout} (h : Orderly l) {m : Member} (hm : m ∈ l.attributes)
    (rs : List Bytes) (n : Nat) :
    vals m (resized rs n (List.replicate l.size 0)) = resized (vals m rs) n (zeros m.size) := by
  unfold vals
  rw [resized_map]
  congr 1
  have := h.inside m hm
  unfold window zeros
  rw [List.drop_replicate, List.take_replicate]
  congr 1; omega

namespace HashMapBuffer
section
variable {l : PointLayout} {rs : List Bytes}

theorem setPoint_ok (hl : Orderly l) (h : AllLen l.size rs) {i : Nat} (hi : i < rs.length) {data : Bytes}
    (hd : data.length = l.size) :
    (ofRecords l rs).setPoint i data = .ok (ofRecords l (rs.set i data)) := by
  have := cols_loop_layout hl (f := fun m => (vals m rs).flatten)
    (g := fun m => (vals m (rs.set i data)).flatten)
    (body := fun cols m => do
      let r := byteRange i m.definition
      let col ← expectSome (cols.get m.definition)
      let src ← sliceGet data m.offset m.stop
      let col ← slicePut col r.start r.stop src
      pure (cols.set m.definition col)) (by
    intro m hm cols hg
    have hin := hl.inside m hm
    simp only [hg, expectSome, bind, Except.bind, Member.stop]
    rw [sliceGet_ok (by omega)]
    simp only
    rw [col_put_ok hl h hm hi (length_window (by omega)), vals_set]
    rfl)
  simp only [setPoint]
  rw [this]
  simp only [bind, Except.bind, pure, Except.pure, ofRecords, List.length_set]

theorem setPoint_panic (hl : Solid l) (h : AllLen l.size rs) {i : Nat} (hi : rs.length ≤ i) {data : Bytes}
    (hd : data.length = l.size) : (ofRecords l rs).setPoint i data = .error .panic := by
  simp only [setPoint]
  rw [attrs_loop_fails (e := .panic) hl (by
    intro m hm
    have hg := colsOf_get hl (fun m => (vals m rs).flatten) hm
    have hin := hl.inside m hm
    simp only [hg, expectSome, bind, Except.bind, Member.stop]
    rw [sliceGet_ok (by omega)]
    simp only
    rw [col_put_panic hl h hm hi])]
  rfl

theorem vals_modify_same (hl : Orderly l) (h : AllLen l.size rs) {m : Member} (hm : m ∈ l.attributes)
    {i : Nat} (hi : i < rs.length) {v : Bytes} (hv : v.length = m.size) :
    vals m (rs.modify i fun r => overwrite r m.offset v) = (vals m rs).set i v := by
  apply List.ext_getElem?
  intro j
  simp only [vals, List.getElem?_map, List.getElem?_modify, List.getElem?_set, List.length_map]
  by_cases e : i = j
  · subst e
    simp only [if_true, if_pos hi, List.getElem?_eq_getElem hi, Option.map_eq_map, Option.map_some]
    rw [window_overwrite hl (h.getElem (List.getElem?_eq_getElem hi)) hm hv hm, if_pos rfl]
  · simp [e]

theorem vals_modify_other (hl : Orderly l) (h : AllLen l.size rs) {m x : Member} (hm : m ∈ l.attributes)
    (hx : x ∈ l.attributes) (hne : x.definition ≠ m.definition)
    {i : Nat} {v : Bytes} (hv : v.length = m.size) :
    vals x (rs.modify i fun r => overwrite r m.offset v) = vals x rs := by
  apply List.ext_getElem?
  intro j
  simp only [vals, List.getElem?_map, List.getElem?_modify]
  cases hr : rs[j]? with
  | none => simp
  | some r =>
    by_cases e : i = j
    · simp only [e, if_true, Option.map_eq_map, Option.map_some]
      rw [window_overwrite hl (h.getElem hr) hm hv hx, if_neg hne]
    · simp [e]

theorem setAttribute_ok (hl : Orderly l) (h : AllLen l.size rs) {m : Member} (hm : m ∈ l.attributes)
    {i : Nat} (hi : i < rs.length) {v : Bytes} (hv : v.length = m.size) :
    (ofRecords l rs).setAttribute m.definition i v =
      .ok (ofRecords l (rs.modify i fun r => overwrite r m.offset v)) := by
  have hg := colsOf_get hl (fun m => (vals m rs).flatten) hm
  simp only [setAttribute, hg, expectSome, bind, Except.bind]
  rw [col_put_ok hl h hm hi hv]
  simp only [pure, Except.pure, ofRecords, List.length_modify]
  rw [colsOf_set]
  congr 2
  apply List.map_congr_left
  intro x hx
  congr 1
  dsimp only
  split
  · next e =>
    have : x = m := List.inj_on_of_nodup_map (defs_nodup hl) hx hm e
    subst this
    rw [vals_modify_same hl h hm hi hv]
  · next e => rw [vals_modify_other hl h hm hx e hv]

theorem setAttribute_panic (hl : Solid l) (h : AllLen l.size rs) {d : AttrDef}
    {i : Nat} (hi : ¬ (d ∈ l.attributes.map Member.definition ∧ i < rs.length)) (v : Bytes) :
    (ofRecords l rs).setAttribute d i v = .error .panic := by
  by_cases hmem : d ∈ l.attributes.map Member.definition
  · obtain ⟨m, hf⟩ := find_def_isSome hmem
    obtain ⟨hm, e⟩ := find_def_some hf
    subst e
    have hg := colsOf_get hl (fun m => (vals m rs).flatten) hm
    simp only [setAttribute, hg, expectSome, bind, Except.bind]
    rw [col_put_panic hl h hm (Nat.not_lt.1 fun hc => hi ⟨hmem, hc⟩)]
  · have hg := colsOf_get_none (fun m => (vals m rs).flatten) hmem
    simp only [setAttribute, hg, expectSome, bind, Except.bind, panicked]

/-- `set_attribute_range` on records (see `Op.onRecords`). -/
abbrev setAttrs (m : Member) (a b : Nat) (data : Bytes) (rs : List Bytes) : List Bytes :=
  rs.mapIdx fun i r =>
    if a ≤ i ∧ i < b then overwrite r m.offset (window data ((i - a) * m.size) m.size) else r

theorem vals_setAttrs_same (hl : Orderly l) (h : AllLen l.size rs) {m : Member} (hm : m ∈ l.attributes)
    {a b : Nat} (hab : a ≤ b) (hb : b ≤ rs.length) {data : Bytes} (hd : data.length = (b - a) * m.size) :
    vals m (setAttrs m a b data rs) = overwrite (vals m rs) a (recordsOf m.size (b - a) data) := by
  apply List.ext_getElem?
  intro j
  rw [overwrite.eq_1 (vals m rs)]
  simp only [vals, List.getElem?_map, setAttrs, List.getElem?_mapIdx, List.getElem?_append,
    List.getElem?_take, List.getElem?_drop, List.length_append, List.length_take, recordsOf_length,
    List.length_map, Nat.min_eq_left (show a ≤ rs.length by omega)]
  by_cases h1 : j < a
  · have h2 : ¬ (a ≤ j ∧ j < b) := by omega
    rw [if_pos (by omega), if_pos h1, if_pos h1]
    simp only [if_neg h2, Option.map_map]
    cases rs[j]? <;> rfl
  · by_cases h2 : j < b
    · have h3 : (a ≤ j ∧ j < b) := by omega
      have hj : j < rs.length := by omega
      rw [if_pos (by omega), if_neg h1, recordsOf_getElem?, if_pos (by omega)]
      simp only [if_pos h3, List.getElem?_eq_getElem hj, Option.map_some]
      have hbk := Interleaved.block_end_le (sz := m.size) (show j - a < b - a by omega)
      rw [window_overwrite hl (h.getElem (List.getElem?_eq_getElem hj)) hm (length_window (by omega)) hm,
        if_pos rfl]
    · have h3 : ¬ (a ≤ j ∧ j < b) := by omega
      rw [if_neg (by omega), show a + (b - a) + (j - (a + (b - a))) = j by omega]
      simp only [if_neg h3, Option.map_map]
      cases rs[j]? <;> rfl

theorem vals_setAttrs_other (hl : Orderly l) (h : AllLen l.size rs) {m x : Member} (hm : m ∈ l.attributes)
    (hx : x ∈ l.attributes) (hne : x.definition ≠ m.definition)
    {a b : Nat} {data : Bytes} (hd : data.length = (b - a) * m.size) :
    vals x (setAttrs m a b data rs) = vals x rs := by
  apply List.ext_getElem?
  intro j
  simp only [vals, List.getElem?_map, setAttrs, List.getElem?_mapIdx]
  cases hr : rs[j]? with
  | none => rfl
  | some r =>
    simp only [Option.map_some]
    split
    · next h3 =>
      have hbk := Interleaved.block_end_le (sz := m.size) (show j - a < b - a by omega)
      rw [window_overwrite hl (h.getElem hr) hm (length_window (by omega)) hx, if_neg hne]
    · rfl

/-- Updating a range of a column. -/
theorem getAttributeRangeMut_ok (hl : Orderly l) (h : AllLen l.size rs) {m : Member} (hm : m ∈ l.attributes)
    {a b : Nat} (hab : a ≤ b) (hb : b ≤ rs.length) {f : Bytes → Out Bytes} {data : Bytes}
    (hf : f (((vals m rs).drop a).take (b - a)).flatten = .ok data) (hd : data.length = (b - a) * m.size) :
    (ofRecords l rs).getAttributeRangeMut m.definition ⟨a, b⟩ f =
      .ok (ofRecords l (setAttrs m a b data rs)) := by
  have hg := colsOf_get hl (fun m => (vals m rs).flatten) hm
  have ha := vals_allLen h (hl.inside m hm)
  have hs := sliceGet_blocks ha hab (by rw [vals_length]; exact hb)
  simp only [getAttributeRangeMut, hg, expectSome, bind, Except.bind]
  have e1 : (byteRangeOf ⟨a, b⟩ m.definition).start = a * m.size := rfl
  have e2 : (byteRangeOf ⟨a, b⟩ m.definition).stop = b * m.size := rfl
  have hp := put_blocks ha (recordsOf_allLen hd) a
  rw [flatten_recordsOf hd] at hp
  rw [e1, e2, hs]
  simp only
  rw [hf]
  simp only
  rw [slicePut_ok (by rw [hd, ← Nat.add_mul]; congr 1; omega)
    (by rw [ha.flatten_length, vals_length]; exact Nat.mul_le_mul_right _ hb), hp,
    ← vals_setAttrs_same hl h hm hab hb hd]
  simp only [pure, Except.pure, ofRecords, List.length_mapIdx]
  rw [colsOf_set]
  congr 2
  apply List.map_congr_left
  intro x hx
  congr 1
  dsimp only
  split
  · next e =>
    have : x = m := List.inj_on_of_nodup_map (defs_nodup hl) hx hm e
    subst this
    rfl
  · next e => rw [vals_setAttrs_other hl h hm hx e hd]

theorem setAttributeRange_ok (hl : Orderly l) (h : AllLen l.size rs) {m : Member} (hm : m ∈ l.attributes)
    {a b : Nat} (hab : a ≤ b) (hb : b ≤ rs.length) {data : Bytes} (hd : data.length = (b - a) * m.size) :
    (ofRecords l rs).setAttributeRange m.definition ⟨a, b⟩ data =
      .ok (ofRecords l (setAttrs m a b data rs)) := by
  apply getAttributeRangeMut_ok hl h hm hab hb _ hd
  unfold copyFromSlice
  rw [if_pos]
  have ha := vals_allLen h (hl.inside m hm)
  rw [((ha.drop a).take (b - a)).flatten_length, hd]
  congr 1
  simp [vals_length]; omega

theorem getAttributeRangeMut_panic (hl : Solid l) (h : AllLen l.size rs) {d : AttrDef} {a b : Nat}
    (hb : ¬ (d ∈ l.attributes.map Member.definition ∧ b ≤ rs.length)) (f : Bytes → Out Bytes) :
    (ofRecords l rs).getAttributeRangeMut d ⟨a, b⟩ f = .error .panic := by
  by_cases hmem : d ∈ l.attributes.map Member.definition
  · obtain ⟨m, hf⟩ := find_def_isSome hmem
    obtain ⟨hm, e⟩ := find_def_some hf
    subst e
    have hg := colsOf_get hl (fun m => (vals m rs).flatten) hm
    simp only [getAttributeRangeMut, hg, expectSome, bind, Except.bind]
    rw [sliceGet_panic]
    rw [(vals_allLen h (hl.inside m hm)).flatten_length, vals_length]
    exact Nat.mul_lt_mul_of_pos_right (Nat.not_le.1 fun hc => hb ⟨hmem, hc⟩) (hl.positive m hm)
  · have hg := colsOf_get_none (fun m => (vals m rs).flatten) hmem
    simp only [getAttributeRangeMut, hg, expectSome, bind, Except.bind, panicked]

/-! ### swap -/

theorem swap_col (ha : ∀ {n : Nat} {vs : List Bytes}, AllLen n vs → ∀ {i j : Nat}, i < vs.length → j < vs.length →
      i ≠ j → swapNonoverlapping vs.flatten (i * n) (j * n) n = .ok (exchange vs i j).flatten)
    (hl : Orderly l) (h : AllLen l.size rs) {i j : Nat} (hi : i < rs.length) (hj : j < rs.length)
    (hij : i ≠ j) : ∀ ms : List Member, (∀ m ∈ ms, m ∈ l.attributes) →
    ((colsOf ms fun m => (vals m rs).flatten).mapM fun (d, col) => do
      let col ← swapNonoverlapping col (byteRange i d).start (byteRange j d).start d.size
      pure (d, col)) = .ok (colsOf ms fun m => (vals m (exchange rs i j)).flatten) := by
  intro ms
  induction ms with
  | nil => intro _; rfl
  | cons m ms ih =>
    intro hms
    have hm := hms m (by simp)
    have := ha (vals_allLen h (hl.inside m hm)) (i := i) (j := j) (by rw [vals_length]; exact hi)
      (by rw [vals_length]; exact hj) hij
    have e : swapNonoverlapping (vals m rs).flatten (byteRange i m.definition).start
        (byteRange j m.definition).start m.definition.size = .ok (vals m (exchange rs i j)).flatten := by
      rw [vals_exchange]; exact this
    simp only [colsOf, List.map_cons, List.mapM_cons] at ih ⊢
    rw [ih (fun x hx => hms x (by simp [hx])), e]
    rfl

theorem swap_blocks {n : Nat} {vs : List Bytes} (h : AllLen n vs) {i j : Nat} (hi : i < vs.length)
    (hj : j < vs.length) (hij : i ≠ j) :
    swapNonoverlapping vs.flatten (i * n) (j * n) n = .ok (exchange vs i j).flatten := by
  have e1 := List.getElem?_eq_getElem hi
  have e2 := List.getElem?_eq_getElem hj
  have ex : exchange vs i j = (vs.set i vs[j]).set j vs[i] := by
    unfold exchange; rw [e1, e2]
  have b1 := Interleaved.block_end_le (sz := n) hi
  have b2 := Interleaved.block_end_le (sz := n) hj
  have b3 : i * n + n ≤ j * n ∨ j * n + n ≤ i * n ∨ n = 0 := by
    rcases Nat.lt_or_ge i j with hlt | hge
    · exact .inl (Interleaved.block_end_le hlt)
    · exact .inr (.inl (Interleaved.block_end_le (by omega)))
  unfold swapNonoverlapping
  rw [if_pos (by rw [h.flatten_length]; exact ⟨b1, b2, b3⟩)]
  have w1 := window_block h e1
  have w2 := window_block h e2
  unfold window at w1 w2
  rw [w1, w2]
  have p1 := put_blocks h (ds := [vs[j]]) (by simp [AllLen]; exact h.getElem e2) i
  simp only [List.flatten_cons, List.flatten_nil, List.append_nil] at p1
  rw [p1, overwrite_singleton _ hi]
  have p2 := put_blocks (h.set (h.getElem e2) i) (ds := [vs[i]]) (by simp [AllLen]; exact h.getElem e1) j
  simp only [List.flatten_cons, List.flatten_nil, List.append_nil] at p2
  rw [p2, overwrite_singleton _ (by simpa using hj), ex]

theorem exchange_length {α : Type} (xs : List α) (i j : Nat) : (exchange xs i j).length = xs.length := by
  unfold exchange; split <;> simp

theorem exchange_self {α : Type} (xs : List α) (i : Nat) : exchange xs i i = xs := by
  unfold exchange
  cases h : xs[i]? with
  | none => rfl
  | some a =>
    have := List.getElem?_eq_some_iff.1 h
    simp only [List.set_set]
    rw [← this.2, List.set_getElem_self]

theorem swap_ok (hl : Orderly l) (h : AllLen l.size rs) {i j : Nat} (hi : i < rs.length) (hj : j < rs.length) :
    (ofRecords l rs).swap i j = .ok (ofRecords l (exchange rs i j)) := by
  simp only [swap]
  rw [assertThat_true (decide_eq_true hi), assertThat_true (decide_eq_true hj)]
  simp only [bind, Except.bind]
  by_cases hij : i = j
  · rw [if_pos hij, hij, exchange_self]; rfl
  · rw [if_neg hij]
    have := swap_col swap_blocks hl h hi hj hij l.attributes (fun _ h => h)
    simp only [bind, Except.bind] at this
    rw [this]
    simp only [pure, Except.pure, ofRecords, exchange_length]

theorem swap_panic {i j : Nat} (hij : ¬ (i < rs.length ∧ j < rs.length)) :
    (ofRecords l rs).swap i j = .error .panic := by
  simp only [swap, assertThat, panicked]
  by_cases hi : i < rs.length
  · have hj : ¬ j < rs.length := fun hj => hij ⟨hi, hj⟩
    simp [hi, hj, bind, Except.bind]
  · simp [hi, bind, Except.bind]

/-! ### set_point_range -/

theorem setPointRange_inner (hl : Orderly l) {m : Member} (hm : m ∈ l.attributes)
    {s e : Nat} (vs : List Bytes) (hvs : AllLen m.size vs) (he : e ≤ vs.length) (hse : s ≤ e)
    (ds : List Bytes) (hds : AllLen l.size ds) (hlen : ds.length = e - s) :
    (forLoop (List.range' s (e - s)) vs.flatten fun col i => do
      let rec_ ← sliceGet ds.flatten ((i - s) * l.size) ((i - s + 1) * l.size)
      let src ← sliceGet rec_ m.offset m.stop
      slicePut col (byteRange i m.definition).start (byteRange i m.definition).stop src) =
    .ok (overwrite vs s (vals m ds)).flatten := by
  have hin := hl.inside m hm
  have := modify_loop (rep := List.flatten) (inv := AllLen m.size)
    (F := fun k _ => (vals m ds)[k]?.getD (zeros m.size))
    (body := fun col i => do
      let rec_ ← sliceGet ds.flatten ((i - s) * l.size) ((i - s + 1) * l.size)
      let src ← sliceGet rec_ m.offset m.stop
      slicePut col (byteRange i m.definition).start (byteRange i m.definition).stop src)
    s (e - s) s vs hvs (by
      intro k ys hk hys hyl
      have hkd : k < ds.length := by omega
      have e0 := List.getElem?_eq_getElem hkd
      have hky : s + k < ys.length := by omega
      have hb := Interleaved.block_end_le (sz := m.size) hky
      have hb2 := Interleaved.block_end_le (sz := l.size) hkd
      have e1 : s + k - s = k := by omega
      have hdl := hds.getElem e0
      have hw : (window ds[k] m.offset m.size).length = m.size := length_window (by omega)
      simp only [bind, Except.bind, e1, Nat.succ_mul]
      rw [sliceGet_ok (by rw [hds.flatten_length]; omega), window_block hds e0]
      simp only [Member.stop]
      rw [sliceGet_ok (by omega)]
      have e2 : (vals m ds)[k]?.getD (zeros m.size) = window ds[k] m.offset m.size := by
        simp [vals, e0]
      rw [e2]
      have e3 : (byteRange (s + k) m.definition).start = (s + k) * m.size := rfl
      have e4 : (byteRange (s + k) m.definition).stop = (s + k) * m.size + m.size := Nat.succ_mul _ _
      simp only [e3, e4]
      rw [slicePut_ok (by rw [hw]) (by rw [hys.flatten_length]; omega)]
      have e5 : ∀ w, ys.modify (s + k) (fun _ => w) = ys.set (s + k) w := by
        intro w
        apply List.ext_getElem?
        intro j
        rw [List.getElem?_modify, List.getElem?_set]
        by_cases ej : s + k = j
        · subst ej; simp [hky]
        · simp [ej]
      rw [e5]
      have := put_blocks hys (ds := [window ds[k] m.offset m.size]) (by simp [AllLen, hw]) (s + k)
      simp only [List.flatten_cons, List.flatten_nil, List.append_nil] at this
      rw [this, overwrite_singleton _ hky]
      exact ⟨rfl, hys.set hw _⟩)
  rw [this]
  congr 2
  apply List.ext_getElem?
  intro j
  simp only [List.getElem?_mapIdx, overwrite, List.getElem?_append, List.getElem?_take,
    List.getElem?_drop, List.length_append, List.length_take, vals_length, hlen,
    Nat.min_eq_left (show s ≤ vs.length by omega)]
  by_cases h1 : j < s
  · rw [if_pos (by omega), if_pos h1, if_pos h1]
    have : ¬ (s ≤ j ∧ j < s + (e - s)) := by omega
    simp only [if_neg this]; simp
  · by_cases h2 : j < e
    · rw [if_pos (by omega), if_neg h1, List.getElem?_eq_getElem (show j < vs.length by omega)]
      have : (s ≤ j ∧ j < s + (e - s)) := by omega
      have hv : j - s < (vals m ds).length := by rw [vals_length]; omega
      simp only [if_pos this, Option.map_some, List.getElem?_eq_getElem hv, Option.getD_some]
    · rw [if_neg (by omega), show s + (e - s) + (j - (s + (e - s))) = j by omega]
      have : ¬ (s ≤ j ∧ j < s + (e - s)) := by omega
      simp only [if_neg this]; simp

theorem setPointRange_ok (hl : Orderly l) (h : AllLen l.size rs) {s e : Nat} (hse : s ≤ e)
    (he : e ≤ rs.length) {ds : List Bytes} (hds : AllLen l.size ds) (hlen : ds.length = e - s) :
    (ofRecords l rs).setPointRange ⟨s, e⟩ ds.flatten = .ok (ofRecords l (overwrite rs s ds)) := by
  have := cols_loop_layout hl (f := fun m => (vals m rs).flatten)
    (g := fun m => (vals m (overwrite rs s ds)).flatten)
    (body := fun cols m => do
      let col ← expectSome (cols.get m.definition)
      let col ← forLoop (Rng.toList ⟨s, e⟩) col fun col i => do
        let rec_ ← sliceGet ds.flatten ((i - s) * l.size) ((i - s + 1) * l.size)
        let src ← sliceGet rec_ m.offset m.stop
        slicePut col (byteRange i m.definition).start (byteRange i m.definition).stop src
      pure (cols.set m.definition col)) (by
    intro m hm cols hg
    have := setPointRange_inner hl hm (vals m rs) (vals_allLen h (hl.inside m hm))
      (by rw [vals_length]; exact he) hse ds hds hlen
    simp only [hg]
    show (forLoop (List.range' s (e - s)) _ _).bind _ = _
    rw [this, vals_overwrite]
    rfl)
  simp only [setPointRange]
  rw [this]
  simp only [bind, Except.bind, pure, Except.pure, ofRecords]
  rw [length_overwrite (by omega)]

theorem setPointRange_panic (hl : Solid l) (h : AllLen l.size rs) {s e : Nat} (hse : s < e)
    (he : rs.length < e) {data : Bytes} (hd : data.length = (e - s) * l.size) :
    (ofRecords l rs).setPointRange ⟨s, e⟩ data = .error .panic := by
  simp only [setPointRange]
  rw [attrs_loop_fails (e := .panic) hl]
  · rfl
  intro m hm
  have hg := colsOf_get hl (fun m => (vals m rs).flatten) hm
  have hin := hl.inside m hm
  simp only [hg, expectSome, bind, Except.bind, Rng.toList]
  have ha := vals_allLen h hin
  rw [range_loop_fails (e := .panic) (P := fun c : Bytes => c.length = rs.length * m.size)
    (c := max s rs.length) (by omega) (by omega) _ (by rw [ha.flatten_length, vals_length])]
  · intro i c hi1 hi2 hc
    have hb := Interleaved.block_end_le (sz := l.size) (show i - s < e - s by omega)
    have hb2 := Interleaved.block_end_le (sz := m.size) (show i < rs.length by omega)
    have hw : (window data ((i - s) * l.size) l.size).length = l.size := length_window (by omega)
    simp only [Nat.succ_mul, Member.stop]
    rw [sliceGet_ok (by omega)]
    simp only
    rw [sliceGet_ok (by omega)]
    have e3 : (byteRange i m.definition).start = i * m.size := rfl
    have e4 : (byteRange i m.definition).stop = i * m.size + m.size := Nat.succ_mul _ _
    simp only [e3, e4]
    have hw2 : (window (window data ((i - s) * l.size) l.size) m.offset m.size).length = m.size :=
      length_window (by omega)
    rw [slicePut_ok (by rw [hw2]) (by omega)]
    exact ⟨_, rfl, by rw [put_eq_overwrite, length_overwrite (by omega), hc]⟩
  · intro c hc
    have hb := Interleaved.block_end_le (sz := l.size) (show max s rs.length - s < e - s by omega)
    have hw : (window data ((max s rs.length - s) * l.size) l.size).length = l.size :=
      length_window (by omega)
    simp only [Nat.succ_mul, Member.stop]
    rw [sliceGet_ok (by omega)]
    simp only
    rw [sliceGet_ok (by omega)]
    simp only
    rw [slicePut_panic]
    rw [hc]
    have e4 : (byteRange (max s rs.length) m.definition).stop = max s rs.length * m.size + m.size :=
      Nat.succ_mul _ _
    rw [e4]
    exact Interleaved.block_end_gt (hl.positive m hm) (by omega)

/-! ### growing and shrinking -/

theorem push_inner (hl : Orderly l) {m : Member} (hm : m ∈ l.attributes) (col : Bytes)
    (ds : List Bytes) (hds : AllLen l.size ds) : ∀ k, k ≤ ds.length →
    (forLoop (List.range k) col fun col i => do
      let p ← sliceGet ds.flatten (i * l.size) ((i + 1) * l.size)
      let a ← sliceGet p m.offset m.stop
      pure (col ++ a)) = .ok (col ++ (vals m (ds.take k)).flatten) := by
  have hin := hl.inside m hm
  intro k
  induction k with
  | zero => intro _; simp [vals]
  | succ k ih =>
    intro hk
    have e0 := List.getElem?_eq_getElem (show k < ds.length by omega)
    have hb := Interleaved.block_end_le (sz := l.size) (show k < ds.length by omega)
    have hdl := hds.getElem e0
    rw [List.range_succ, forLoop_append, ih (by omega)]
    simp only [bind, Except.bind, forLoop_cons, forLoop_nil, Nat.succ_mul]
    rw [sliceGet_ok (by rw [hds.flatten_length]; omega), window_block hds e0]
    simp only [Member.stop]
    rw [sliceGet_ok (by omega)]
    simp only [pure, Except.pure]
    rw [List.take_add_one, e0, vals_append, List.flatten_append]
    simp [vals]

theorem pushPoints_orderly (hl : Orderly l) (hsz : 0 < l.size) {ds : List Bytes} (hds : AllLen l.size ds) :
    (ofRecords l rs).pushPoints ds.flatten = .ok (ofRecords l (rs ++ ds)) := by
  have hq : ds.flatten.length / l.size = ds.length := by
    rw [hds.flatten_length, Nat.mul_div_cancel _ hsz]
  have hmod : ds.flatten.length % l.size = 0 := by rw [hds.flatten_length, Nat.mul_mod_left]
  simp only [pushPoints]
  rw [assertThat_true (decide_eq_true (by omega)), assertThat_true (decide_eq_true hmod), hq]
  have := cols_loop_layout hl (f := fun m => (vals m rs).flatten)
    (g := fun m => (vals m (rs ++ ds)).flatten)
    (body := fun cols m => do
      let col ← expectSome (cols.get m.definition)
      let col ← forLoop (List.range ds.length) col fun col i => do
        let p ← sliceGet ds.flatten (i * l.size) ((i + 1) * l.size)
        let a ← sliceGet p m.offset m.stop
        pure (col ++ a)
      pure (cols.set m.definition col)) (by
    intro m hm cols hg
    simp only [hg]
    show (forLoop (List.range ds.length) _ _).bind _ = _
    rw [push_inner hl hm _ ds hds _ (Nat.le_refl _), List.take_length, vals_append, List.flatten_append]
    rfl)
  simp only [bind, Except.bind] at this ⊢
  rw [this]
  simp [pure, Except.pure]

theorem pushPoints_ok (hl : Solid l) {ds : List Bytes} (hds : AllLen l.size ds) :
    (ofRecords l rs).pushPoints ds.flatten = .ok (ofRecords l (rs ++ ds)) :=
  pushPoints_orderly hl hl.size_pos hds

theorem resize_ok (hl : Orderly l) (h : AllLen l.size rs) (n : Nat) :
    (ofRecords l rs).resize n = ofRecords l (resized rs n (List.replicate l.size 0)) := by
  have hlen : (resized rs n (List.replicate l.size (0 : Byte))).length = n := by
    simp [resized]; omega
  simp only [resize, ofRecords, hlen, colsOf, List.map_map]
  congr 1
  apply List.map_congr_left
  intro m hm
  simp only [Function.comp_apply]
  rw [vals_resized hl hm, ← resize_blocks (vals_allLen h (hl.inside m hm))]
  rfl

theorem clear_ok : (ofRecords l rs).clear = ofRecords l [] := by
  simp only [clear, ofRecords, colsOf, List.map_map]
  rfl

/-! ### all operations -/

/-- The operations of `HashMapBuffer` that are allowed, on records. -/
theorem step_ok (hl : Orderly l) (h : AllLen l.size rs) (op : Op) (hop : op.wellFormed l)
    (ha : op.allowed l rs.length) (hp : ∀ data, op = .pushPoints data → 0 < l.size) :
    runOp (ofRecords l rs) op = .ok (ofRecords l (op.onRecords l rs)) := by
  cases op with
  | setPoint i r => exact setPoint_ok hl h ha hop
  | setPointRange a b data =>
    obtain ⟨hab, hd⟩ := hop
    have := setPointRange_ok hl h (s := a) (e := b) (by omega) ha
      (recordsOf_allLen hd) (by simp [recordsOf_length])
    rw [flatten_recordsOf hd] at this
    exact this
  | setAttribute d i v =>
    obtain ⟨m, hm⟩ := find_def_isSome ha.1
    obtain ⟨hm1, hm2⟩ := find_def_some hm
    simp only [Op.onRecords, hm]
    have := setAttribute_ok hl h hm1 ha.2 (v := v) (by rw [hop, ← hm2]; rfl)
    rw [hm2] at this
    exact this
  | setAttributeRange d a b data =>
    obtain ⟨hab, hdl⟩ := hop
    obtain ⟨m, hm⟩ := find_def_isSome ha.1
    obtain ⟨hm1, hm2⟩ := find_def_some hm
    simp only [Op.onRecords, hm]
    have := setAttributeRange_ok hl h hm1 (a := a) (b := b) (by omega) ha.2 (data := data)
      (by rw [hdl, ← hm2]; rfl)
    rw [hm2] at this
    exact this
  | swap i j => exact swap_ok hl h ha.1 ha.2
  | pushPoints data =>
    have hd : data.length = data.length / l.size * l.size :=
      (Nat.div_mul_cancel (Nat.dvd_of_mod_eq_zero hop)).symm
    have := pushPoints_orderly (rs := rs) hl (hp data rfl) (recordsOf_allLen hd)
    rw [flatten_recordsOf hd] at this
    exact this
  | resize n => exact congrArg Except.ok (resize_ok hl h n)
  | clear => exact congrArg Except.ok clear_ok

/-- Every operation of `HashMapBuffer`, on records. -/
theorem step_eq (hl : Solid l) (h : AllLen l.size rs) (op : Op) (hop : op.wellFormed l) :
    runOp (ofRecords l rs) op = (op.stepRecords l rs).map (ofRecords l) := by
  unfold Op.stepRecords
  by_cases ha : op.allowed l rs.length
  · rw [if_pos ha]
    show _ = Except.ok _
    exact step_ok hl h op hop ha fun _ _ => hl.size_pos
  · rw [if_neg ha]
    show _ = Except.error _
    cases op with
    | setPoint i r => exact setPoint_panic hl h (Nat.not_lt.1 ha) hop
    | setPointRange a b data => exact setPointRange_panic hl h hop.1 (Nat.not_le.1 ha) hop.2
    | setAttribute d i v => exact setAttribute_panic hl h ha v
    | setAttributeRange d a b data => exact getAttributeRangeMut_panic hl h ha _
    | swap i j => exact swap_panic ha
    | pushPoints data => exact absurd trivial ha
    | resize n => exact absurd trivial ha
    | clear => exact absurd trivial ha

theorem getPoint_points (hl : Orderly l) (h : AllLen l.size rs) {i : Nat} {p : Point} {data : Bytes}
    (hp : (rs.map (pointOf l))[i]? = some p) (hd : data.length = l.size) :
    ∃ r, (ofRecords l rs).getPoint i data = .ok r ∧ r.length = l.size ∧ pointOf l r = p := by
  rw [List.getElem?_map] at hp
  cases hr : rs[i]? with
  | none => rw [hr] at hp; simp at hp
  | some r =>
    rw [hr] at hp
    obtain ⟨h1, h2⟩ := scatter_spec hl (v := fun m => window r m.offset m.size)
      (fun m hm => Interleaved.length_window_member (h.getElem hr) (hl.inside m hm)) data hd
    exact ⟨_, getPoint_ok hl h hr data hd, h1, h2.trans (Option.some.inj hp)⟩

theorem getPointRange_points (hl : Orderly l) (h : AllLen l.size rs) {s e : Nat} {data : Bytes} (_hse : s ≤ e)
    (he : e ≤ (rs.map (pointOf l)).length) (hd : data.length = (e - s) * l.size) :
    ∃ r, (ofRecords l rs).getPointRange ⟨s, e⟩ data = .ok r ∧ r.length = (e - s) * l.size ∧
      (recordsOf l.size (e - s) r).map (pointOf l) = ((rs.map (pointOf l)).drop s).take (e - s) := by
  have he : e ≤ rs.length := by simpa using he
  obtain ⟨ds, hds, hlen, rfl⟩ := exists_blocks hd
  have hspec : ∀ k d, ds[k]? = some d → (scatter l.attributes
      (fun m => window ((rs[s + k]?).getD []) m.offset m.size) d).length = l.size ∧
      pointOf l (scatter l.attributes (fun m => window ((rs[s + k]?).getD []) m.offset m.size) d) =
        pointOf l ((rs[s + k]?).getD []) := by
    intro k d hk
    have hk2 : k < ds.length := (List.getElem?_eq_some_iff.1 hk).1
    have hr := List.getElem?_eq_getElem (show s + k < rs.length by omega)
    rw [hr]
    exact scatter_spec hl (fun m hm => Interleaved.length_window_member (h.getElem hr) (hl.inside m hm)) d
      (hds.getElem hk)
  have hall : AllLen l.size (ds.mapIdx fun k d => scatter l.attributes
      (fun m => window ((rs[s + k]?).getD []) m.offset m.size) d) := by
    intro d hd
    obtain ⟨k, hk, rfl⟩ := List.mem_mapIdx.1 hd
    exact (hspec k _ (List.getElem?_eq_getElem hk)).1
  refine ⟨_, getPointRange_ok hl h he ds hds hlen, ?_, ?_⟩
  · rw [hall.flatten_length]; simp [hlen]
  · rw [recordsOf_flatten hall (by simpa using hlen)]
    apply List.ext_getElem?
    intro k
    rw [List.getElem?_map, List.getElem?_mapIdx, List.getElem?_take, List.getElem?_drop, List.getElem?_map]
    cases hk : ds[k]? with
    | none =>
      have : ds.length ≤ k := by simpa using hk
      rw [if_neg (by omega)]; rfl
    | some d =>
      have hk2 : k < ds.length := (List.getElem?_eq_some_iff.1 hk).1
      rw [if_pos (by omega), Option.map_some, Option.map_some, (hspec k d hk).2,
        List.getElem?_eq_getElem (show s + k < rs.length by omega)]
      rfl

/-- Every read of `HashMapBuffer`. -/
theorem shows_points (hl : Solid l) (h : AllLen l.size rs) :
    ShowsPoints (ofRecords l rs) l (rs.map (pointOf l)) where
  len_eq := by simp [BorrowedBuffer.len]
  layout_eq := rfl
  getPoint_ok := by
    exact fun i p data hp hd => getPoint_points hl h hp hd
  getPoint_panic := by
    intro i data hi _
    exact getPoint_panic hl h (by simpa using hi) data
  getPointRange_ok := by
    exact fun s e data hse he hd => getPointRange_points hl h hse he hd
  getPointRange_panic := by
    intro s e data hse he hd
    exact getPointRange_panic hl h hse (by simpa using he) data hd
  getAttribute_eq := by
    intro d i data hd
    exact getAttribute_eq' hl h d i data hd
  getAttributeUnchecked_eq := by
    intro m i data hm hd
    exact getAttributeUnchecked_eq' hl h m i data hd
  getAttributeRange_eq := by
    intro d s e data hse hd
    apply getAttributeRange_of_unchecked (l := l) rfl _ _ _ _ d s e data hse hd
    · intro p hp m hm
      obtain ⟨r, hr, rfl⟩ := List.mem_map.1 hp
      refine ⟨_, by rw [pointOf_get, find_def_mem hl hm]; rfl, ?_⟩
      have := hl.inside m hm
      exact length_window (by have := h r hr; omega)
    · intro p hp d hd
      obtain ⟨r, hr, rfl⟩ := List.mem_map.1 hp
      rw [pointOf_get, find_def_none hd]; rfl
    · intro m i data hm hd
      exact getAttributeUnchecked_eq' hl h m i data hd
    · intro m i data hm hi
      exact getAttributeUnchecked_panic hl h m hm i (by simpa using hi) data

end
end HashMapBuffer
end Pasture
