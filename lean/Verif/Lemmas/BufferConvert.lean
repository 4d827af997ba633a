import Verif.Model.BufferConvert
import Verif.Lemmas.Convert
import Verif.Lemmas.ViewsShow
import Verif.Lemmas.Buffers

/-! # The loops of `BufferLayoutConverter` -/

namespace Pasture

open Spec BorrowedBuffer

/-! ### lists -/

theorem mapM_ok {α β : Type} {f : α → Out β} {g : α → β} : ∀ {xs : List α}, (∀ x ∈ xs, f x = .ok (g x)) →
    xs.mapM f = .ok (xs.map g) := by
  intro xs
  induction xs with
  | nil => intro _; rfl
  | cons x xs ih =>
    intro h
    rw [List.mapM_cons, h x (by simp), ih (fun y hy => h y (by simp [hy]))]
    rfl

theorem chunksExact_ok {n : Nat} {xs : List Bytes} (hn : 0 < n) (h : AllLen n xs) :
    chunksExact n xs.flatten = .ok xs := by
  unfold chunksExact
  rw [show assertThat (decide (n ≠ 0)) = .ok () by unfold assertThat; rw [if_pos (decide_eq_true (by omega))]]
  simp only [bind, Except.bind, pure, Except.pure]
  rw [h.flatten_length, Nat.mul_div_cancel _ hn]
  exact congrArg Except.ok (recordsOf_flatten h rfl)

theorem replaceChunks_all {data : Bytes} {xs : List Bytes} (h : xs.flatten.length = data.length) :
    replaceChunks data xs = xs.flatten := by
  unfold replaceChunks
  rw [h]; simp

/-- The values `vs` of attribute `m` for the points from `a` on. -/
def fillAttr (m : Member) (a : Nat) (vs rs : List Bytes) : List Bytes :=
  rs.mapIdx fun j r => if a ≤ j ∧ j < a + vs.length then overwrite r m.offset ((vs[j - a]?).getD []) else r

theorem fillAttr_length (m : Member) (a : Nat) (vs rs : List Bytes) : (fillAttr m a vs rs).length = rs.length := by
  simp [fillAttr]

theorem fillAttr_allLen {n : Nat} {m : Member} {a : Nat} {vs rs : List Bytes} (h : AllLen n rs)
    (hm : m.offset + m.size ≤ n) (hv : AllLen m.size vs) : AllLen n (fillAttr m a vs rs) := by
  unfold fillAttr
  apply allLen_mapIdx h
  intro i r hr
  split
  · next hc =>
    rw [length_overwrite]
    · exact hr
    · have : i - a < vs.length := by omega
      rw [List.getElem?_eq_getElem this]
      have := hv _ (List.getElem_mem this)
      simp only [Option.getD_some]
      omega
  · exact hr

theorem setAttrs_eq_fill {m : Member} {a b : Nat} {vs rs : List Bytes} (hv : AllLen m.size vs)
    (hab : a + vs.length = b) : HashMapBuffer.setAttrs m a b vs.flatten rs = fillAttr m a vs rs := by
  unfold HashMapBuffer.setAttrs fillAttr
  rw [← hab]
  apply List.ext_getElem?
  intro j
  simp only [List.getElem?_mapIdx]
  cases rs[j]? with
  | none => rfl
  | some r =>
    simp only [Option.map_some]
    by_cases hc : a ≤ j ∧ j < a + vs.length
    · rw [if_pos hc, if_pos hc]
      have : j - a < vs.length := by omega
      rw [List.getElem?_eq_getElem this, window_block hv (List.getElem?_eq_getElem this)]
      rfl
    · rw [if_neg hc, if_neg hc]

theorem overwrite_overwrite {r v w : Bytes} {o : Nat} (hv : o + v.length ≤ r.length) (hw : w.length = v.length) :
    overwrite (overwrite r o v) o w = overwrite r o w := by
  unfold overwrite
  have h1 : (r.take o).length = o := by simp; omega
  have e1 : (r.take o ++ v ++ r.drop (o + v.length)).take o = r.take o := by
    rw [List.append_assoc, List.take_left' h1]
  rw [e1, List.drop_left' (by rw [List.length_append, h1, hw]), hw]

theorem fillAttr_fillAttr {n : Nat} {m : Member} {a : Nat} {vs ws rs : List Bytes} (h : AllLen n rs)
    (hm : m.offset + m.size ≤ n) (hv : AllLen m.size vs) (hw : AllLen m.size ws) (hl : ws.length = vs.length) :
    fillAttr m a ws (fillAttr m a vs rs) = fillAttr m a ws rs := by
  unfold fillAttr
  apply List.ext_getElem?
  intro j
  simp only [List.getElem?_mapIdx, hl]
  cases hr : rs[j]? with
  | none => rfl
  | some r =>
    simp only [Option.map_some]
    by_cases hc : a ≤ j ∧ j < a + vs.length
    · simp only [if_pos hc]
      have h1 : j - a < vs.length := by omega
      have h2 : j - a < ws.length := by omega
      rw [List.getElem?_eq_getElem h1, List.getElem?_eq_getElem h2]
      simp only [Option.getD_some]
      have := h.getElem hr
      have := hv _ (List.getElem_mem h1)
      have := hw _ (List.getElem_mem h2)
      rw [overwrite_overwrite (by omega) (by omega)]
    · simp only [if_neg hc]

theorem vals_fillAttr {l : PointLayout} (hl : Solid l) {m : Member} (hm : m ∈ l.attributes) {a : Nat}
    {vs rs : List Bytes} (h : AllLen l.size rs) (hv : AllLen m.size vs) (ha : a + vs.length ≤ rs.length) :
    ((vals m (fillAttr m a vs rs)).drop a).take vs.length = vs := by
  apply List.ext_getElem?
  intro j
  unfold vals fillAttr
  rw [List.getElem?_take]
  by_cases hj : j < vs.length
  · have hr : a + j < rs.length := by omega
    rw [if_pos hj]
    simp only [List.getElem?_drop, List.getElem?_map, List.getElem?_mapIdx, List.getElem?_eq_getElem hr,
      Option.map_some]
    rw [if_pos (by omega), show a + j - a = j by omega, List.getElem?_eq_getElem hj, Option.getD_some,
      window_overwrite hl (h.getElem (List.getElem?_eq_getElem hr)) hm (hv _ (List.getElem_mem hj)) hm, if_pos rfl]
  · rw [if_neg hj, List.getElem?_eq_none (by omega)]

/-! ### raw views of an interleaved buffer -/

namespace RawAttributeView

theorem index_ok {rs : List Bytes} {n : Nat} (h : AllLen n rs) {m : Member} (hm : m.offset + m.size ≤ n)
    {i : Nat} {r : Bytes} (hi : rs[i]? = some r) :
    (⟨rs.flatten, m.offset, n, m.size⟩ : RawAttributeView).index i = .ok (window r m.offset m.size) := by
  have hlt : i < rs.length := (List.getElem?_eq_some_iff.1 hi).1
  have hb := Interleaved.block_end_le (sz := n) hlt
  unfold index
  simp only
  rw [show m.offset + n * i = i * n + m.offset by rw [Nat.mul_comm, Nat.add_comm],
    sliceGet_ok (by rw [h.flatten_length]; omega), window_flatten h hi _ _ hm]

theorem put_ok {rs : List Bytes} {n : Nat} (h : AllLen n rs) {m : Member} (hm : m.offset + m.size ≤ n)
    {i : Nat} (hi : i < rs.length) {v : Bytes} (hv : v.length = m.size) :
    (⟨rs.flatten, m.offset, n, m.size⟩ : RawAttributeView).put i v =
      .ok ⟨(rs.modify i fun r => overwrite r m.offset v).flatten, m.offset, n, m.size⟩ := by
  have hb := Interleaved.block_end_le (sz := n) hi
  unfold put
  simp only
  rw [show m.offset + n * i = i * n + m.offset by rw [Nat.mul_comm, Nat.add_comm],
    slicePut_ok (by omega) (by rw [h.flatten_length]; omega), put_flatten h hi _ _ (by omega)]
  rfl

theorem withInterleaved_ok {l : PointLayout} {rs rs' : List Bytes} (h : AllLen l.size rs)
    (h' : AllLen l.size rs') (hlen : rs'.length = rs.length) {m : Member}
    {f : RawAttributeView → Out RawAttributeView}
    (hf : f ⟨rs.flatten, m.offset, l.size, m.size⟩ = .ok ⟨rs'.flatten, m.offset, l.size, m.size⟩) :
    withInterleaved (Interleaved.ofRecords l rs) m f = .ok (Interleaved.ofRecords l rs') := by
  show Interleaved.getPointRangeMut (Interleaved.ofRecords l rs) ⟨0, rs.length⟩ _ = _
  unfold Interleaved.getPointRangeMut Interleaved.update
  have hr : (Interleaved.ofRecords l rs).read ((Interleaved.ofRecords l rs).byteRangeOfPoints ⟨0, rs.length⟩) =
      .ok rs.flatten := by
    unfold Interleaved.read Interleaved.byteRangeOfPoints
    rw [sliceGet_blocks h (by simp) (by simp)]
    simp
  rw [hr]
  simp only [bind, Except.bind]
  rw [show (layout (Interleaved.ofRecords l rs)).size = l.size from rfl, hf]
  simp only [pure, Except.pure]
  unfold Interleaved.write Interleaved.byteRangeOfPoints
  rw [slicePut_ok (by rw [h'.flatten_length, hlen]; simp) (by rw [h.flatten_length])]
  simp only [bind, Except.bind, pure, Except.pure, Nat.zero_mul]
  rw [put_all (by rw [h'.flatten_length, h.flatten_length, hlen])]
  unfold Interleaved.ofRecords
  rw [hlen]

end RawAttributeView

/-- `rep rs` is a buffer whose mutable memory is that of the `n` records `rs`. -/
def HoldsMemory {τ : Type} [InterleavedBufferMut τ] (l : PointLayout) (n : Nat) (rep : List Bytes → τ) : Prop :=
  ∀ (rs rs' : List Bytes) (m : Member) (f : RawAttributeView → Out RawAttributeView), AllLen l.size rs →
    AllLen l.size rs' → rs.length = n → rs'.length = n →
    f ⟨rs.flatten, m.offset, l.size, m.size⟩ = .ok ⟨rs'.flatten, m.offset, l.size, m.size⟩ →
    RawAttributeView.withInterleaved (rep rs) m f = .ok (rep rs')

theorem holds_vector (l : PointLayout) (n : Nat) : HoldsMemory l n (Interleaved.ofRecords l) := by
  intro rs rs' m f h h' hn hn' hf
  exact RawAttributeView.withInterleaved_ok h h' (hn'.trans hn.symm) hf

theorem range'_zip {n a b : Nat} : (List.range' a n).zip (List.range' b n) =
    (List.range' 0 n).map fun k => (a + k, b + k) := by
  apply List.ext_getElem
  · simp
  · intro i h1 h2
    simp

theorem forLoop_listMap {α β σ : Type} (g : α → β) (xs : List α) (s : σ) (f : σ → β → Out σ) :
    forLoop (xs.map g) s f = forLoop xs s fun s x => f s (g x) := by
  unfold forLoop
  rw [List.foldlM_map]

/-- A loop that writes the values `vs` through a raw view, one after the other. -/
theorem view_loop {n : Nat} {rs vs : List Bytes} (h : AllLen n rs) {m : Member} (hm : m.offset + m.size ≤ n)
    (hv : AllLen m.size vs) {a : Nat} (ha : a + vs.length ≤ rs.length)
    {body : RawAttributeView → Nat → Out RawAttributeView}
    (step : ∀ k v (view : RawAttributeView) t, vs[k]? = some v → view.index (a + k) = .ok t →
      t.length = m.size → body view k = view.put (a + k) v) :
    forLoop (List.range' 0 vs.length) (⟨rs.flatten, m.offset, n, m.size⟩ : RawAttributeView) body =
      .ok ⟨(fillAttr m a vs rs).flatten, m.offset, n, m.size⟩ := by
  have := modify_loop (rep := fun rs : List Bytes => (⟨rs.flatten, m.offset, n, m.size⟩ : RawAttributeView))
    (inv := AllLen n) (F := fun k r => overwrite r m.offset ((vs[k]?).getD [])) (body := body)
    0 vs.length a rs h (by
      intro k ys hk hys hlen
      have e := List.getElem?_eq_getElem hk
      have hvl := hv _ (List.getElem_mem hk)
      have hj : a + k < ys.length := by omega
      have ej := List.getElem?_eq_getElem hj
      rw [e]
      simp only [Option.getD_some, Nat.zero_add]
      refine ⟨?_, allLen_modify hys _ ?_⟩
      · have hi := RawAttributeView.index_ok hys hm ej
        rw [step k vs[k] _ _ e hi (length_window (by have := hys.getElem ej; omega)),
          RawAttributeView.put_ok hys hm hj hvl]
      · intro r hr
        rw [length_overwrite (by omega), hr])
  exact this


/-! ### one value -/

/-- A mapping that computes `f`. -/
structure Does (m : AttributeMapping) (f : Bytes → Bytes) : Prop where
  size : ∀ s, s.length = m.source.size → (f s).length = m.target.size
  convert : ∀ c, m.converter = some c → ∀ scratch s t : Bytes, scratch.length = m.source.size →
    s.length = m.source.size → t.length = m.target.size → m.applyConverter c scratch s t = .ok (f s)
  copy : m.converter = none → m.source.size = m.target.size ∧ ∀ s : Bytes, s.length = m.source.size →
    match m.transformation with
    | some tr => tr.run s = .ok (f s)
    | none => f s = s
  buffered : ∀ scratch s t : Bytes, m.source.size ≤ scratch.length → s.length = m.source.size →
    t.length = m.target.size → m.applyBuffered scratch m.source.size s t = .ok (f s)

theorem copyFromSlice_ok {dst src : Bytes} (h : src.length = dst.length) : copyFromSlice dst src = .ok src := by
  unfold copyFromSlice; rw [if_pos h]

theorem sliceGet_prefix {data : Bytes} {n : Nat} (h : n ≤ data.length) :
    sliceGet data 0 n = .ok (data.take n) := by
  unfold sliceGet; rw [if_pos ⟨by omega, h⟩]; simp

theorem transformation_run {tr : Transformation} {v : Bytes} (h : v.length = tr.size)
    (hf : (tr.func v).length = tr.size) : tr.run v = .ok (tr.func v) := by
  unfold Transformation.run
  rw [if_pos (by omega), List.take_of_length_le (by omega), put_all (by rw [hf, h])]

/-- The default mapping computes the conversion. -/
theorem makeDefault_ok {s t : Member} {f : Bytes → Bytes} (hf : conversion s.datatype t.datatype = some f) :
    ∃ m, AttributeMapping.makeDefault s t = .ok m ∧ m.source = s ∧ m.target = t ∧ m.transformation = none ∧
      (m.converter = none → s.datatype = t.datatype ∧ f = id) ∧
      ∀ c, m.converter = some c → Converts c s.datatype t.datatype f := by
  unfold AttributeMapping.makeDefault
  by_cases h : s.datatype = t.datatype
  · rw [if_pos h]
    unfold conversion at hf
    rw [if_pos h] at hf
    exact ⟨_, rfl, rfl, rfl, rfl, fun _ => ⟨h, (Option.some.inj hf).symm⟩, fun c hc => by cases hc⟩
  · rw [if_neg h]
    obtain ⟨c, h1, h2⟩ := (generic_spec h).2 f hf
    rw [h1]
    exact ⟨⟨t, s, some c, none⟩, rfl, rfl, rfl, rfl, fun hc => (by cases hc),
      fun c' hc => (by cases hc; exact h2)⟩

theorem makeDefault_panic {s t : Member} (hf : conversion s.datatype t.datatype = none) :
    AttributeMapping.makeDefault s t = .error .panic := by
  have h : s.datatype ≠ t.datatype := by
    intro h
    unfold conversion at hf
    rw [if_pos h] at hf
    cases hf
  unfold AttributeMapping.makeDefault
  rw [if_neg h, (generic_spec h).1 hf]
  rfl

theorem conversion_size {a b : DataType} {f : Bytes → Bytes} (h : conversion a b = some f) {v : Bytes}
    (hv : v.length = a.size) : (f v).length = b.size := by
  by_cases hab : a = b
  · subst hab
    unfold conversion at h
    rw [if_pos rfl] at h
    rw [← Option.some.inj h]
    exact hv
  · obtain ⟨c, _, h2⟩ := (generic_spec hab).2 f h
    exact h2.size v

theorem does_default {s t : Member} {f : Bytes → Bytes} (hf : conversion s.datatype t.datatype = some f)
    {m : AttributeMapping} (hm : AttributeMapping.makeDefault s t = .ok m) :
    m.source = s ∧ m.target = t ∧ Does m f := by
  obtain ⟨m', h0, rfl, rfl, h3, h4, h5⟩ := makeDefault_ok hf
  rw [h0] at hm
  cases hm
  refine ⟨rfl, rfl, ?_⟩
  constructor
  · intro s hs; exact conversion_size hf hs
  · intro c hc scratch s t _ hs ht
    unfold AttributeMapping.applyConverter
    rw [h3]
    exact (h5 c hc).run s t hs ht
  · intro hc
    obtain ⟨h6, h7⟩ := h4 hc
    refine ⟨congrArg DataType.size h6, ?_⟩
    intro s _
    rw [h3, h7]
    rfl
  · intro scratch s t _ hs ht
    unfold AttributeMapping.applyBuffered
    rw [h3]
    cases hc : m.converter with
    | some c => exact (h5 c hc).run s t hs ht
    | none =>
      obtain ⟨h6, h7⟩ := h4 hc
      rw [h7]
      have : m.source.size = m.target.size := congrArg DataType.size h6
      exact copyFromSlice_ok (by omega)

theorem does_transformed {s t : Member} {f g : Bytes → Bytes} {onSource : Bool} {ty : DataType}
    (hf : conversion s.datatype t.datatype = some f)
    (hty : ty = if onSource then s.datatype else t.datatype)
    (hg : ∀ v : Bytes, v.length = ty.size → (g v).length = ty.size)
    {m : AttributeMapping} (hm : AttributeMapping.makeTransformed s t ⟨ty.size, g, onSource⟩ = .ok m) :
    m.source = s ∧ m.target = t ∧ Does m (fun v => if onSource then f (g v) else g (f v)) := by
  obtain ⟨m', h0, rfl, rfl, h3, h4, h5⟩ := makeDefault_ok hf
  unfold AttributeMapping.makeTransformed at hm
  rw [h0] at hm
  cases hm
  refine ⟨rfl, rfl, ?_⟩
  have hgs : onSource = true → ∀ v : Bytes, v.length = m'.source.size → (g v).length = m'.source.size := by
    intro ho; rw [ho] at hty; subst hty; exact hg
  have hgt : onSource = false → ∀ v : Bytes, v.length = m'.target.size → (g v).length = m'.target.size := by
    intro ho; rw [ho] at hty; subst hty; exact hg
  have hts : onSource = true → ty.size = m'.source.size := by
    intro ho; rw [ho] at hty; subst hty; rfl
  have htt : onSource = false → ty.size = m'.target.size := by
    intro ho; rw [ho] at hty; subst hty; rfl
  have hsz : ∀ v : Bytes, v.length = m'.source.size → (f v).length = m'.target.size :=
    fun v hv => conversion_size hf hv
  constructor
  · intro s hs
    cases onSource with
    | true => exact hsz _ (hgs rfl _ hs)
    | false => exact hgt rfl _ (hsz _ hs)
  · intro c hc scratch s t hscr hs ht
    have hcv := h5 c hc
    unfold AttributeMapping.applyConverter
    cases onSource with
    | true =>
      simp only [if_true]
      rw [copyFromSlice_ok (by rw [hs]; exact hscr.symm)]
      simp only [bind, Except.bind]
      rw [transformation_run (by rw [hs]; exact (hts rfl).symm) (by rw [hgs rfl s hs]; exact (hts rfl).symm)]
      exact hcv.run _ _ (hgs rfl s hs) ht
    | false =>
      simp only [Bool.false_eq_true, if_false]
      rw [hcv.run _ _ hs ht]
      simp only [bind, Except.bind]
      exact transformation_run (by rw [hsz s hs]; exact (htt rfl).symm)
        (by rw [hgt rfl _ (hsz s hs)]; exact (htt rfl).symm)
  · intro hc
    obtain ⟨h6, h7⟩ := h4 hc
    have e : m'.source.size = m'.target.size := congrArg DataType.size h6
    refine ⟨e, ?_⟩
    intro s hs
    simp only
    rw [h7]
    have : (if onSource then id (g s) else g (id s)) = g s := by cases onSource <;> rfl
    rw [this]
    have hty' : ty.size = m'.source.size := by
      cases onSource with
      | true => exact hts rfl
      | false => rw [htt rfl, e]
    exact transformation_run (by rw [hs]; exact hty'.symm) (hg s (by rw [hs]; exact hty'.symm))
  · intro scratch s t hscr hs ht
    unfold AttributeMapping.applyBuffered
    have hscr : m'.source.size ≤ scratch.length := hscr
    have hs : s.length = m'.source.size := hs
    have ht : t.length = m'.target.size := ht
    have hbuf : copyFromSlice (scratch.take m'.source.size) s = .ok s := copyFromSlice_ok (by simp; omega)
    cases hc : m'.converter with
    | some c =>
      have hcv := h5 c hc
      cases onSource with
      | true =>
        simp only [if_true]
        rw [sliceGet_prefix hscr]
        simp only [bind, Except.bind]
        rw [hbuf]
        simp only
        rw [transformation_run (by rw [hs]; exact (hts rfl).symm) (by rw [hgs rfl s hs]; exact (hts rfl).symm)]
        exact hcv.run _ _ (hgs rfl s hs) ht
      | false =>
        simp only [Bool.false_eq_true, if_false]
        rw [hcv.run _ _ hs ht]
        simp only [bind, Except.bind]
        exact transformation_run (by rw [hsz s hs]; exact (htt rfl).symm)
          (by rw [hgt rfl _ (hsz s hs)]; exact (htt rfl).symm)
    | none =>
      obtain ⟨h6, h7⟩ := h4 hc
      have e : m'.source.size = m'.target.size := congrArg DataType.size h6
      have hty' : ty.size = m'.source.size := by
        cases onSource with
        | true => exact hts rfl
        | false => rw [htt rfl, e]
      simp only
      rw [sliceGet_prefix hscr]
      simp only [bind, Except.bind]
      rw [hbuf]
      simp only
      have hgl := hg s (by rw [hs]; exact hty'.symm)
      rw [transformation_run (by rw [hs]; exact hty'.symm) hgl]
      simp only
      rw [h7]
      have : (if onSource then id (g s) else g (id s)) = g s := by cases onSource <;> rfl
      rw [this]
      exact copyFromSlice_ok (by omega)

/-! ### one mapping -/

/-- Every point has a value of the right size for every attribute. -/
abbrev HasValues (l : PointLayout) (ps : List Point) : Prop :=
  ∀ p ∈ ps, ∀ m ∈ l.attributes, ∃ v, p.get m.definition = some v ∧ v.length = m.size

/-- The values of attribute `d` of the `n` points from `a` on. -/
def sourceVals (ps : List Point) (d : AttrDef) (a n : Nat) : List Bytes :=
  ((ps.drop a).take n).map fun p => (p.get d).getD []

theorem sourceVals_length {ps : List Point} {d : AttrDef} {a n : Nat} (h : a + n ≤ ps.length) :
    (sourceVals ps d a n).length = n := by
  simp [sourceVals]; omega

theorem sourceVals_get {ps : List Point} {d : AttrDef} {a n k : Nat} (hk : k < n) :
    (sourceVals ps d a n)[k]? = (ps[a + k]?).map fun p => (p.get d).getD [] := by
  simp [sourceVals, hk]

theorem sourceVals_allLen {l : PointLayout} {ps : List Point} (hp : HasValues l ps) {m : Member}
    (hm : m ∈ l.attributes) (a n : Nat) : AllLen m.size (sourceVals ps m.definition a n) := by
  intro v hv
  obtain ⟨p, hpm, rfl⟩ := List.mem_map.1 hv
  obtain ⟨w, hw, hwl⟩ := hp p (List.mem_of_mem_drop (List.mem_of_mem_take hpm)) m hm
  rw [hw]
  exact hwl

theorem mapM_get {l : PointLayout} {ps : List Point} (hp : HasValues l ps) {m : Member}
    (hm : m ∈ l.attributes) :
    (ps.mapM fun p => p.get m.definition) = some (ps.map fun p => (p.get m.definition).getD []) := by
  induction ps with
  | nil => rfl
  | cons p ps ih =>
    obtain ⟨w, hw, _⟩ := hp p (by simp) m hm
    rw [List.mapM_cons, ih fun q hq => hp q (by simp [hq]), hw]
    simp [hw]

theorem columnar_source {σ : Type} [ColumnarBuffer σ] {source : σ} {l : PointLayout} {ps : List Point}
    (hl : Solid l) (h : ShowsColumns source l ps) {m : Member} (hm : m ∈ l.attributes) {a b : Nat}
    (hab : a ≤ b) (hb : b ≤ ps.length) :
    ColumnarBuffer.getAttributeRangeRef source m.definition ⟨a, b⟩ =
      .ok (sourceVals ps m.definition a (b - a)).flatten := by
  have hcase : a < b ∨ a = b ∧ b ≤ ps.length ∧ m.definition ∈ l.attributes.map Member.definition := by
    by_cases h0 : a < b
    · exact .inl h0
    · exact .inr ⟨by omega, hb, List.mem_map_of_mem hm⟩
  rw [h.getAttributeRangeRef_eq m.definition a b hcase]
  unfold values? range?
  rw [if_pos hb]
  have hp := (h.points.typed hl).1
  have := mapM_get (l := l) (ps := (ps.drop a).take (b - a))
    (fun p hp' => hp p (List.mem_of_mem_drop (List.mem_of_mem_take hp'))) hm
  simp only [bind, Option.bind, this]
  rfl

theorem interleaved_source {σ : Type} [InterleavedBuffer σ] {source : σ} {l : PointLayout} {rs : List Bytes}
    (h : ShowsRecords source l rs) (m : Member) :
    RawAttributeView.fromInterleaved source m = .ok ⟨rs.flatten, m.offset, l.size, m.size⟩ := by
  unfold RawAttributeView.fromInterleaved
  rw [wholeRange h, h.points.layout_eq]
  rfl

theorem interleaved_index {l : PointLayout} (hl : Solid l) {rs : List Bytes} (h : AllLen l.size rs)
    {m : Member} (hm : m ∈ l.attributes) {a n k : Nat} (hn : a + n ≤ rs.length) (hk : k < n) :
    ∃ v, (sourceVals (rs.map (pointOf l)) m.definition a n)[k]? = some v ∧ v.length = m.size ∧
      (⟨rs.flatten, m.offset, l.size, m.size⟩ : RawAttributeView).index (a + k) = .ok v := by
  have hlt : a + k < rs.length := by omega
  have e := List.getElem?_eq_getElem hlt
  refine ⟨window rs[a + k] m.offset m.size, ?_, ?_, RawAttributeView.index_ok h (hl.inside m hm) e⟩
  · rw [sourceVals_get hk, List.getElem?_map, e]
    simp only [Option.map_some, pointOf_get, find_def_mem hl hm, Option.getD_some]
  · exact length_window (by have := h.getElem e; have := hl.inside m hm; omega)

/-- The values a mapping stores. -/
abbrev stored (ps : List Point) (m : AttributeMapping) (f : Bytes → Bytes) (a n : Nat) : List Bytes :=
  (sourceVals ps m.source.definition a n).map f

section step
variable {ls lt : PointLayout} (hs : Solid ls) (ht : Solid lt) {ps : List Point} (hp : HasValues ls ps)
  {m : AttributeMapping} {f : Bytes → Bytes} (hd : Does m f) (hms : m.source ∈ ls.attributes)
  (hmt : m.target ∈ lt.attributes) {a b c d : Nat} (hab : a ≤ b) (hb : b ≤ ps.length) (hcd : c ≤ d)
  (hn : b - a = d - c)
include hp hd hms

theorem stored_allLen : AllLen m.target.size (stored ps m f a (b - a)) := by
  intro v hv
  obtain ⟨x, hx, rfl⟩ := List.mem_map.1 hv
  exact hd.size x (sourceVals_allLen hp hms _ _ x hx)

include hs ht hmt hab hb hcd hn

theorem columnarToColumnar_step {σ : Type} [ColumnarBuffer σ] {source : σ} (h : ShowsColumns source ls ps)
    {rs : List Bytes} (hr : AllLen lt.size rs) (hdr : d ≤ rs.length) :
    BufferLayoutConverter.columnarToColumnarStep source ⟨a, b⟩ ⟨c, d⟩ (HashMapBuffer.ofRecords lt rs) m
      = .ok (HashMapBuffer.ofRecords lt (fillAttr m.target c (stored ps m f a (b - a)) rs)) := by
  have hsrc := columnar_source hs h hms hab hb
  have hval := sourceVals_allLen hp hms a (b - a)
  have hst := stored_allLen (a := a) (b := b) hp hd hms
  have hlen : (sourceVals ps m.source.definition a (b - a)).length = b - a := sourceVals_length (by omega)
  have hstl : (stored ps m f a (b - a)).length = b - a := by rw [List.length_map, hlen]
  have hpos := hs.positive _ hms
  have htpos := ht.positive _ hmt
  have hold := vals_allLen hr (ht.inside _ hmt)
  have hold2 : AllLen m.target.size (((vals m.target rs).drop c).take (d - c)) :=
    fun v hv => hold v (List.mem_of_mem_drop (List.mem_of_mem_take hv))
  have hold2l : (((vals m.target rs).drop c).take (d - c)).length = d - c := by
    simp [vals_length]; omega
  unfold BufferLayoutConverter.columnarToColumnarStep
  rw [hsrc]
  simp only [bind, Except.bind]
  cases hc : m.converter with
  | some cv =>
    have := HashMapBuffer.getAttributeRangeMut_ok ht hr hmt hcd hdr
      (f := fun tdata => do
        let ss ← chunksExact m.source.size (sourceVals ps m.source.definition a (b - a)).flatten
        let ts ← chunksExact m.target.size tdata
        let new ← (ss.zip ts).mapM fun (s, t) => m.applyConverter cv (zeros m.source.size) s t
        pure (replaceChunks tdata new)) (data := (stored ps m f a (b - a)).flatten) (by
      rw [chunksExact_ok hpos hval]
      simp only [bind, Except.bind]
      rw [chunksExact_ok htpos hold2]
      simp only
      rw [mapM_ok (g := fun x => f x.1) (by
        rintro ⟨s, t⟩ hx
        have := List.of_mem_zip hx
        exact hd.convert cv hc _ s t (by simp [zeros]) (hval s this.1) (hold2 t this.2))]
      simp only [pure, Except.pure]
      rw [show (List.zip (sourceVals ps m.source.definition a (b - a))
          (((vals m.target rs).drop c).take (d - c))).map (fun x => f x.1) = stored ps m f a (b - a) by
        unfold stored
        rw [show (fun x : Bytes × Bytes => f x.1) = f ∘ Prod.fst from rfl, ← List.map_map,
          List.map_fst_zip (by omega)]]
      rw [replaceChunks_all (by rw [hst.flatten_length, hold2.flatten_length, hstl, hold2l, hn])])
      (by rw [hst.flatten_length, hstl, hn])
    rw [setAttrs_eq_fill hst (by omega)] at this
    exact this
  | none =>
    obtain ⟨he, hcopy⟩ := hd.copy hc
    have hset := HashMapBuffer.setAttributeRange_ok ht hr hmt hcd hdr
      (data := (sourceVals ps m.source.definition a (b - a)).flatten)
      (by rw [hval.flatten_length, hlen, he, hn])
    rw [setAttrs_eq_fill (he ▸ hval) (by omega)] at hset
    have hset' : BorrowedMutBuffer.setAttributeRange (HashMapBuffer.ofRecords lt rs) m.target.definition ⟨c, d⟩
      (sourceVals ps m.source.definition a (b - a)).flatten = _ := hset
    simp only
    rw [hset']
    simp only
    cases htr : m.transformation with
    | none =>
      rw [htr] at hcopy
      simp only [pure, Except.pure]
      congr 3
      conv => lhs; rw [← List.map_id (sourceVals ps m.source.definition a (b - a))]
      apply List.map_congr_left
      intro x hx
      exact (hcopy x (hval x hx)).symm
    | some t =>
      rw [htr] at hcopy
      have hr2 := fillAttr_allLen (a := c) (vs := sourceVals ps m.source.definition a (b - a)) hr
        (ht.inside _ hmt) (he ▸ hval)
      have hvals : ((vals m.target (fillAttr m.target c (sourceVals ps m.source.definition a (b - a)) rs)).drop c).take
          (d - c) = sourceVals ps m.source.definition a (b - a) := by
        rw [← hn]
        have := vals_fillAttr (a := c) ht hmt hr (he ▸ hval) (by rw [hlen]; omega)
        rw [hlen] at this
        exact this
      have := HashMapBuffer.getAttributeRangeMut_ok ht hr2 hmt hcd (by rw [fillAttr_length]; exact hdr)
        (f := fun tdata => do
          let ts ← chunksExact m.target.size tdata
          let new ← ts.mapM t.run
          pure (replaceChunks tdata new)) (data := (stored ps m f a (b - a)).flatten) (by
        rw [hvals, chunksExact_ok htpos (he ▸ hval)]
        simp only [bind, Except.bind]
        rw [mapM_ok (g := f) fun x hx => hcopy x (hval x hx)]
        simp only [pure, Except.pure]
        rw [replaceChunks_all (by rw [hst.flatten_length, hval.flatten_length, hstl, hlen, he])])
        (by rw [hst.flatten_length, hstl, hn])
      rw [setAttrs_eq_fill hst (by omega), fillAttr_fillAttr hr (ht.inside _ hmt) (he ▸ hval) hst (by omega)] at this
      exact this

theorem columnarToInterleaved_step {σ : Type} [ColumnarBuffer σ] {source : σ} (h : ShowsColumns source ls ps)
    {τ : Type} [InterleavedBufferMut τ] {rep : List Bytes → τ} {rs : List Bytes}
    (hrep : HoldsMemory lt rs.length rep) (hr : AllLen lt.size rs) (hdr : d ≤ rs.length) :
    BufferLayoutConverter.columnarToInterleavedStep source ⟨a, b⟩ ⟨c, d⟩ (rep rs) m
      = .ok (rep (fillAttr m.target c (stored ps m f a (b - a)) rs)) := by
  have hsrc := columnar_source hs h hms hab hb
  have hval := sourceVals_allLen hp hms a (b - a)
  have hst := stored_allLen (a := a) (b := b) hp hd hms
  have hlen : (sourceVals ps m.source.definition a (b - a)).length = b - a := sourceVals_length (by omega)
  have hstl : (stored ps m f a (b - a)).length = b - a := by rw [List.length_map, hlen]
  have hpos := hs.positive _ hms
  unfold BufferLayoutConverter.columnarToInterleavedStep
  rw [hsrc]
  simp only [bind, Except.bind]
  apply hrep _ _ _ _ hr (fillAttr_allLen hr (ht.inside _ hmt) hst) rfl (fillAttr_length ..)
  rw [chunksExact_ok hpos hval]
  simp only
  have hz : (sourceVals ps m.source.definition a (b - a)).zipIdx =
      (List.range' 0 (stored ps m f a (b - a)).length).map fun k =>
        ((((sourceVals ps m.source.definition a (b - a))[k]?).getD [], k) : Bytes × Nat) := by
    apply List.ext_getElem
    · simp
    · intro i h1 h2
      have : i < (sourceVals ps m.source.definition a (b - a)).length := by simpa using h1
      simp [List.getElem?_eq_getElem this]
  rw [hz, forLoop_listMap]
  apply view_loop hr (ht.inside _ hmt) hst (by omega)
  intro k v view t hk hidx htl
  have hk' : k < (sourceVals ps m.source.definition a (b - a)).length := by
    have := (List.getElem?_eq_some_iff.1 hk).1
    rwa [List.length_map] at this
  have hx := List.getElem?_eq_getElem hk'
  have hxl := hval _ (List.getElem_mem hk')
  have hv : v = f (sourceVals ps m.source.definition a (b - a))[k] := by
    rw [List.getElem?_map, hx] at hk
    exact (Option.some.inj hk).symm
  rw [hx]
  simp only [Option.getD_some]
  rw [show k + c = c + k from Nat.add_comm _ _, hidx]
  simp only
  cases hc : m.converter with
  | some cv =>
    simp only
    rw [hd.convert cv hc _ _ _ (by simp [zeros]) hxl htl, hv]
  | none =>
    obtain ⟨he, hcopy⟩ := hd.copy hc
    simp only
    rw [copyFromSlice_ok (by rw [hxl, htl, he])]
    simp only
    have hcx := hcopy _ hxl
    cases htr : m.transformation with
    | none =>
      rw [htr] at hcx
      simp only at hcx
      simp only [pure, Except.pure]
      rw [hv, hcx]
    | some tr =>
      rw [htr] at hcx
      simp only at hcx
      simp only [hcx]
      rw [hv]

end step

section step
variable {ls lt : PointLayout} (hs : Solid ls) (ht : Solid lt) {qs : List Bytes} (hq : AllLen ls.size qs)
  {m : AttributeMapping} {f : Bytes → Bytes} (hd : Does m f) (hms : m.source ∈ ls.attributes)
  (hmt : m.target ∈ lt.attributes) {a b c d : Nat} (hab : a ≤ b) (hb : b ≤ qs.length) (hcd : c ≤ d)
  (hn : b - a = d - c) {size : Nat} (hsize : m.requiredBufferSize ≤ size)
include hs ht hq hd hms hmt hab hb hcd hn hsize

theorem interleavedToColumnar_step {σ : Type} [InterleavedBuffer σ] {source : σ} (h : ShowsRecords source ls qs)
    {rs : List Bytes} (hr : AllLen lt.size rs) (hdr : d ≤ rs.length) :
    BufferLayoutConverter.interleavedToColumnarStep source ⟨a, b⟩ ⟨c, d⟩ size (HashMapBuffer.ofRecords lt rs) m
      = .ok (HashMapBuffer.ofRecords lt
          (fillAttr m.target c (stored (qs.map (pointOf ls)) m f a (b - a)) rs)) := by
  have hp : HasValues ls (qs.map (pointOf ls)) := (h.points.typed hs).1
  have hval := sourceVals_allLen hp hms a (b - a)
  have hst := stored_allLen (a := a) (b := b) hp hd hms
  have hlen : (sourceVals (qs.map (pointOf ls)) m.source.definition a (b - a)).length = b - a :=
    sourceVals_length (by simp; omega)
  have hstl : (stored (qs.map (pointOf ls)) m f a (b - a)).length = b - a := by rw [List.length_map, hlen]
  have htpos := ht.positive _ hmt
  have hold := vals_allLen hr (ht.inside _ hmt)
  have hold2 : AllLen m.target.size (((vals m.target rs).drop c).take (d - c)) :=
    fun v hv => hold v (List.mem_of_mem_drop (List.mem_of_mem_take hv))
  have hold2l : (((vals m.target rs).drop c).take (d - c)).length = d - c := by
    simp [vals_length]; omega
  have hss : m.source.size ≤ size := Nat.le_trans (Nat.le_max_left ..) hsize
  unfold BufferLayoutConverter.interleavedToColumnarStep
  rw [interleaved_source h]
  simp only [bind, Except.bind]
  have := HashMapBuffer.getAttributeRangeMut_ok ht hr hmt hcd hdr
    (f := fun tdata => do
      let ts ← chunksExact m.target.size tdata
      let new ← ts.zipIdx.mapM fun (t, i) => do
        let s ← (⟨qs.flatten, m.source.offset, ls.size, m.source.size⟩ : RawAttributeView).index (i + a)
        m.applyBuffered (zeros size) s.length s t
      pure (replaceChunks tdata new)) (data := (stored (qs.map (pointOf ls)) m f a (b - a)).flatten) (by
    rw [chunksExact_ok htpos hold2]
    simp only [bind, Except.bind]
    rw [mapM_ok (g := fun x : Bytes × Nat =>
        ((stored (qs.map (pointOf ls)) m f a (b - a))[x.2]?).getD []) (by
      rintro ⟨t, i⟩ hx
      obtain ⟨_, hi, hti⟩ := List.mem_zipIdx hx
      have hi' : i < b - a := by omega
      obtain ⟨v, h1, h2, h3⟩ := interleaved_index hs hq hms (a := a) (n := b - a) (by omega) hi'
      rw [show i + a = a + i from Nat.add_comm _ _, h3]
      simp only
      rw [h2, hd.buffered _ _ _ (by simp [zeros]; omega) h2
        (hold2 _ (by rw [hti]; exact List.getElem_mem _)), List.getElem?_map, h1]
      rfl)]
    simp only [pure, Except.pure]
    rw [show ((((vals m.target rs).drop c).take (d - c)).zipIdx.map fun x : Bytes × Nat =>
        ((stored (qs.map (pointOf ls)) m f a (b - a))[x.2]?).getD []) =
        stored (qs.map (pointOf ls)) m f a (b - a) by
      apply List.ext_getElem
      · simp only [List.length_map, List.length_zipIdx]; rw [hold2l, hlen, hn]
      · intro i h1 h2
        simp [List.getElem?_eq_getElem (show i < (sourceVals (qs.map (pointOf ls)) m.source.definition a
          (b - a)).length by rwa [List.length_map] at h2)]]
    rw [replaceChunks_all (by rw [hst.flatten_length, hold2.flatten_length, hstl, hold2l, hn])])
    (by rw [hst.flatten_length, hstl, hn])
  rw [setAttrs_eq_fill hst (by omega)] at this
  exact this

theorem interleavedToInterleaved_step {σ : Type} [InterleavedBuffer σ] {source : σ}
    (h : ShowsRecords source ls qs)
    {τ : Type} [InterleavedBufferMut τ] {rep : List Bytes → τ} {rs : List Bytes}
    (hrep : HoldsMemory lt rs.length rep) (hr : AllLen lt.size rs) (hdr : d ≤ rs.length) :
    BufferLayoutConverter.interleavedToInterleavedStep source ⟨a, b⟩ ⟨c, d⟩ size (rep rs) m
      = .ok (rep (fillAttr m.target c (stored (qs.map (pointOf ls)) m f a (b - a)) rs)) := by
  have hp : HasValues ls (qs.map (pointOf ls)) := (h.points.typed hs).1
  have hval := sourceVals_allLen hp hms a (b - a)
  have hst := stored_allLen (a := a) (b := b) hp hd hms
  have hlen : (sourceVals (qs.map (pointOf ls)) m.source.definition a (b - a)).length = b - a :=
    sourceVals_length (by simp; omega)
  have hstl : (stored (qs.map (pointOf ls)) m f a (b - a)).length = b - a := by rw [List.length_map, hlen]
  have hss : m.source.size ≤ size := Nat.le_trans (Nat.le_max_left ..) hsize
  unfold BufferLayoutConverter.interleavedToInterleavedStep
  rw [interleaved_source h]
  simp only [bind, Except.bind]
  apply hrep _ _ _ _ hr (fillAttr_allLen hr (ht.inside _ hmt) hst) rfl (fillAttr_length ..)
  have hz : (Rng.toList ⟨a, b⟩).zip (Rng.toList ⟨c, d⟩) =
      (List.range' 0 (stored (qs.map (pointOf ls)) m f a (b - a)).length).map fun k => (a + k, c + k) := by
    unfold Rng.toList
    rw [hstl, ← range'_zip]
    simp only [hn]
  rw [hz, forLoop_listMap]
  apply view_loop hr (ht.inside _ hmt) hst (by omega)
  intro k v view t hk hidx htl
  have hk' : k < b - a := by
    have := (List.getElem?_eq_some_iff.1 hk).1
    omega
  obtain ⟨x, h1, h2, h3⟩ := interleaved_index hs hq hms (a := a) (n := b - a) (by omega) hk'
  rw [h3]
  simp only
  rw [hidx]
  simp only
  rw [hd.buffered _ _ _ (by simp [zeros]; omega) h2 htl]
  simp only
  rw [List.getElem?_map, h1] at hk
  rw [← Option.some.inj hk]

end step

/-! ### all mappings -/

/-- The converter follows the plan. -/
structure Realizes (conv : BufferLayoutConverter) (plan : Plan) : Prop where
  nodup : (conv.mappings.map fun m => m.target.definition).Nodup
  sources : ∀ m ∈ conv.mappings, m.source ∈ conv.fromLayout.attributes
  targets : ∀ m ∈ conv.mappings, m.target ∈ conv.toLayout.attributes
  rules : ∀ m ∈ conv.mappings, ∃ r, plan m.target.definition = some r ∧ r.source = m.source.definition ∧
    Does m r.value
  complete : ∀ d ∈ conv.toLayout.attributes.map Member.definition,
    (∀ m ∈ conv.mappings, m.target.definition ≠ d) → plan d = none

/-- The function the plan has for a mapping. -/
def planFn (plan : Plan) (m : AttributeMapping) : Bytes → Bytes :=
  match plan m.target.definition with
  | some r => r.value
  | none => id

theorem Realizes.does {conv : BufferLayoutConverter} {plan : Plan} (h : Realizes conv plan)
    {m : AttributeMapping} (hm : m ∈ conv.mappings) : Does m (planFn plan m) := by
  obtain ⟨r, h1, _, h3⟩ := h.rules m hm
  unfold planFn
  rw [h1]
  exact h3

/-- The records after all mappings. -/
def fillAll (plan : Plan) (ps : List Point) (a n c : Nat) (ms : List AttributeMapping) (rs : List Bytes) :
    List Bytes :=
  ms.foldl (fun rs m => fillAttr m.target c (stored ps m (planFn plan m) a n) rs) rs

theorem mappings_loop {τ : Type} {rep : List Bytes → τ} {size count : Nat}
    {body : τ → AttributeMapping → Out τ} {F : AttributeMapping → List Bytes → List Bytes} :
    ∀ {ms : List AttributeMapping},
    (∀ m ∈ ms, ∀ rs, AllLen size rs → rs.length = count → body (rep rs) m = .ok (rep (F m rs)) ∧
      AllLen size (F m rs) ∧ (F m rs).length = count) →
    ∀ {rs : List Bytes}, AllLen size rs → rs.length = count →
    forLoop ms (rep rs) body = .ok (rep (ms.foldl (fun rs m => F m rs) rs)) ∧
      AllLen size (ms.foldl (fun rs m => F m rs) rs) ∧
      (ms.foldl (fun rs m => F m rs) rs).length = count := by
  intro ms
  induction ms with
  | nil => intro _ rs h1 h2; exact ⟨rfl, h1, h2⟩
  | cons m ms ih =>
    intro step rs h1 h2
    obtain ⟨s1, s2, s3⟩ := step m (by simp) rs h1 h2
    obtain ⟨t1, t2, t3⟩ := ih (fun m hm => step m (by simp [hm])) s2 s3
    refine ⟨?_, t2, t3⟩
    unfold forLoop at t1 ⊢
    rw [List.foldlM_cons, s1]
    exact t1

theorem map_fillAttr {l : PointLayout} (hl : Solid l) {m : Member} (hm : m ∈ l.attributes) {a : Nat}
    {vs rs : List Bytes} (h : AllLen l.size rs) (hv : AllLen m.size vs) :
    (fillAttr m a vs rs).map (pointOf l) = (rs.map (pointOf l)).mapIdx fun j p =>
      if a ≤ j ∧ j < a + vs.length then p.set m.definition ((vs[j - a]?).getD []) else p := by
  apply List.ext_getElem?
  intro j
  simp only [fillAttr, List.getElem?_map, List.getElem?_mapIdx]
  cases hr : rs[j]? with
  | none => rfl
  | some r =>
    simp only [Option.map_some]
    by_cases hc : a ≤ j ∧ j < a + vs.length
    · rw [if_pos hc, if_pos hc]
      have h1 : j - a < vs.length := by omega
      rw [List.getElem?_eq_getElem h1, Option.getD_some,
        pointOf_overwrite hl (h.getElem hr) hm (hv _ (List.getElem_mem h1))]
    · rw [if_neg hc, if_neg hc]

theorem set_fold {k : AttributeMapping → AttrDef} {v : AttributeMapping → Bytes} :
    ∀ {ms : List AttributeMapping}, (ms.map k).Nodup → ∀ p : Point,
    ms.foldl (fun p m => p.set (k m) (v m)) p =
      p.map fun kv => (kv.1, match ms.find? fun m => k m = kv.1 with
        | some m => v m
        | none => kv.2) := by
  intro ms
  induction ms with
  | nil => intro _ p; simp
  | cons m ms ih =>
    intro hn p
    rw [List.map_cons, List.nodup_cons] at hn
    rw [List.foldl_cons, ih hn.2]
    unfold Point.set
    rw [List.map_map]
    apply List.map_congr_left
    rintro ⟨d, x⟩ _
    simp only [Function.comp_apply, List.find?_cons]
    by_cases hd : d = k m
    · subst hd
      have : ms.find? (fun m' => k m' = k m) = none := by
        rw [List.find?_eq_none]
        intro m' hm' he
        exact hn.1 (List.mem_map.2 ⟨m', hm', by simpa using he⟩)
      simp [this]
    · have : ¬ k m = d := fun h => hd h.symm
      simp [hd, this]

/-- All mappings together do what the plan says. -/
theorem fillAll_points {conv : BufferLayoutConverter} {plan : Plan} (h : Realizes conv plan)
    (ht : Solid conv.toLayout) {ps : List Point} (hp : HasValues conv.fromLayout ps)
    {a b c d : Nat} (hab : a ≤ b) (hb : b ≤ ps.length) (hn : b - a = d - c) (hcd : c ≤ d)
    {rs : List Bytes} (hr : AllLen conv.toLayout.size rs) :
    (fillAll plan ps a (b - a) c conv.mappings rs).map (pointOf conv.toLayout) =
      plan.convert ps ⟨a, b⟩ (rs.map (pointOf conv.toLayout)) ⟨c, d⟩ := by
  have key : ∀ ms : List AttributeMapping, (∀ m ∈ ms, m ∈ conv.mappings) → ∀ rs, AllLen conv.toLayout.size rs →
      (fillAll plan ps a (b - a) c ms rs).map (pointOf conv.toLayout) =
        (rs.map (pointOf conv.toLayout)).mapIdx fun j p => if c ≤ j ∧ j < d then
          ms.foldl (fun p m => p.set m.target.definition
            (planFn plan m (((sourceVals ps m.source.definition a (b - a))[j - c]?).getD []))) p else p := by
    intro ms
    induction ms with
    | nil =>
      intro _ rs _
      apply List.ext_getElem?
      intro j
      simp only [fillAll, List.foldl_nil, ite_self, List.getElem?_mapIdx, List.getElem?_map]
      cases rs[j]? <;> rfl
    | cons m ms ih =>
      intro hms rs hr
      have hm := hms m (by simp)
      have hst := stored_allLen (a := a) (b := b) hp (h.does hm) (h.sources m hm)
      have hlen : (sourceVals ps m.source.definition a (b - a)).length = b - a := sourceVals_length (by omega)
      have hfa := fillAttr_allLen (a := c) hr (ht.inside _ (h.targets m hm)) hst
      have := ih (fun m hm => hms m (by simp [hm])) _ hfa
      unfold fillAll at this ⊢
      rw [List.foldl_cons, this, map_fillAttr ht (h.targets m hm) hr hst]
      apply List.ext_getElem?
      intro j
      simp only [List.getElem?_mapIdx, List.length_map, hlen]
      cases hrj : (rs.map (pointOf conv.toLayout))[j]? with
      | none => rfl
      | some r =>
        simp only [Option.map_some]
        by_cases hc : c ≤ j ∧ j < d
        · rw [if_pos hc, if_pos hc, if_pos (by omega)]
          have : j - c < (sourceVals ps m.source.definition a (b - a)).length := by omega
          rw [List.foldl_cons, List.getElem?_map, List.getElem?_eq_getElem this]
          rfl
        · rw [if_neg hc, if_neg hc, if_neg (by omega)]
  rw [key _ (fun _ h => h) rs hr]
  unfold Plan.convert
  apply List.ext_getElem?
  intro j
  simp only [List.getElem?_mapIdx, List.getElem?_map]
  cases hrj : rs[j]? with
  | none => rfl
  | some r =>
    simp only [Option.map_some]
    congr 1
    by_cases hc : c ≤ j ∧ j < d
    · rw [if_pos hc, if_pos hc]
      have hj : a + (j - c) < ps.length := by omega
      have hsp := List.getElem?_eq_getElem hj
      have hval := hp _ (List.getElem_mem hj)
      rw [hsp, set_fold h.nodup]
      simp only
      unfold Plan.apply
      apply List.map_congr_left
      rintro ⟨x, old⟩ hx
      have hx' : x ∈ conv.toLayout.attributes.map Member.definition := by
        obtain ⟨m, hm, e⟩ := List.mem_map.1 hx
        rw [← (Prod.mk.inj e).1]
        exact List.mem_map_of_mem hm
      simp only
      congr 1
      cases hf : conv.mappings.find? fun m => m.target.definition = x with
      | none =>
        rw [List.find?_eq_none] at hf
        rw [h.complete x hx' (fun m hm he => hf m hm (by simpa using he))]
      | some m =>
        have hm := List.mem_of_find?_eq_some hf
        have hmx : m.target.definition = x := by simpa using List.find?_some hf
        obtain ⟨rule, e1, e2, _⟩ := h.rules m hm
        obtain ⟨v, hv, _⟩ := hval m.source (h.sources m hm)
        rw [← hmx, e1]
        simp only
        rw [e2, hv]
        simp only [planFn, e1]
        rw [sourceVals_get (by omega), hsp]
        simp only [Option.map_some, Option.getD_some, hv]
    · rw [if_neg hc, if_neg hc]

end Pasture
