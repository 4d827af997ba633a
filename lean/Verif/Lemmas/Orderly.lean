import Verif.Lemmas.Slices
import Verif.Spec.Orderly

/-! # Buffers of points or attributes that may take no memory -/

namespace Pasture

open Spec BorrowedBuffer BorrowedMutBuffer OwningBuffer

/-! ### reads -/

section
variable {l : PointLayout} {rs : List Bytes}

/-- Reads of attributes, given the unchecked reads of single ones. -/
theorem range_of_unchecked {β : Type} [BorrowedBuffer β] {b : β} (hl : Orderly l) (h : AllLen l.size rs)
    (hb : layout b = l)
    (hu : ∀ m i r data, m ∈ l.attributes → rs[i]? = some r → data.length = m.size →
      getAttributeUnchecked b m i data = .ok (window r m.offset m.size))
    {d : AttrDef} {s e : Nat} {v data : Bytes} (hd : d ∈ l.attributes.map Member.definition) (hse : s ≤ e)
    (hv : values? (rs.map (pointOf l)) d s e = some v) (hdl : data.length = (e - s) * d.size) :
    getAttributeRange b d ⟨s, e⟩ data = .ok v := by
  obtain ⟨m, hf⟩ := find_def_isSome hd
  obtain ⟨hm, rfl⟩ := find_def_some hf
  rw [values?_pointOf hl hm] at hv
  split at hv
  · next he =>
    have hin := hl.inside m hm
    rw [getAttributeRange_ok (v := fun i => ((vals m rs)[i]?).getD []) (m := m)
      (by rw [hb, getAttribute_eq]; exact hf) (by
        intro i h1 h2
        have h2 : i < e := h2
        have hr := List.getElem?_eq_getElem (show i < rs.length by omega)
        have hvr : (vals m rs)[i]? = some (window rs[i] m.offset m.size) := by
          unfold vals
          rw [List.getElem?_map, hr]
          rfl
        rw [hvr]
        exact ⟨Interleaved.length_window_member (h.getElem hr) hin, fun old ho => hu m i _ old hm hr ho⟩) hdl]
    congr 1
    rw [← Option.some.inj hv]
    congr 1
    apply List.ext_getElem
    · simp [vals_length]; omega
    · intro i h1 h2
      have : s + i < (vals m rs).length := by
        rw [vals_length]; simp at h1; omega
      simp [this]
  · cases hv

theorem value?_some {d : AttrDef} {i : Nat} {v : Bytes} (hv : value? (rs.map (pointOf l)) d i = some v) :
    ∃ m r, m ∈ l.attributes ∧ m.definition = d ∧ l.attributes.find? (fun m => m.definition = d) = some m ∧
      rs[i]? = some r ∧ window r m.offset m.size = v := by
  rw [value?_pointOf] at hv
  cases hr : rs[i]? with
  | none => rw [hr] at hv; cases hv
  | some r =>
    rw [hr] at hv
    cases hf : l.attributes.find? (fun m => m.definition = d) with
    | none => rw [hf] at hv; cases hv
    | some m =>
      rw [hf] at hv
      obtain ⟨h1, h2⟩ := find_def_some hf
      exact ⟨m, r, h1, h2, rfl, rfl, Option.some.inj hv⟩

theorem interleaved_reads (hl : Orderly l) (h : AllLen l.size rs) :
    ReadsRecords (Interleaved.ofRecords l rs) l rs := by
  have hrange : ∀ s e (data : Bytes), s ≤ e → e ≤ rs.length → data.length = (e - s) * l.size →
      BorrowedBuffer.getPointRange (Interleaved.ofRecords l rs) ⟨s, e⟩ data =
        .ok ((rs.drop s).take (e - s)).flatten := by
    intro s e data hse he hd
    show (Interleaved.ofRecords l rs).getPointRange ⟨s, e⟩ data = _
    simp only [Interleaved.getPointRange, bind, Except.bind]
    rw [Interleaved.getPointRangeRef_ok h hse he]
    simp only [copyFromSlice]
    rw [if_pos]
    rw [((h.drop s).take (e - s)).flatten_length, hd]
    congr 1
    simp; omega
  refine ⟨⟨by simp [BorrowedBuffer.len], rfl, ?_, ?_, ?_, ?_, ?_, ?_⟩, ?_, hrange, ?_, ?_⟩
  · intro i p data hp hd
    rw [List.getElem?_map] at hp
    cases hr : rs[i]? with
    | none => rw [hr] at hp; simp at hp
    | some r =>
      rw [hr] at hp
      exact ⟨r, Interleaved.getPoint_ok h hr data hd, h.getElem hr, by simpa using hp⟩
  · intro s e data hse he hd
    have he : e ≤ rs.length := by simpa using he
    have hlen : ((rs.drop s).take (e - s)).length = e - s := by simp; omega
    have hall := (h.drop s).take (e - s)
    refine ⟨_, hrange s e data hse he hd, by rw [hall.flatten_length, hlen], ?_⟩
    rw [recordsOf_flatten hall hlen, List.map_take, List.map_drop]
  · intro d i v data hv hd
    obtain ⟨m, r, hm, rfl, hf, hr, rfl⟩ := value?_some hv
    show (do
      let m ← expectSome (l.getAttribute m.definition)
      (Interleaved.ofRecords l rs).getAttributeUnchecked m i data) = _
    rw [getAttribute_eq, hf]
    exact Interleaved.getAttributeUnchecked_ok h (hl.inside m hm) hr data hd
  · intro m i v data hm hv hd
    obtain ⟨m', r, hm', he, hf, hr, rfl⟩ := value?_some hv
    rw [find_def_mem hl hm] at hf
    cases hf
    exact Interleaved.getAttributeUnchecked_ok h (hl.inside m hm) hr data hd
  · intro d s e v data hd hse hv hdl
    exact range_of_unchecked hl h rfl
      (fun m i r data hm hr hd => Interleaved.getAttributeUnchecked_ok h (hl.inside m hm) hr data hd) hd hse hv hdl
  · intro d hd i data
    show (do
      let m ← expectSome (l.getAttribute d)
      (Interleaved.ofRecords l rs).getAttributeUnchecked m i data) = _
    rw [getAttribute_eq, find_def_none hd]
    rfl
  · intro i r data hr hd
    exact Interleaved.getPoint_ok h hr data hd
  · intro i r hr
    exact Interleaved.getPointRef_ok h hr
  · intro s e hse he
    exact Interleaved.getPointRangeRef_ok h hse he

namespace HashMapBuffer

theorem getAttribute_orderly (hl : Orderly l) (h : AllLen l.size rs) {m : Member} (hm : m ∈ l.attributes)
    {i : Nat} {r : Bytes} (hr : rs[i]? = some r) {data : Bytes} (hd : data.length = m.size) :
    (ofRecords l rs).getAttribute m.definition i data = .ok (window r m.offset m.size) := by
  have hg := colsOf_get hl (fun m => (vals m rs).flatten) hm
  simp only [getAttribute, hg, expectSome, bind, Except.bind]
  rw [col_get_ok hl h hm hr]
  simp only [copyFromSlice]
  rw [if_pos (by rw [hd, Interleaved.length_window_member (h.getElem hr) (hl.inside m hm)])]

theorem reads (hl : Orderly l) (h : AllLen l.size rs) : ReadsPoints (ofRecords l rs) l (rs.map (pointOf l)) where
  len_eq := by simp [BorrowedBuffer.len]
  layout_eq := rfl
  getPoint := fun _ _ _ hp hd => getPoint_points hl h hp hd
  getPointRange := fun _ _ _ hse he hd => getPointRange_points hl h hse he hd
  getAttribute := by
    intro d i v data hv hd
    obtain ⟨m, r, hm, rfl, hf, hr, rfl⟩ := value?_some hv
    exact getAttribute_orderly hl h hm hr hd
  getAttributeUnchecked := by
    intro m i v data hm hv hd
    obtain ⟨m', r, hm', he, hf, hr, rfl⟩ := value?_some hv
    rw [find_def_mem hl hm] at hf
    cases hf
    exact getAttribute_orderly hl h hm hr hd
  getAttributeRange := by
    intro d s e v data hd hse hv hdl
    exact range_of_unchecked hl h rfl (fun m i r data hm hr hd => getAttribute_orderly hl h hm hr hd) hd hse hv hdl
  absent := by
    intro d hd i data
    have hg := colsOf_get_none (fun m => (vals m rs).flatten) hd
    show (ofRecords l rs).getAttribute d i data = _
    simp only [getAttribute, hg, expectSome, bind, Except.bind, panicked]

end HashMapBuffer

/-! ### operations -/

/-- The operations of `VectorBuffer` that are allowed, on records. -/
theorem vector_step_ok (hl : Orderly l) (h : AllLen l.size rs) (op : Op) (hop : op.wellFormed l)
    (ha : op.allowed l rs.length) :
    runOp (Interleaved.ofRecords l rs : VectorBuffer) op = .ok (Interleaved.ofRecords l (op.onRecords l rs)) := by
  cases op with
  | setPoint i r => exact Interleaved.write_block h ha hop
  | setPointRange a b data =>
    obtain ⟨hab, hd⟩ := hop
    have := Interleaved.setPointRange_ok h (r := ⟨a, b⟩) (by show a ≤ b; omega) ha
      (recordsOf_allLen hd) (by simp [recordsOf_length])
    rw [flatten_recordsOf hd] at this
    exact this
  | setAttribute d i v =>
    obtain ⟨m, hm⟩ := find_def_isSome ha.1
    obtain ⟨hm1, hm2⟩ := find_def_some hm
    have hms : m.size = d.size := by rw [← hm2]; rfl
    simp only [Op.onRecords, hm]
    exact Interleaved.setAttribute_ok h hm (hl.inside m hm1) ha.2 (by rw [hms]; exact hop)
  | setAttributeRange d a b data =>
    obtain ⟨hab, hdl⟩ := hop
    obtain ⟨m, hm⟩ := find_def_isSome ha.1
    obtain ⟨hm1, hm2⟩ := find_def_some hm
    have hms : m.size = d.size := by rw [← hm2]; rfl
    simp only [Op.onRecords, hm]
    have := Interleaved.setAttributeRange_ok h hm (hl.inside m hm1) (r := ⟨a, b⟩)
      (by show a ≤ b; omega) ha.2 (data := data) (by rw [hms]; exact hdl)
    have e : Interleaved.setAttrs m a (b - a) data rs = rs.mapIdx fun i r =>
        if a ≤ i ∧ i < b then overwrite r m.offset (window data ((i - a) * m.size) m.size) else r := by
      unfold Interleaved.setAttrs
      rw [show a + (b - a) = b by omega]
    simp only [e] at this
    exact this
  | swap i j => exact Interleaved.swap_ok h ha.1 ha.2
  | pushPoints data =>
    have hmod : data.length % l.size = 0 := hop
    by_cases hz : l.size = 0
    · have hd : data = [] := by
        rw [hz, Nat.mod_zero] at hmod
        exact List.eq_nil_of_length_eq_zero hmod
      subst hd
      show VectorBuffer.pushPoints (Interleaved.ofRecords l rs) [] = _
      unfold VectorBuffer.pushPoints
      rw [if_pos (by exact hz)]
      simp [Op.onRecords, recordsOf, assertThat, bind, Except.bind, pure, Except.pure]
    · have hd : data.length = data.length / l.size * l.size :=
        (Nat.div_mul_cancel (Nat.dvd_of_mod_eq_zero hmod)).symm
      have := Interleaved.pushPoints_ok (rs := rs) (by omega) (recordsOf_allLen hd)
      rw [flatten_recordsOf hd] at this
      exact this
  | resize n => exact congrArg Except.ok (Interleaved.resize_ok h n)
  | clear => rfl

end

/-! ### histories -/

/-- Both kinds of buffers, with the operations they can do. -/
class HoldsOrderly (β : Type) [OwningBuffer β] where
  ofRecords : PointLayout → List Bytes → β
  can : PointLayout → Op → Prop
  step : ∀ {l : PointLayout} {rs : List Bytes}, Orderly l → AllLen l.size rs → ∀ op : Op,
    op.wellFormed l → op.allowed l rs.length → can l op → runOp (ofRecords l rs) op = .ok (ofRecords l (op.onRecords l rs))
  reads : ∀ {l : PointLayout} {rs : List Bytes}, Orderly l → AllLen l.size rs →
    ReadsPoints (ofRecords l rs) l (rs.map (pointOf l))

instance : HoldsOrderly VectorBuffer where
  ofRecords := Interleaved.ofRecords
  can := fun _ _ => True
  step := fun hl h op hop ha _ => vector_step_ok hl h op hop ha
  reads := fun hl h => (interleaved_reads hl h).points

instance : HoldsOrderly HashMapBuffer where
  ofRecords := HashMapBuffer.ofRecords
  can := fun l op => ∀ data, op = .pushPoints data → 0 < l.size
  step := HashMapBuffer.step_ok
  reads := HashMapBuffer.reads

theorem runOps_orderly {β : Type} [OwningBuffer β] [HoldsOrderly β] {l : PointLayout} (hl : Orderly l) (ops : List Op) :
    ∀ {rs : List Bytes}, AllLen l.size rs → (∀ op ∈ ops, op.wellFormed l) →
    (∀ op ∈ ops, HoldsOrderly.can β l op) → ∀ {rs' : List Bytes}, recordHistory l ops rs = .ok rs' →
    runOps (HoldsOrderly.ofRecords l rs : β) ops = .ok (HoldsOrderly.ofRecords l rs') ∧ AllLen l.size rs' := by
  induction ops with
  | nil => intro rs h _ _ rs' hr; cases hr; exact ⟨rfl, h⟩
  | cons op ops ih =>
    intro rs h hops hcan rs' hr
    have hop := hops op (by simp)
    simp only [recordHistory, Op.stepRecords] at hr
    split at hr
    · next ha =>
      have := ih (onRecords_allLen hl h hop) (fun x hx => hops x (by simp [hx])) (fun x hx => hcan x (by simp [hx])) hr
      unfold runOps at this ⊢
      rw [forLoop_cons, HoldsOrderly.step hl h op hop ha (hcan op (by simp))]
      exact this
    · cases hr

/-! ### points, appending, slices -/

section
variable {γ : Type} [BorrowedBuffer γ] {l : PointLayout}

theorem Spec.ReadsPoints.unique {b : γ} {ps qs : List Point}
    (h1 : ReadsPoints b l ps) (h2 : ReadsPoints b l qs) : ps = qs := by
  have hlen : ps.length = qs.length := by rw [← h1.len_eq, ← h2.len_eq]
  apply List.ext_getElem hlen
  intro i hi hi'
  obtain ⟨r1, a1, _, c1⟩ := h1.getPoint i _ (zeros l.size) (List.getElem?_eq_getElem hi) (by simp [zeros])
  obtain ⟨r2, a2, _, c2⟩ := h2.getPoint i _ (zeros l.size) (List.getElem?_eq_getElem hi') (by simp [zeros])
  rw [a1] at a2
  cases a2
  rw [← c1, ← c2]

theorem Spec.ReadsPoints.records {b : γ} {ps : List Point} (h : ReadsPoints b l ps) :
    ∃ rs, AllLen l.size rs ∧ rs.map (pointOf l) = ps := by
  have : ∀ p ∈ ps, ∃ r : Bytes, r.length = l.size ∧ pointOf l r = p := by
    intro p hp
    obtain ⟨i, hi, rfl⟩ := List.mem_iff_getElem.1 hp
    obtain ⟨r, _, h2, h3⟩ := h.getPoint i _ (zeros l.size) (List.getElem?_eq_getElem hi) (by simp [zeros])
    exact ⟨r, h2, h3⟩
  clear h
  induction ps with
  | nil => exact ⟨[], AllLen.nil, rfl⟩
  | cons p ps ih =>
    obtain ⟨rs, h1, h2⟩ := ih fun q hq => this q (by simp [hq])
    obtain ⟨r, h3, h4⟩ := this p (by simp)
    exact ⟨r :: rs, AllLen.cons_iff.2 ⟨h3, h1⟩, by simp [h2, h4]⟩

theorem points_of_reads {other : γ} {qs : List Point} (ho : ReadsPoints other l qs) {ys : List Bytes}
    (hlen : ys.length = qs.length)
    (h : ∀ i r, ys[i]? = some r → ∃ data : Bytes, data.length = l.size ∧ BorrowedBuffer.getPoint other i data = .ok r) :
    ys.map (pointOf l) = qs := by
  apply List.ext_getElem (by simpa using hlen)
  intro i hi hi'
  obtain ⟨data, h1, h2⟩ := h i _ (List.getElem?_eq_getElem (by omega))
  obtain ⟨r, a, _, c⟩ := ho.getPoint i _ data (List.getElem?_eq_getElem hi') h1
  rw [h2] at a
  cases a
  simpa using c

/-- `append` writes what `get_point` of the source returns. -/
theorem append_orderly {β : Type} [OwningBuffer β] [HoldsOrderly β] (hc : ∀ i r, HoldsOrderly.can β l (.setPoint i r))
    (hc' : ∀ n, HoldsOrderly.can β l (.resize n)) (hl : Orderly l) {rs : List Bytes} (h : AllLen l.size rs) {other : γ}
    {qs : List Point} (ho : ReadsPoints other l qs) :
    ∃ ys, AllLen l.size ys ∧ ys.map (pointOf l) = qs ∧
      append (HoldsOrderly.ofRecords l rs : β) other = .ok (HoldsOrderly.ofRecords l (rs ++ ys)) := by
  have hz : (List.replicate l.size (0 : Byte)).length = l.size := by simp
  have sh := HoldsOrderly.reads (β := β) hl h
  have hlen : len (HoldsOrderly.ofRecords l rs : β) = rs.length := by rw [sh.len_eq]; simp
  have hrep : ∀ k, AllLen l.size (List.replicate k (List.replicate l.size (0 : Byte))) :=
    fun k => AllLen.replicate hz k
  have hset : ∀ {xs : List Bytes} {i : Nat} {r : Bytes}, AllLen l.size xs → i < xs.length → r.length = l.size →
      setPoint (HoldsOrderly.ofRecords l xs : β) i r = .ok (HoldsOrderly.ofRecords l (xs.set i r)) :=
    fun hx hi hr => HoldsOrderly.step (β := β) hl hx (.setPoint _ _) hr hi (hc _ _)
  obtain ⟨ys, t', h1, h2, h3, h4⟩ := append_loop (β := β × Bytes) (rep := fun rs t => (HoldsOrderly.ofRecords l rs, t))
    (get := BorrowedBuffer.getPoint other) (rs := rs) qs.length (fun t : Bytes => t.length = l.size)
    (body := fun (self, scratch) i => do
      let scratch ← BorrowedBuffer.getPoint other i scratch
      let self ← setPoint self (rs.length + i) scratch
      pure (self, scratch)) (by
      intro k ys t hk hys hall ht
      obtain ⟨r, a, b, _⟩ := ho.getPoint k _ t (List.getElem?_eq_getElem hk) ht
      refine ⟨t, r, r, ht, a, b, b, ?_⟩
      simp only [a, bind, Except.bind]
      rw [hset ((h.append hall).append (hrep _)) (by simp; omega) b]
      rfl) (zeros l.size) (by simp [zeros])
  refine ⟨ys, h2, points_of_reads ho h1 h3, ?_⟩
  have hres : resize (HoldsOrderly.ofRecords l rs : β) (rs.length + qs.length) =
      HoldsOrderly.ofRecords l (resized rs (rs.length + qs.length) (List.replicate l.size 0)) :=
    Except.ok.inj (HoldsOrderly.step (β := β) hl h (.resize _) trivial trivial (hc' _))
  unfold append
  rw [sh.layout_eq, ho.layout_eq, assertThat_true (decide_eq_true rfl)]
  simp only [bind, Except.bind, hlen, ho.len_eq] at h4 ⊢
  rw [hres, resized_append]
  have sh2 := HoldsOrderly.reads (β := β) hl (h.append (hrep qs.length))
  rw [sh2.layout_eq, h4]
  rfl

theorem vector_columnar_orderly {δ : Type} [ColumnarBuffer δ] {rs : List Bytes} (h : AllLen l.size rs) {other : δ}
    {qs : List Point} (ho : ReadsPoints other l qs) :
    ∃ ys, AllLen l.size ys ∧ ys.map (pointOf l) = qs ∧
      VectorBuffer.appendColumnar (Interleaved.ofRecords l rs) other = .ok (Interleaved.ofRecords l (rs ++ ys)) := by
  have hz : (List.replicate l.size (0 : Byte)).length = l.size := by simp
  have hrep : ∀ k, AllLen l.size (List.replicate k (List.replicate l.size (0 : Byte))) :=
    fun k => AllLen.replicate hz k
  obtain ⟨ys, t', h1, h2, h3, h4⟩ := append_loop (β := VectorBuffer) (rep := fun rs _ => Interleaved.ofRecords l rs)
    (get := BorrowedBuffer.getPoint other) (rs := rs) qs.length (fun _ : Unit => True)
    (body := fun b i => b.getPointMut (rs.length + i) fun mem => BorrowedBuffer.getPoint other i mem) (by
      intro k ys t hk hys hall _
      obtain ⟨r, a, b, _⟩ := ho.getPoint k _ _ (List.getElem?_eq_getElem hk) hz
      refine ⟨_, r, (), hz, a, b, trivial, ?_⟩
      exact Interleaved.getPointMut_ok ((h.append hall).append (hrep _)) (r := List.replicate l.size 0) (by
        rw [List.getElem?_append_right (by simp; omega), List.getElem?_replicate, if_pos (by simp; omega)]) a b)
    () trivial
  refine ⟨ys, h2, points_of_reads ho h1 h3, ?_⟩
  unfold VectorBuffer.appendColumnar
  rw [ho.layout_eq, assertThat_true (decide_eq_true rfl)]
  simp only [bind, Except.bind, ho.len_eq]
  rw [Interleaved.resize_ok h, resized_append]
  exact h4

theorem hashmap_columnar_orderly (hl : Orderly l) {rs qs : List Bytes} (hq : AllLen l.size qs) :
    HashMapBuffer.appendColumnar (HashMapBuffer.ofRecords l rs) (HashMapBuffer.ofRecords l qs) =
      .ok (HashMapBuffer.ofRecords l (rs ++ qs)) := by
  have := cols_loop_layout hl (f := fun m => (vals m rs).flatten)
    (g := fun m => (vals m (rs ++ qs)).flatten)
    (body := fun cols m => do
      let col ← expectSome (cols.get m.definition)
      let src ← ColumnarBuffer.getAttributeRangeRef (HashMapBuffer.ofRecords l qs) m.definition ⟨0, qs.length⟩
      pure (cols.set m.definition (col ++ src))) (by
    intro m hm cols hg
    simp only [hg]
    have h1 : ColumnarBuffer.getAttributeRangeRef (HashMapBuffer.ofRecords l qs) m.definition ⟨0, qs.length⟩ = _ :=
      HashMapBuffer.getAttributeRangeRef_ok hl hq hm (Nat.zero_le _) (Nat.le_refl _)
    rw [h1]
    have e : (vals m qs).take qs.length = vals m qs := List.take_of_length_le (by rw [vals_length])
    simp only [List.drop_zero, Nat.sub_zero, e, vals_append, List.flatten_append]
    rfl)
  unfold HashMapBuffer.appendColumnar
  rw [assertThat_true (show decide ((HashMapBuffer.ofRecords l rs).layout =
    layout (HashMapBuffer.ofRecords l qs)) = true from decide_eq_true rfl)]
  have h2 : len (HashMapBuffer.ofRecords l qs) = qs.length := rfl
  simp only [bind, Except.bind, h2] at this ⊢
  rw [this]
  simp [pure, Except.pure]

/-- A slice reads the points of its range. -/
theorem slice_reads {b : γ} (hl : Orderly l) {ps : List Point} (h : ReadsPoints b l ps) {s e : Nat} (hse : s ≤ e)
    (he : e ≤ ps.length) : ReadsPoints (⟨b, ⟨s, e⟩⟩ : BufferSlice γ) l (part ps s e) := by
  have hval : ∀ {d : AttrDef} {i : Nat} {v : Bytes}, value? (part ps s e) d i = some v →
      i < e - s ∧ value? ps d (i + s) = some v := by
    intro d i v hv
    by_cases hi : i < e - s
    · exact ⟨hi, by rw [value?_part d hi] at hv; exact hv⟩
    · rw [value?_part_none d (by omega)] at hv; cases hv
  have hun : ∀ m i v (data : Bytes), m ∈ l.attributes → value? (part ps s e) m.definition i = some v →
      data.length = m.size → BorrowedBuffer.getAttributeUnchecked (⟨b, ⟨s, e⟩⟩ : BufferSlice γ) m i data = .ok v := by
    intro m i v data hm hv hd
    obtain ⟨hi, hv⟩ := hval hv
    show (globalIndex i ⟨s, e⟩).bind _ = _
    rw [globalIndex_ok hi]
    exact h.getAttributeUnchecked m _ v data hm hv hd
  refine ⟨by rw [part_length he]; rfl, h.layout_eq, ?_, ?_, ?_, hun, ?_, ?_⟩
  · intro i p data hp hd
    have hi : i < e - s := by
      rw [← part_length (s := s) he]; exact (List.getElem?_eq_some_iff.1 hp).1
    rw [part_get hi] at hp
    show ∃ r, (globalIndex i ⟨s, e⟩).bind _ = _ ∧ _
    rw [globalIndex_ok hi]
    exact h.getPoint _ p data hp hd
  · intro a c data hac hc hd
    rw [part_length he] at hc
    show ∃ r, (globalRange ⟨a, c⟩ ⟨s, e⟩).bind _ = _ ∧ _
    by_cases hlt : a < c
    · rw [globalRange_ok hlt hc]
      have := h.getPointRange (a + s) (c + s) data (by omega) (by omega) (by
        rw [hd]; congr 1; omega)
      rw [show c + s - (a + s) = c - a by omega] at this
      obtain ⟨r, h1, h2, h3⟩ := this
      refine ⟨r, h1, h2, ?_⟩
      rw [h3]
      have := part_part (xs := ps) (a := a) hc
      unfold part at this ⊢
      rw [this, Nat.add_comm a s]
      congr 1; omega
    · have : a = c := by omega
      subst this
      rw [globalRange_empty (Nat.le_refl _) hc]
      have := h.getPointRange e e data (Nat.le_refl _) he (by rw [hd]; simp)
      rw [Nat.sub_self] at this ⊢
      obtain ⟨r, h1, h2, h3⟩ := this
      exact ⟨r, h1, h2, by simp [recordsOf]⟩
  · intro d i v data hv hd
    obtain ⟨hi, hv⟩ := hval hv
    show (globalIndex i ⟨s, e⟩).bind _ = _
    rw [globalIndex_ok hi]
    exact h.getAttribute d _ v data hv hd
  · intro d a c v data hd hac hv hdl
    obtain ⟨rs, h1, rfl⟩ := h.records
    rw [part_map] at hv hun
    have hall : AllLen l.size (part rs s e) := (h1.drop s).take (e - s)
    refine range_of_unchecked (b := (⟨b, ⟨s, e⟩⟩ : BufferSlice γ)) hl hall h.layout_eq ?_ hd hac hv hdl
    intro m i r data hm hr hd
    exact hun m i _ data hm (by rw [value?_pointOf, hr, find_def_mem hl hm]; rfl) hd
  · intro d hd i data
    show (globalIndex i ⟨s, e⟩).bind _ = _
    by_cases hi : i < e - s
    · rw [globalIndex_ok hi]; exact h.absent d hd _ data
    · rw [globalIndex_panic (by simpa using hi)]; rfl

end

end Pasture
