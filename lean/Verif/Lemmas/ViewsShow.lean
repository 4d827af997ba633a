import Verif.Lemmas.Views

/-! # Views over buffers that show points -/

namespace Pasture

open Spec BorrowedBuffer InterleavedBuffer ColumnarBuffer

theorem flatten_full {rs : List Bytes} {n : Nat} (h : n = rs.length) :
    range? rs 0 n = some rs := by
  unfold range?; rw [if_pos (by omega)]; subst h; simp

/-- The bytes `get_point` returns for each point. -/
theorem fetches_points {β : Type} [BorrowedBuffer β] {b : β} {l : PointLayout} {ps : List Point}
    (h : ShowsPoints b l ps) :
    ∃ rs : List Bytes, AllLen l.size rs ∧ rs.map (pointOf l) = ps ∧
      Fetches (len b) (fun i => getPoint b i (zeros l.size)) rs .panic := by
  have hz : (zeros l.size).length = l.size := by simp [zeros]
  have hex : ∀ i : Fin ps.length, ∃ r, getPoint b i.1 (zeros l.size) = .ok r ∧ r.length = l.size ∧
      pointOf l r = ps[i.1] := fun i =>
    h.getPoint_ok i.1 ps[i.1] _ (List.getElem?_eq_getElem i.2) hz
  let f : Fin ps.length → Bytes := fun i => (hex i).choose
  have hf : ∀ i, getPoint b i.1 (zeros l.size) = .ok (f i) ∧ (f i).length = l.size ∧
      pointOf l (f i) = ps[i.1] := fun i => (hex i).choose_spec
  refine ⟨List.ofFn f, ?_, ?_, ?_⟩
  · intro r hr
    obtain ⟨i, rfl⟩ := List.mem_ofFn.1 hr
    exact (hf i).2.1
  · apply List.ext_getElem
    · simp
    · intro i h1 h2
      simp only [List.getElem_map, List.getElem_ofFn]
      exact (hf ⟨i, h2⟩).2.2
  · constructor
    · rw [h.len_eq]; simp
    · intro i x hx
      have hi : i < ps.length := by
        by_contra hc
        rw [List.getElem?_eq_none (by simpa using hc)] at hx
        cases hx
      rw [List.getElem?_eq_getElem (by simpa using hi), List.getElem_ofFn] at hx
      rw [← Option.some.inj hx]
      exact (hf ⟨i, hi⟩).1
    · intro i hi
      simp only [List.length_ofFn] at hi
      exact h.getPoint_panic i _ (by omega) hz

theorem fetches_records {β : Type} [InterleavedBuffer β] {b : β} {l : PointLayout} {rs : List Bytes}
    (h : ShowsRecords b l rs) : Fetches (len b) (fun i => getPoint b i (zeros l.size)) rs .panic where
  len_eq := by rw [h.points.len_eq]; simp
  ok i x hx := by rw [h.getPoint_eq i _ (by simp [zeros]), hx]; rfl
  fail i hi := by
    rw [h.getPoint_eq i _ (by simp [zeros]), List.getElem?_eq_none (by omega)]; rfl

theorem showsRecords_allLen {β : Type} [InterleavedBuffer β] {b : β} {l : PointLayout} {rs : List Bytes}
    (h : ShowsRecords b l rs) : AllLen l.size rs := by
  intro r hr
  obtain ⟨i, hi, rfl⟩ := List.mem_iff_getElem.1 hr
  obtain ⟨r, h1, h2, h3⟩ := h.points.getPoint_ok i _ (zeros l.size)
    (List.getElem?_eq_getElem (by simpa using hi)) (by simp [zeros])
  rw [h.getPoint_eq i _ (by simp [zeros]), List.getElem?_eq_getElem hi] at h1
  have : rs[i] = r := by simpa [answer] using h1
  rw [this, h2]

theorem Spec.ShowsRecords.unique {β : Type} [InterleavedBuffer β] {b : β} {l : PointLayout} {rs xs : List Bytes}
    (h : ShowsRecords b l rs) (hx : ShowsRecords b l xs) : rs = xs := by
  have hlen : xs.length = rs.length := by
    have h4 := hx.points.len_eq; rw [h.points.len_eq] at h4; simpa using h4.symm
  apply List.ext_getElem hlen.symm
  intro i hi hi'
  have e1 := hx.getPointRef_eq i
  rw [h.getPointRef_eq i, List.getElem?_eq_getElem hi, List.getElem?_eq_getElem hi'] at e1
  exact Except.ok.inj e1

theorem wholeRange {β : Type} [InterleavedBuffer β] {b : β} {l : PointLayout} {rs : List Bytes}
    (h : ShowsRecords b l rs) : getPointRangeRef b ⟨0, len b⟩ = .ok rs.flatten := by
  have hn : len b = rs.length := by rw [h.points.len_eq]; simp
  rw [h.getPointRangeRef_eq 0 (len b) (by omega), flatten_full hn]
  rfl

/-- The values of attribute `d`, in point order. -/
def column (ps : List Point) (d : AttrDef) : Option (List Bytes) := ps.mapM fun p => p.get d

theorem column_get {ps : List Point} {d : AttrDef} {xs : List Bytes} (h : column ps d = some xs) :
    xs.length = ps.length ∧ ∀ i, value? ps d i = xs[i]? := by
  unfold column at h
  induction ps generalizing xs with
  | nil => simp at h; subst h; simp [value?]
  | cons p ps ih =>
    rw [List.mapM_cons] at h
    cases hp : p.get d with
    | none => rw [hp] at h; cases h
    | some v =>
      rw [hp] at h
      cases hr : ps.mapM fun p => p.get d with
      | none => rw [hr] at h; cases h
      | some vs =>
        rw [hr] at h
        have : xs = v :: vs := (Option.some.inj h).symm
        subst this
        obtain ⟨h1, h2⟩ := ih hr
        refine ⟨by simp [h1], ?_⟩
        intro i
        cases i with
        | zero => simp [value?, hp]
        | succ i => simpa [value?] using h2 i

theorem column_some {β : Type} [BorrowedBuffer β] {b : β} {l : PointLayout} {ps : List Point}
    (hl : Solid l) (h : ShowsPoints b l ps) {m : Member} (hm : m ∈ l.attributes) :
    ∃ xs, column ps m.definition = some xs ∧ AllLen m.size xs := by
  have := (h.typed hl).1
  clear h
  unfold column
  induction ps with
  | nil => exact ⟨[], rfl, AllLen.nil⟩
  | cons p ps ih =>
    obtain ⟨v, hv, hvl⟩ := this p (by simp) m hm
    obtain ⟨xs, hxs, hal⟩ := ih fun q hq => this q (by simp [hq])
    exact ⟨v :: xs, by rw [List.mapM_cons, hv, hxs]; rfl, AllLen.cons_iff.2 ⟨hvl, hal⟩⟩

theorem fetches_column {β : Type} [BorrowedBuffer β] {b : β} {l : PointLayout} {ps : List Point}
    (h : ShowsPoints b l ps) {m : Member} (hm : m ∈ l.attributes) {xs : List Bytes}
    (hx : column ps m.definition = some xs) :
    Fetches (len b) (fun i => getAttributeUnchecked b m i (zeros m.size)) xs .panic where
  len_eq := by rw [h.len_eq, (column_get hx).1]
  ok i x hi := by
    rw [h.getAttributeUnchecked_eq m i _ hm (by simp [zeros]), (column_get hx).2 i, hi]; rfl
  fail i hi := by
    rw [h.getAttributeUnchecked_eq m i _ hm (by simp [zeros]), (column_get hx).2 i,
      List.getElem?_eq_none (by omega)]
    rfl

theorem wholeColumn {β : Type} [ColumnarBuffer β] {b : β} {l : PointLayout} {ps : List Point}
    (h : ShowsColumns b l ps) {m : Member} (hm : m ∈ l.attributes) {xs : List Bytes}
    (hx : column ps m.definition = some xs) :
    getAttributeRangeRef b m.definition ⟨0, len b⟩ = .ok xs.flatten := by
  have hn : len b = ps.length := h.points.len_eq
  have hcase : 0 < len b ∨ 0 = len b ∧ len b ≤ ps.length ∧ m.definition ∈ l.attributes.map Member.definition := by
    by_cases h0 : 0 < len b
    · exact .inl h0
    · exact .inr ⟨by omega, by omega, List.mem_map_of_mem hm⟩
  rw [h.getAttributeRangeRef_eq m.definition 0 (len b) hcase]
  unfold values?
  have : range? ps 0 (len b) = some ps := by unfold range?; rw [if_pos (by omega), hn]; simp
  rw [this]
  unfold column at hx
  simp only [bind, Option.bind, hx]
  rfl

theorem lookup_member {l : PointLayout} (hl : Solid l) {m : Member} (hm : m ∈ l.attributes) :
    l.getAttribute m.definition = some m := by
  rw [getAttribute_eq]; exact find_def_mem hl hm

end Pasture
