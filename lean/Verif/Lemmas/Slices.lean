import Verif.Lemmas.Append
import Verif.Model.Slices

/-! # Reads and writes through slices -/

namespace Pasture

open Spec BorrowedBuffer

theorem globalIndex_ok {i : Nat} {r : Rng} (h : i < r.stop - r.start) : globalIndex i r = .ok (i + r.start) := by
  unfold globalIndex
  rw [assertThat_true (show decide (i < r.len) = true from decide_eq_true h)]; rfl

theorem globalIndex_panic {i : Nat} {r : Rng} (h : r.stop - r.start ≤ i) : globalIndex i r = .error .panic := by
  unfold globalIndex
  rw [assertThat_false (show decide (i < r.len) = false from decide_eq_false (Nat.not_lt.2 h))]; rfl

theorem globalRange_ok {a b : Nat} {r : Rng} (hab : a < b) (h : b ≤ r.stop - r.start) :
    globalRange ⟨a, b⟩ r = .ok ⟨a + r.start, b + r.start⟩ := by
  unfold globalRange
  rw [assertThat_true (show decide (b ≤ r.len) = true from decide_eq_true h)]
  show (if a ≥ b then _ else _) = _
  rw [if_neg (by omega)]; rfl

theorem globalRange_empty {a b : Nat} {r : Rng} (hab : b ≤ a) (h : b ≤ r.stop - r.start) :
    globalRange ⟨a, b⟩ r = .ok ⟨r.stop, r.stop⟩ := by
  unfold globalRange
  rw [assertThat_true (show decide (b ≤ r.len) = true from decide_eq_true h)]
  show (if a ≥ b then _ else _) = _
  rw [if_pos (by omega)]; rfl

theorem globalRange_panic {a b : Nat} {r : Rng} (h : r.stop - r.start < b) :
    globalRange ⟨a, b⟩ r = .error .panic := by
  unfold globalRange
  rw [assertThat_false (show decide (b ≤ r.len) = false from decide_eq_false (Nat.not_le.2 h))]; rfl

/-- The part `s..e` of a list. -/
def part {α : Type} (xs : List α) (s e : Nat) : List α := (xs.drop s).take (e - s)

theorem part_length {α : Type} {xs : List α} {s e : Nat} (he : e ≤ xs.length) :
    (part xs s e).length = e - s := by simp [part]; omega

theorem part_get {α : Type} {xs : List α} {s e i : Nat} (hi : i < e - s) :
    (part xs s e)[i]? = xs[i + s]? := by
  unfold part
  rw [List.getElem?_take_of_lt hi, List.getElem?_drop, Nat.add_comm]

theorem part_get_none {α : Type} {xs : List α} {s e i : Nat} (hi : e - s ≤ i) :
    (part xs s e)[i]? = none := by
  apply List.getElem?_eq_none
  simp [part]; omega

theorem part_part {α : Type} {xs : List α} {s e a b : Nat} (hb : b ≤ e - s) :
    part (part xs s e) a b = part xs (s + a) (s + b) := by
  unfold part
  rw [List.drop_take, List.take_take, List.drop_drop]
  congr 1
  omega

theorem part_map {α β : Type} (f : α → β) (xs : List α) (s e : Nat) : part (xs.map f) s e = (part xs s e).map f := by
  unfold part; rw [List.map_take, List.map_drop]

theorem range?_part {α : Type} {xs : List α} {s e a b : Nat} (hse : s ≤ e) (he : e ≤ xs.length) (hb : b ≤ e - s) :
    range? (part xs s e) a b = range? xs (a + s) (b + s) := by
  unfold range?
  rw [if_pos (by rw [part_length he]; exact hb), if_pos (by omega)]
  have := part_part (xs := xs) (a := a) hb
  unfold part at this ⊢
  rw [this, Nat.add_comm a s, Nat.add_comm b s]

theorem range?_part_none {α : Type} {xs : List α} {s e a b : Nat} (he : e ≤ xs.length) (hb : e - s < b) :
    range? (part xs s e) a b = none := by
  unfold range?
  rw [if_neg (by rw [part_length he]; omega)]

theorem value?_part {ps : List Point} {s e i : Nat} (d : AttrDef) (hi : i < e - s) :
    value? (part ps s e) d i = value? ps d (i + s) := by
  unfold value?; rw [part_get hi]

theorem value?_part_none {ps : List Point} {s e i : Nat} (d : AttrDef) (hi : e - s ≤ i) :
    value? (part ps s e) d i = none := by
  unfold value?; rw [part_get_none hi]; rfl

theorem values?_part {ps : List Point} {s e a b : Nat} (d : AttrDef) (hse : s ≤ e) (he : e ≤ ps.length)
    (hb : b ≤ e - s) : values? (part ps s e) d a b = values? ps d (a + s) (b + s) := by
  unfold values?; rw [range?_part hse he hb]

theorem values?_part_none {ps : List Point} {s e a b : Nat} (d : AttrDef) (he : e ≤ ps.length)
    (hb : e - s < b) : values? (part ps s e) d a b = none := by
  unfold values?; rw [range?_part_none he hb]; rfl

/-- Points of the layout have exactly its attributes. -/
theorem Spec.ShowsPoints.typed {β : Type} [BorrowedBuffer β] {b : β} {l : PointLayout} {ps : List Point}
    (hl : Solid l) (h : ShowsPoints b l ps) :
    (∀ p ∈ ps, ∀ m ∈ l.attributes, ∃ v, p.get m.definition = some v ∧ v.length = m.size) ∧
    (∀ p ∈ ps, ∀ d, d ∉ l.attributes.map Member.definition → p.get d = none) := by
  obtain ⟨rs, h1, h2⟩ := h.records
  subst h2
  constructor
  · intro p hp m hm
    obtain ⟨r, hr, rfl⟩ := List.mem_map.1 hp
    refine ⟨window r m.offset m.size, ?_, ?_⟩
    · rw [pointOf_get, find_def_mem hl hm]; rfl
    · have := hl.inside m hm
      have := h1 r hr
      exact length_window (by omega)
  · intro p hp d hd
    obtain ⟨r, hr, rfl⟩ := List.mem_map.1 hp
    rw [pointOf_get, find_def_none hd]; rfl

theorem slice_getAttribute {β : Type} [BorrowedBuffer β] {b : β} {l : PointLayout} {ps : List Point}
    (h : ShowsPoints b l ps) {s e : Nat} (d : AttrDef) (i : Nat) (data : Bytes)
    (hd : data.length = d.size) :
    getAttribute (⟨b, ⟨s, e⟩⟩ : BufferSlice β) d i data = answer (value? (part ps s e) d i) := by
  show (globalIndex i ⟨s, e⟩).bind _ = _
  by_cases hi : i < e - s
  · rw [globalIndex_ok hi, value?_part d hi]
    exact h.getAttribute_eq d _ data hd
  · rw [globalIndex_panic (by simpa using hi), value?_part_none d (by omega)]; rfl

theorem slice_unchecked {β : Type} [BorrowedBuffer β] {b : β} {l : PointLayout} {ps : List Point}
    (h : ShowsPoints b l ps) {s e : Nat} {m : Member} (hm : m ∈ l.attributes) (i : Nat) (data : Bytes)
    (hd : data.length = m.size) :
    getAttributeUnchecked (⟨b, ⟨s, e⟩⟩ : BufferSlice β) m i data = answer (value? (part ps s e) m.definition i) := by
  show (globalIndex i ⟨s, e⟩).bind _ = _
  by_cases hi : i < e - s
  · rw [globalIndex_ok hi, value?_part _ hi]
    exact h.getAttributeUnchecked_eq m _ data hm hd
  · rw [globalIndex_panic (by simpa using hi), value?_part_none _ (by omega)]; rfl

/-- A slice shows the points of its range. -/
theorem slice_shows {β : Type} [BorrowedBuffer β] {b : β} {l : PointLayout} (hl : Solid l) {ps : List Point}
    (h : ShowsPoints b l ps) {s e : Nat} (hse : s ≤ e) (he : e ≤ ps.length) :
    ShowsPoints (⟨b, ⟨s, e⟩⟩ : BufferSlice β) l (part ps s e) where
  len_eq := by rw [part_length he]; rfl
  layout_eq := h.layout_eq
  getPoint_ok := by
    intro i p data hp hd
    have hi : i < e - s := by
      rw [← part_length (s := s) he]; exact (List.getElem?_eq_some_iff.1 hp).1
    rw [part_get hi] at hp
    show ∃ r, (globalIndex i ⟨s, e⟩).bind _ = _ ∧ _
    rw [globalIndex_ok hi]
    exact h.getPoint_ok _ p data hp hd
  getPoint_panic := by
    intro i data hi _
    rw [part_length he] at hi
    show (globalIndex i ⟨s, e⟩).bind _ = _
    rw [globalIndex_panic hi]; rfl
  getPointRange_ok := by
    intro a c data hac hc hd
    rw [part_length he] at hc
    show ∃ r, (globalRange ⟨a, c⟩ ⟨s, e⟩).bind _ = _ ∧ _
    by_cases hlt : a < c
    · rw [globalRange_ok hlt hc]
      have := h.getPointRange_ok (a + s) (c + s) data (by omega) (by omega) (by
        rw [hd]; congr 1; omega)
      rw [show c + s - (a + s) = c - a by omega] at this
      obtain ⟨r, h1, h2, h3⟩ := this
      refine ⟨r, h1, h2, ?_⟩
      rw [h3]
      have := part_part (xs := ps) (a := a) hc
      unfold part at this ⊢
      rw [this, Nat.add_comm a s]
      congr 1; omega
    · have : a = c := by omega
      subst this
      rw [globalRange_empty (Nat.le_refl _) hc]
      have := h.getPointRange_ok e e data (Nat.le_refl _) he (by rw [hd]; simp)
      rw [Nat.sub_self] at this ⊢
      obtain ⟨r, h1, h2, h3⟩ := this
      exact ⟨r, h1, h2, by simp [recordsOf]⟩
  getPointRange_panic := by
    intro a c data _ hc _
    rw [part_length he] at hc
    show (globalRange ⟨a, c⟩ ⟨s, e⟩).bind _ = _
    rw [globalRange_panic hc]; rfl
  getAttribute_eq := fun d i data hd => slice_getAttribute h d i data hd
  getAttributeUnchecked_eq := fun m i data hm hd => slice_unchecked h hm i data hd
  getAttributeRange_eq := by
    intro d a c data hac hd
    have hty := h.typed hl
    have hmem : ∀ p ∈ part ps s e, p ∈ ps := fun p hp => List.mem_of_mem_drop (List.mem_of_mem_take hp)
    exact getAttributeRange_of_unchecked (b := (⟨b, ⟨s, e⟩⟩ : BufferSlice β)) h.layout_eq (fun p hp => hty.1 p (hmem p hp))
      (fun p hp => hty.2 p (hmem p hp)) (fun m i data hm hd => slice_unchecked h hm i data hd)
      (fun m i data _ hi => by
        rw [part_length he] at hi
        show (globalIndex i ⟨s, e⟩).bind _ = _
        rw [globalIndex_panic hi]; rfl) d a c data hac hd

theorem slice_shows_records {β : Type} [InterleavedBuffer β] {b : β} {l : PointLayout} (hl : Solid l)
    {rs : List Bytes} (h : ShowsRecords b l rs) {s e : Nat} (hse : s ≤ e) (he : e ≤ rs.length) :
    ShowsRecords (⟨b, ⟨s, e⟩⟩ : BufferSlice β) l (part rs s e) where
  points := by
    rw [← part_map]
    exact slice_shows hl h.points hse (by simpa using he)
  getPoint_eq := by
    intro i data hd
    show (globalIndex i ⟨s, e⟩).bind _ = _
    by_cases hi : i < e - s
    · rw [globalIndex_ok hi, part_get hi]; exact h.getPoint_eq _ data hd
    · rw [globalIndex_panic (by simpa using hi), part_get_none (by omega)]; rfl
  getPointRange_eq := by
    intro a c data hac hd
    show (globalRange ⟨a, c⟩ ⟨s, e⟩).bind _ = _
    by_cases hc : c ≤ e - s
    · rw [globalRange_ok hac hc, range?_part hse he hc]
      exact h.getPointRange_eq _ _ data (by omega) (by rw [hd]; congr 1; omega)
    · rw [globalRange_panic (by simpa using hc), range?_part_none he (by omega)]; rfl
  getPointRef_eq := by
    intro i
    show (globalIndex i ⟨s, e⟩).bind _ = _
    by_cases hi : i < e - s
    · rw [globalIndex_ok hi, part_get hi]; exact h.getPointRef_eq _
    · rw [globalIndex_panic (by simpa using hi), part_get_none (by omega)]; rfl
  getPointRangeRef_eq := by
    intro a c hac
    show (globalRange ⟨a, c⟩ ⟨s, e⟩).bind _ = _
    rcases hac with hac | ⟨hac, hc⟩
    · by_cases hc : c ≤ e - s
      · rw [globalRange_ok hac hc, range?_part hse he hc]
        exact h.getPointRangeRef_eq _ _ (Or.inl (by omega))
      · rw [globalRange_panic (by simpa using hc), range?_part_none he (by omega)]; rfl
    · subst hac
      rw [part_length he] at hc
      rw [globalRange_empty (Nat.le_refl _) hc, range?_part hse he hc]
      refine (h.getPointRangeRef_eq e e (Or.inr ⟨rfl, he⟩)).trans ?_
      unfold range?
      rw [if_pos he, if_pos (by omega)]
      simp

theorem values?_empty {l : PointLayout} {rs : List Bytes} {d : AttrDef} {a : Nat} (ha : a ≤ rs.length) :
    values? (rs.map (pointOf l)) d a a = some [] := by
  unfold values? range?
  rw [if_pos (by simpa using ha)]
  simp

theorem slice_shows_columns {β : Type} [ColumnarBuffer β] {b : β} {l : PointLayout} (hl : Solid l)
    {ps : List Point} (h : ShowsColumns b l ps) {s e : Nat} (hse : s ≤ e) (he : e ≤ ps.length) :
    ShowsColumns (⟨b, ⟨s, e⟩⟩ : BufferSlice β) l (part ps s e) where
  points := slice_shows hl h.points hse he
  getAttributeRef_eq := by
    intro d i
    show (globalIndex i ⟨s, e⟩).bind _ = _
    by_cases hi : i < e - s
    · rw [globalIndex_ok hi, value?_part d hi]; exact h.getAttributeRef_eq _ _
    · rw [globalIndex_panic (by simpa using hi), value?_part_none d (by omega)]; rfl
  getAttributeRangeRef_eq := by
    intro d a c hac
    show (globalRange ⟨a, c⟩ ⟨s, e⟩).bind _ = _
    rcases hac with hac | ⟨hac, hc, hd⟩
    · by_cases hc : c ≤ e - s
      · rw [globalRange_ok hac hc, values?_part d hse he hc]
        exact h.getAttributeRangeRef_eq _ _ _ (Or.inl (by omega))
      · rw [globalRange_panic (by simpa using hc), values?_part_none d he (by omega)]; rfl
    · subst hac
      rw [part_length he] at hc
      rw [globalRange_empty (Nat.le_refl _) hc, values?_part d hse he hc]
      refine (h.getAttributeRangeRef_eq d e e (Or.inr ⟨rfl, he, hd⟩)).trans ?_
      obtain ⟨rs, _, rfl⟩ := h.points.records
      simp only [List.length_map] at he
      rw [values?_empty he, values?_empty (by omega)]

/-- The wrapper types only re-route `get_attribute` through the unchecked read. -/
theorem provided_getAttribute {β : Type} [BorrowedBuffer β] {b : β} {l : PointLayout} {ps : List Point}
    (hl : Solid l) (h : ShowsPoints b l ps) (d : AttrDef) (i : Nat) (data : Bytes) (hd : data.length = d.size) :
    (do let m ← expectSome ((layout b).getAttribute d); getAttributeUnchecked b m i data : Out Bytes) =
      answer (value? ps d i) := by
  rw [h.layout_eq, getAttribute_eq]
  by_cases hm : d ∈ l.attributes.map Member.definition
  · obtain ⟨m, hm⟩ := find_def_isSome hm
    obtain ⟨hm1, hm2⟩ := find_def_some hm
    rw [hm]
    have : data.length = m.size := by rw [hd, ← hm2]; rfl
    rw [← hm2]
    exact h.getAttributeUnchecked_eq m i data hm1 this
  · have hn := (h.typed hl).2
    rw [find_def_none hm]
    unfold value?
    cases hp : ps[i]? with
    | none => rfl
    | some p =>
      have := hn p (List.mem_of_getElem? hp) d hm
      simp only [Option.bind_eq_bind, Option.bind_some, this]
      rfl

theorem sliceInterleaved_shows {β : Type} [InterleavedBuffer β] {x : BufferSlice β} {l : PointLayout}
    (hl : Solid l) {rs : List Bytes} (h : ShowsRecords x l rs) :
    ShowsRecords (⟨x⟩ : BufferSliceInterleaved β) l rs where
  points := {
    len_eq := h.points.len_eq
    layout_eq := h.points.layout_eq
    getPoint_ok := h.points.getPoint_ok
    getPoint_panic := h.points.getPoint_panic
    getPointRange_ok := h.points.getPointRange_ok
    getPointRange_panic := h.points.getPointRange_panic
    getAttribute_eq := fun d i data hd => provided_getAttribute hl h.points d i data hd
    getAttributeUnchecked_eq := h.points.getAttributeUnchecked_eq
    getAttributeRange_eq := h.points.getAttributeRange_eq }
  getPoint_eq := h.getPoint_eq
  getPointRange_eq := h.getPointRange_eq
  getPointRef_eq := h.getPointRef_eq
  getPointRangeRef_eq := h.getPointRangeRef_eq

theorem sliceColumnar_shows {β : Type} [ColumnarBuffer β] {x : BufferSlice β} {l : PointLayout}
    (hl : Solid l) {ps : List Point} (h : ShowsColumns x l ps) :
    ShowsColumns (⟨x⟩ : BufferSliceColumnar β) l ps where
  points := {
    len_eq := h.points.len_eq
    layout_eq := h.points.layout_eq
    getPoint_ok := h.points.getPoint_ok
    getPoint_panic := h.points.getPoint_panic
    getPointRange_ok := h.points.getPointRange_ok
    getPointRange_panic := h.points.getPointRange_panic
    getAttribute_eq := fun d i data hd => provided_getAttribute hl h.points d i data hd
    getAttributeUnchecked_eq := h.points.getAttributeUnchecked_eq
    getAttributeRange_eq := h.points.getAttributeRange_eq }
  getAttributeRef_eq := h.getAttributeRef_eq
  getAttributeRangeRef_eq := h.getAttributeRangeRef_eq

end Pasture
