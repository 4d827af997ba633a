import Verif.Lemmas.Slices
import Verif.Spec.Slices

/-! # Writes through mutable slices -/

namespace Pasture

open Spec BorrowedBuffer

theorem forLoop_congr {α σ : Type} {f g : σ → α → Out σ} : ∀ (xs : List α) (s : σ),
    (∀ x ∈ xs, ∀ s, f s x = g s x) → forLoop xs s f = forLoop xs s g := by
  intro xs
  induction xs with
  | nil => intro s _; rfl
  | cons x xs ih =>
    intro s h
    rw [forLoop_cons, forLoop_cons, h x (by simp)]
    congr 1
    funext s'
    exact ih s' fun y hy => h y (by simp [hy])

namespace BufferSliceMut

theorem globalIndex_ok {β : Type} {b : β} {s e i : Nat} (h : i < e) :
    (⟨b, ⟨s, e⟩⟩ : BufferSliceMut β).globalIndex i = .ok (i + s) := by
  unfold globalIndex
  rw [assertThat_true (decide_eq_true h)]; rfl

theorem globalIndex_panic {β : Type} {b : β} {s e i : Nat} (h : e ≤ i) :
    (⟨b, ⟨s, e⟩⟩ : BufferSliceMut β).globalIndex i = .error .panic := by
  unfold globalIndex
  rw [assertThat_false (decide_eq_false (Nat.not_lt.2 h))]; rfl

theorem globalRange_ok {β : Type} {b : β} {s e x y : Nat} (hxy : x < y) (h : y ≤ e) :
    (⟨b, ⟨s, e⟩⟩ : BufferSliceMut β).globalRange ⟨x, y⟩ = .ok ⟨x + s, y + s⟩ := by
  unfold globalRange
  rw [assertThat_true (decide_eq_true h)]
  show (if x ≥ y then _ else _) = _
  rw [if_neg (by omega)]; rfl

/-- In-place operations through a slice are operations at shifted indices. -/
theorem run_shift {β : Type} [BorrowedMutBuffer β] {b : β} {l : PointLayout} {s e n : Nat} (op : Op)
    (hp : op.inPlace) (hw : op.wellFormed l) (ha : op.allowed l n) (hn : n ≤ e) :
    runInPlace (⟨b, ⟨s, e⟩⟩ : BufferSliceMut β) op =
      (runInPlace b (op.shift s)).map fun c => ⟨c, ⟨s, e⟩⟩ := by
  have upd : ∀ f : β → Out β, (⟨b, ⟨s, e⟩⟩ : BufferSliceMut β).update f =
      (f b).map fun c => (⟨c, ⟨s, e⟩⟩ : BufferSliceMut β) := by
    intro f
    unfold update
    cases f b <;> rfl
  cases op with
  | setPoint i r =>
    show ((⟨b, ⟨s, e⟩⟩ : BufferSliceMut β).globalIndex i).bind _ = _
    rw [globalIndex_ok (Nat.lt_of_lt_of_le ha hn)]
    exact upd (fun b => BorrowedMutBuffer.setPoint b (i + s) r)
  | setPointRange x y r =>
    show ((⟨b, ⟨s, e⟩⟩ : BufferSliceMut β).globalRange ⟨x, y⟩).bind _ = _
    rw [globalRange_ok hw.1 (Nat.le_trans ha hn)]
    exact upd (fun b => BorrowedMutBuffer.setPointRange b ⟨x + s, y + s⟩ r)
  | setAttribute d i v =>
    show ((⟨b, ⟨s, e⟩⟩ : BufferSliceMut β).globalIndex i).bind _ = _
    rw [globalIndex_ok (Nat.lt_of_lt_of_le ha.2 hn)]
    exact upd (fun b => BorrowedMutBuffer.setAttribute b d (i + s) v)
  | setAttributeRange d x y v =>
    show ((⟨b, ⟨s, e⟩⟩ : BufferSliceMut β).globalRange ⟨x, y⟩).bind _ = _
    rw [globalRange_ok hw.1 (Nat.le_trans ha.2 hn)]
    exact upd (fun b => BorrowedMutBuffer.setAttributeRange b d ⟨x + s, y + s⟩ v)
  | swap i j =>
    show ((⟨b, ⟨s, e⟩⟩ : BufferSliceMut β).globalIndex i).bind _ = _
    rw [globalIndex_ok (Nat.lt_of_lt_of_le ha.1 hn)]
    show ((⟨b, ⟨s, e⟩⟩ : BufferSliceMut β).globalIndex j).bind _ = _
    rw [globalIndex_ok (Nat.lt_of_lt_of_le ha.2 hn)]
    exact upd (fun b => BorrowedMutBuffer.swap b (i + s) (j + s))
  | pushPoints r => simp [Op.inPlace] at hp
  | resize n => simp [Op.inPlace] at hp
  | clear => simp [Op.inPlace] at hp

end BufferSliceMut

theorem runInPlace_eq {β : Type} [OwningBuffer β] (b : β) {op : Op} (hp : op.inPlace) :
    runInPlace b op = runOp b op := by
  cases op <;> first | rfl | simp [Op.inPlace] at hp

theorem shift_inPlace {op : Op} (s : Nat) (h : op.inPlace) : (op.shift s).inPlace := by
  cases op <;> first | rfl | simp [Op.inPlace] at h

theorem shift_wellFormed {op : Op} {l : PointLayout} (s : Nat) (h : op.wellFormed l) :
    (op.shift s).wellFormed l := by
  cases op <;> simp only [Op.wellFormed, Op.shift] at h ⊢ <;> first
    | exact h
    | (refine ⟨by omega, ?_⟩; rw [h.2]; congr 1; omega)

theorem shift_allowed {op : Op} {l : PointLayout} {s n k : Nat} (hp : op.inPlace) (h : op.allowed l n)
    (hk : n + s ≤ k) : (op.shift s).allowed l k := by
  cases op <;> simp only [Op.allowed, Op.shift, Op.inPlace] at h hp ⊢ <;> first
    | omega
    | exact ⟨h.1, by omega⟩

/-- A list as prefix, window and suffix. -/
theorem split_parts {α : Type} (xs : List α) {s e : Nat} (hse : s ≤ e) :
    xs = xs.take s ++ part xs s e ++ xs.drop e := by
  unfold part
  rw [List.append_assoc]
  conv => lhs; rw [← List.take_append_drop s xs]
  congr 1
  conv => lhs; rw [← List.take_append_drop (e - s) (xs.drop s)]
  rw [List.drop_drop]
  congr 2
  omega

theorem set_mid {α : Type} {a w c : List α} {i : Nat} (hi : i < w.length) (v : α) :
    (a ++ w ++ c).set (i + a.length) v = a ++ w.set i v ++ c := by
  rw [List.append_assoc, List.set_append_right _ _ (by omega), Nat.add_sub_cancel,
    List.set_append_left _ _ hi, ← List.append_assoc]

theorem get_mid {α : Type} {a w c : List α} {i : Nat} (hi : i < w.length) :
    (a ++ w ++ c)[i + a.length]? = w[i]? := by
  rw [List.append_assoc, List.getElem?_append_right (by omega), Nat.add_sub_cancel,
    List.getElem?_append_left hi]

theorem modify_mid {α : Type} {a w c : List α} {i : Nat} (hi : i < w.length) (f : α → α) :
    (a ++ w ++ c).modify (i + a.length) f = a ++ w.modify i f ++ c := by
  apply List.ext_getElem?
  intro j
  by_cases h1 : j < a.length
  · have h2 : i + a.length ≠ j := by omega
    simp [List.getElem?_append, h1, h2]
  · by_cases h3 : j - a.length < w.length
    · simp only [List.getElem?_modify, List.append_assoc, List.getElem?_append_right (Nat.not_lt.1 h1)]
      rw [List.getElem?_append_left h3, List.getElem?_append_left (by simpa using h3), List.getElem?_modify]
      by_cases h4 : i + a.length = j
      · have : i = j - a.length := by omega
        simp [this, show j - a.length + a.length = j by omega]
      · have : i ≠ j - a.length := by omega
        simp [h4, this]
    · have h2 : i + a.length ≠ j := by omega
      simp only [List.getElem?_modify, List.append_assoc, List.getElem?_append_right (Nat.not_lt.1 h1), h2]
      rw [List.getElem?_append_right (Nat.not_lt.1 h3), List.getElem?_append_right (by simpa using h3)]
      simp

theorem exchange_mid {α : Type} {a w c : List α} {i j : Nat} (hi : i < w.length) (hj : j < w.length) :
    exchange (a ++ w ++ c) (i + a.length) (j + a.length) = a ++ exchange w i j ++ c := by
  unfold exchange
  rw [get_mid hi, get_mid hj, List.getElem?_eq_getElem hi, List.getElem?_eq_getElem hj]
  dsimp only
  rw [set_mid hi, set_mid (by simpa using hj)]

theorem overwrite_mid {α : Type} {a w c new : List α} {i : Nat} (hi : i + new.length ≤ w.length) :
    overwrite (a ++ w ++ c) (i + a.length) new = a ++ overwrite w i new ++ c := by
  unfold overwrite
  rw [List.append_assoc a w c, List.take_append, List.drop_append, List.take_of_length_le (by omega),
    List.drop_eq_nil_of_le (by omega), show i + a.length - a.length = i by omega,
    show i + a.length + new.length - a.length = i + new.length by omega,
    List.take_append_of_le_length (by omega), List.drop_append_of_le_length hi]
  simp [List.append_assoc]

theorem mapIdx_mid {α : Type} {a w c : List α} {x y : Nat} (hy : y ≤ w.length) (f : Nat → α → α) :
    (a ++ w ++ c).mapIdx (fun i r => if x + a.length ≤ i ∧ i < y + a.length then f (i - (x + a.length)) r else r) =
      a ++ w.mapIdx (fun i r => if x ≤ i ∧ i < y then f (i - x) r else r) ++ c := by
  apply List.ext_getElem?
  intro j
  rw [List.getElem?_mapIdx]
  by_cases h1 : j < a.length
  · rw [List.append_assoc, List.append_assoc, List.getElem?_append_left h1, List.getElem?_append_left h1]
    have : ¬ (x + a.length ≤ j ∧ j < y + a.length) := by omega
    simp [this]
  · rw [List.append_assoc, List.append_assoc, List.getElem?_append_right (Nat.not_lt.1 h1),
      List.getElem?_append_right (Nat.not_lt.1 h1)]
    by_cases h3 : j - a.length < w.length
    · rw [List.getElem?_append_left h3, List.getElem?_append_left (by simpa using h3), List.getElem?_mapIdx]
      congr 1
      funext r
      have e : (x + a.length ≤ j ∧ j < y + a.length) ↔ (x ≤ j - a.length ∧ j - a.length < y) := by omega
      simp only [e, show j - (x + a.length) = j - a.length - x by omega]
    · rw [List.getElem?_append_right (Nat.not_lt.1 h3), List.getElem?_append_right (by simpa using h3)]
      have : ¬ (x + a.length ≤ j ∧ j < y + a.length) := by omega
      simp [this]

/-- An in-place operation at shifted indices changes the window only, as the operation would. -/
theorem shift_onRecords {l : PointLayout} {a w c : List Bytes} {op : Op} (hp : op.inPlace)
    (hw : op.wellFormed l) (ha : op.allowed l w.length) :
    (op.shift a.length).onRecords l (a ++ w ++ c) = a ++ op.onRecords l w ++ c := by
  cases op with
  | setPoint i r => exact set_mid ha r
  | setPointRange x y r =>
    simp only [Op.onRecords, Op.shift]
    rw [show y + a.length - (x + a.length) = y - x by omega]
    apply overwrite_mid
    have h1 := hw.1
    have h2 : y ≤ w.length := ha
    simp [recordsOf]; omega
  | setAttribute d i v =>
    simp only [Op.onRecords, Op.shift]
    cases l.attributes.find? (fun m => m.definition = d) with
    | none => rfl
    | some m => exact modify_mid ha.2 _
  | setAttributeRange d x y v =>
    simp only [Op.onRecords, Op.shift]
    cases l.attributes.find? (fun m => m.definition = d) with
    | none => rfl
    | some m =>
      exact mapIdx_mid ha.2 fun k r => overwrite r m.offset (window v (k * m.size) m.size)
  | swap i j => exact exchange_mid ha.1 ha.2
  | pushPoints r => simp [Op.inPlace] at hp
  | resize n => simp [Op.inPlace] at hp
  | clear => simp [Op.inPlace] at hp

/-- Writing through a mutable slice of a buffer that holds records. -/
theorem sliceMut_step {β : Type} [OwningBuffer β] [HoldsRecords β] {l : PointLayout} (hl : Solid l)
    {rs : List Bytes} (h : AllLen l.size rs) {s e : Nat} (hse : s ≤ e) (he : e ≤ rs.length) {op : Op}
    (hp : op.inPlace) (hw : op.wellFormed l) (ha : op.allowed l (e - s)) :
    runInPlace (⟨HoldsRecords.ofRecords l rs, ⟨s, e⟩⟩ : BufferSliceMut β) op =
      .ok ⟨HoldsRecords.ofRecords l (rs.take s ++ op.onRecords l (part rs s e) ++ rs.drop e), ⟨s, e⟩⟩ ∧
    AllLen l.size (rs.take s ++ op.onRecords l (part rs s e) ++ rs.drop e) := by
  have hpart : AllLen l.size (part rs s e) := (h.drop s).take (e - s)
  constructor
  · rw [BufferSliceMut.run_shift op hp hw ha (by omega), runInPlace_eq _ (shift_inPlace s hp),
      HoldsRecords.step_eq hl h _ (shift_wellFormed s hw), Op.stepRecords,
      if_pos (shift_allowed hp ha (by omega))]
    have e1 := split_parts rs hse
    have e2 : (rs.take s).length = s := by simp; omega
    have := shift_onRecords (l := l) (a := rs.take s) (w := part rs s e) (c := rs.drop e) hp hw (by
      rw [part_length he]; exact ha)
    rw [e2, ← e1] at this
    rw [this]; rfl
  · exact ((h.take s).append (onRecords_allLen hl hpart hw)).append (h.drop e)

end Pasture
