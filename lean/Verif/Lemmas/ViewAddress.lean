import Verif.Spec.ViewAddress
import Verif.Lemmas.Views
import Verif.Lemmas.Slices
import Verif.Lemmas.SlicesMut
import Verif.Lemmas.Interleaved

/-! # Lemmas: memory of values, and references to them -/

namespace Pasture

open Pasture.Spec

theorem references_get {addr size : Nat} {rs : List Bytes} {i : Nat} :
    (references addr size rs)[i]? = rs[i]?.map fun r => ⟨addr + i * size, r⟩ := by
  simp [references, List.getElem?_mapIdx]

/-- Memory that holds the values one after the other. -/
theorem lies_region {size addr : Nat} {rs : List Bytes} (h : AllLen size rs) :
    Lies (fun i => (Mem.mk addr rs.flatten).slice (i * size) ((i + 1) * size))
      (fun q => (Mem.mk addr rs.flatten).slice (q.start * size) (q.stop * size)) size addr rs where
  sizes := h
  one_eq i r hr := by
    obtain ⟨hi, rfl⟩ := List.getElem?_eq_some_iff.1 hr
    unfold Mem.slice
    rw [sliceGet_blocks h (Nat.le_succ i) hi]
    simp only [bind, Except.bind, pure, Except.pure]
    congr 2
    rw [show i.succ - i = 1 by omega, List.drop_eq_getElem_cons hi]
    simp [List.take]
  many_eq s e hse he := by
    unfold Mem.slice
    rw [sliceGet_blocks h (Nat.le_of_lt hse) he]
    rfl
  many_empty s hs := by
    refine ⟨s, Nat.le_refl _, ?_⟩
    unfold Mem.slice
    rw [sliceGet_blocks h (Nat.le_refl _) hs]
    simp [bind, Except.bind, pure, Except.pure]

theorem bounded_region {size addr : Nat} {rs : List Bytes} (h : AllLen size rs) (hs : 0 < size) :
    RefusesFrom (fun i => (Mem.mk addr rs.flatten).slice (i * size) ((i + 1) * size)) rs.length := by
  intro i hi
  show Mem.slice _ _ _ = _
  unfold Mem.slice
  rw [sliceGet_panic (by
    rw [h.flatten_length, Nat.succ_mul]
    exact Interleaved.block_end_gt hs hi)]
  rfl

/-- The part `s..e` of such memory, through `BufferSlice`. -/
theorem lies_slice {one : Nat → Out Mem} {many : Rng → Out Mem} {size addr : Nat} {rs : List Bytes}
    (h : Lies one many size addr rs) {s e : Nat} (he : e ≤ rs.length) (hse : s ≤ e) :
    Lies (fun i => do one (← globalIndex i ⟨s, e⟩)) (fun q => do many (← globalRange q ⟨s, e⟩))
      size (addr + s * size) (part rs s e) where
  sizes r hr := h.sizes r (List.mem_of_mem_drop (List.mem_of_mem_take hr))
  one_eq i r hr := by
    have hi : i < e - s := by
      obtain ⟨hi, _⟩ := List.getElem?_eq_some_iff.1 hr
      rwa [part_length he] at hi
    rw [part_get hi] at hr
    rw [globalIndex_ok hi]
    simp only [bind, Except.bind]
    rw [h.one_eq _ _ hr, Nat.add_mul]
    congr 2
    omega
  many_eq a b hab hb := by
    rw [part_length he] at hb
    rw [globalRange_ok hab (by simpa using hb)]
    simp only [bind, Except.bind]
    rw [h.many_eq _ _ (by omega) (by omega)]
    have := part_part (xs := rs) (s := s) (e := e) (a := a) (b := b) hb
    unfold part at this ⊢
    rw [this, Nat.add_comm s a, Nat.add_comm s b, Nat.add_mul]
    congr 2
    omega
  many_empty a ha := by
    rw [part_length he] at ha
    rw [globalRange_empty (Nat.le_refl _) (by simpa using ha)]
    simp only [bind, Except.bind]
    obtain ⟨k, hk, hm⟩ := h.many_empty e he
    refine ⟨k - s, by omega, ?_⟩
    rw [hm, Nat.add_assoc, ← Nat.add_mul, Nat.add_sub_cancel' (by omega)]

theorem bounded_slice {one : Nat → Out Mem} {s e : Nat} :
    RefusesFrom (fun i => do one (← globalIndex i ⟨s, e⟩)) (e - s) := by
  intro i hi
  show (globalIndex i ⟨s, e⟩).bind _ = _
  rw [globalIndex_panic hi]
  rfl

/-- The same through `BufferSliceMut`. -/
theorem lies_slice_mut {β : Type} {b : β} {one : Nat → Out Mem} {many : Rng → Out Mem} {size addr : Nat}
    {rs : List Bytes} (h : Lies one many size addr rs) {s e : Nat} (he : e ≤ rs.length) (hse : s ≤ e) :
    Lies (fun i => do one (← (⟨b, ⟨s, e⟩⟩ : BufferSliceMut β).globalIndex i))
      (fun q => do many (← (⟨b, ⟨s, e⟩⟩ : BufferSliceMut β).globalRange q))
      size (addr + s * size) (part rs s e) where
  sizes r hr := h.sizes r (List.mem_of_mem_drop (List.mem_of_mem_take hr))
  one_eq i r hr := by
    have hi : i < e - s := by
      obtain ⟨hi, _⟩ := List.getElem?_eq_some_iff.1 hr
      rwa [part_length he] at hi
    rw [part_get hi] at hr
    rw [BufferSliceMut.globalIndex_ok (by omega)]
    simp only [bind, Except.bind]
    rw [h.one_eq _ _ hr, Nat.add_mul]
    congr 2
    omega
  many_eq a b hab hb := by
    rw [part_length he] at hb
    rw [BufferSliceMut.globalRange_ok hab (by omega)]
    simp only [bind, Except.bind]
    rw [h.many_eq _ _ (by omega) (by omega)]
    have := part_part (xs := rs) (s := s) (e := e) (a := a) (b := b) hb
    unfold part at this ⊢
    rw [this, Nat.add_comm s a, Nat.add_comm s b, Nat.add_mul]
    congr 2
    omega
  many_empty a ha := by
    rw [part_length he] at ha
    have : (⟨b, ⟨s, e⟩⟩ : BufferSliceMut β).globalRange ⟨a, a⟩ = .ok ⟨e, e⟩ := by
      unfold BufferSliceMut.globalRange
      rw [assertThat_true (decide_eq_true (show a ≤ e by omega))]
      show (if a ≥ a then _ else _) = _
      rw [if_pos (Nat.le_refl _)]; rfl
    rw [this]
    simp only [bind, Except.bind]
    obtain ⟨k, hk, hm⟩ := h.many_empty e he
    refine ⟨k - s, by omega, ?_⟩
    rw [hm, Nat.add_assoc, ← Nat.add_mul, Nat.add_sub_cancel' (by omega)]

/-- A value can be referred to iff its address is aligned, which is that of the first value. -/
theorem fromBytes_value {t : Pod} (ht : Pod.Valid t) {addr i : Nat} {r : Bytes} (hr : r.length = t.size) :
    fromBytesAt t ⟨addr + i * t.size, r⟩ =
      if t.align ∣ addr then .ok ⟨addr + i * t.size, r⟩ else .error .panic := by
  unfold fromBytesAt
  rw [assertThat_true (decide_eq_true hr)]
  have hd : t.align ∣ i * t.size := Nat.dvd_mul_left_of_dvd ht.divides i
  by_cases h : t.align ∣ addr
  · rw [if_pos h]
    show (assertThat _).bind _ = _
    rw [assertThat_true (decide_eq_true (Nat.mod_eq_zero_of_dvd (Nat.dvd_add h hd)))]
    rfl
  · rw [if_neg h]
    show (assertThat _).bind _ = _
    rw [assertThat_false]
    · rfl
    · refine decide_eq_false fun hm => h ?_
      exact (Nat.dvd_add_left hd).1 (Nat.dvd_of_mod_eq_zero hm)

theorem castSliceAt_region {t : Pod} (ht : Pod.Valid t) (hs : 0 < t.size) {addr k : Nat} {rs : List Bytes}
    (h : AllLen t.size rs) :
    castSliceAt t ⟨addr + k * t.size, rs.flatten⟩ =
      if t.align ∣ addr then .ok (references (addr + k * t.size) t.size rs) else .error .panic := by
  unfold castSliceAt
  have hd : t.align ∣ k * t.size := Nat.dvd_mul_left_of_dvd ht.divides k
  by_cases h' : t.align ∣ addr
  · rw [if_pos h', assertThat_true (decide_eq_true (.inr (Nat.mod_eq_zero_of_dvd (Nat.dvd_add h' hd))))]
    show (castSlice _ _).bind _ = _
    rw [castSlice_blocks h hs]
    rfl
  · rw [if_neg h', assertThat_false]
    · rfl
    · refine decide_eq_false ?_
      rintro (hm | hm)
      · have := ht.align_pos
        exact h' (by rw [show t.align = 1 by omega]; exact Nat.one_dvd _)
      · exact h' ((Nat.dvd_add_left hd).1 (Nat.dvd_of_mod_eq_zero hm))

end Pasture
