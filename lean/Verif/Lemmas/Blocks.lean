import Verif.Lemmas.Loop
import Verif.Spec.Points
import Mathlib.Data.List.Basic

/-!
# Byte storage as a sequence of equally long blocks
-/

namespace Pasture
open Spec

/-- All blocks have `sz` elements. -/
def AllLen {α : Type} (sz : Nat) (rs : List (List α)) : Prop := ∀ r ∈ rs, r.length = sz

namespace AllLen
variable {α : Type} {sz : Nat} {rs qs : List (List α)}

theorem nil : AllLen sz ([] : List (List α)) := by simp [AllLen]
theorem cons_iff {r : List α} : AllLen sz (r :: rs) ↔ r.length = sz ∧ AllLen sz rs := by
  simp [AllLen]
theorem append (h : AllLen sz rs) (h' : AllLen sz qs) : AllLen sz (rs ++ qs) := by
  intro r hr; rcases List.mem_append.1 hr with h1 | h1
  · exact h r h1
  · exact h' r h1
theorem take (h : AllLen sz rs) (n : Nat) : AllLen sz (rs.take n) :=
  fun r hr => h r (List.mem_of_mem_take hr)
theorem drop (h : AllLen sz rs) (n : Nat) : AllLen sz (rs.drop n) :=
  fun r hr => h r (List.mem_of_mem_drop hr)
theorem replicate {z : List α} (hz : z.length = sz) (n : Nat) : AllLen sz (List.replicate n z) := by
  intro r hr; rw [List.mem_replicate] at hr; rw [hr.2, hz]
theorem set (h : AllLen sz rs) {z : List α} (hz : z.length = sz) (n : Nat) :
    AllLen sz (rs.set n z) := by
  intro r hr
  rcases List.mem_or_eq_of_mem_set hr with h1 | h1
  · exact h r h1
  · rw [h1, hz]

theorem flatten_length (h : AllLen sz rs) : rs.flatten.length = rs.length * sz := by
  induction rs with
  | nil => simp
  | cons r rs ih =>
    have := cons_iff.1 h
    simp [ih this.2, this.1, Nat.succ_mul]; omega

theorem flatten_take (h : AllLen sz rs) (k : Nat) :
    rs.flatten.take (k * sz) = (rs.take k).flatten := by
  induction rs generalizing k with
  | nil => simp
  | cons r rs ih =>
    obtain ⟨h1, h2⟩ := cons_iff.1 h
    cases k with
    | zero => simp
    | succ k =>
      rw [List.flatten_cons, List.take_succ_cons, List.flatten_cons, ← ih h2 k, List.take_append, h1,
        List.take_of_length_le (by rw [h1, Nat.succ_mul]; omega)]
      congr 2; rw [Nat.succ_mul]; omega

theorem flatten_drop (h : AllLen sz rs) (k : Nat) :
    rs.flatten.drop (k * sz) = (rs.drop k).flatten := by
  induction rs generalizing k with
  | nil => simp
  | cons r rs ih =>
    obtain ⟨h1, h2⟩ := cons_iff.1 h
    cases k with
    | zero => simp
    | succ k =>
      rw [List.flatten_cons, List.drop_succ_cons, ← ih h2 k, List.drop_append, h1,
        List.drop_of_length_le (by rw [h1, Nat.succ_mul]; omega), List.nil_append]
      congr 1; rw [Nat.succ_mul]; omega

theorem getElem (h : AllLen sz rs) {i : Nat} {r : List α} (hi : rs[i]? = some r) : r.length = sz :=
  h r (List.mem_of_getElem? hi)

end AllLen

theorem length_overwrite {α : Type} {xs : List α} {s : Nat} {v : List α} (h : s + v.length ≤ xs.length) :
    (overwrite xs s v).length = xs.length := by
  unfold overwrite; simp; omega

theorem put_eq_overwrite {α : Type} (xs : List α) (s : Nat) (v : List α) :
    put xs s v = overwrite xs s v := rfl

/-- Reading a window inside block `i`. -/
theorem window_flatten {sz : Nat} {rs : List Bytes} (h : AllLen sz rs) {i : Nat} {r : Bytes}
    (hi : rs[i]? = some r) (o n : Nat) (hon : o + n ≤ sz) :
    window rs.flatten (i * sz + o) n = window r o n := by
  unfold window
  rw [← List.drop_drop, h.flatten_drop]
  have hlt : i < rs.length := by
    rw [List.getElem?_eq_some_iff] at hi; exact hi.1
  rw [List.drop_eq_getElem_cons hlt]
  have hr : rs[i] = r := by
    rw [List.getElem?_eq_some_iff] at hi; exact hi.2
  have hlen := h.getElem hi
  rw [hr, List.flatten_cons, List.drop_append_of_le_length (by omega),
    List.take_append_of_le_length (by simp; omega)]

theorem window_zero_full {r : Bytes} {n : Nat} (h : r.length = n) : window r 0 n = r := by
  simp [window, ← h]

/-- Reading a whole block. -/
theorem window_block {sz : Nat} {rs : List Bytes} (h : AllLen sz rs) {i : Nat} {r : Bytes}
    (hi : rs[i]? = some r) : window rs.flatten (i * sz) sz = r := by
  have := window_flatten h hi 0 sz (by omega)
  rw [Nat.add_zero] at this
  rw [this, window_zero_full (h.getElem hi)]

theorem recordsOf_length (sz n : Nat) (bs : Bytes) : (recordsOf sz n bs).length = n := by
  simp [recordsOf]

theorem recordsOf_getElem? (sz n : Nat) (bs : Bytes) (i : Nat) :
    (recordsOf sz n bs)[i]? = if i < n then some (window bs (i * sz) sz) else none := by
  unfold recordsOf
  rw [List.getElem?_map]
  split
  · next h => rw [List.getElem?_range h]; rfl
  · next h => rw [List.getElem?_eq_none (by simp; omega)]; rfl

/-- Splitting and joining are inverse. -/
theorem recordsOf_flatten {sz : Nat} {rs : List Bytes} (h : AllLen sz rs) {n : Nat}
    (hn : rs.length = n) : recordsOf sz n rs.flatten = rs := by
  apply List.ext_getElem?
  intro i
  rw [recordsOf_getElem?]
  split
  · next hi =>
    rw [← hn] at hi
    rw [List.getElem?_eq_getElem hi, window_block h (List.getElem?_eq_getElem hi)]
  · next hi => rw [List.getElem?_eq_none (by omega)]

theorem length_window {bs : Bytes} {s n : Nat} (h : s + n ≤ bs.length) : (window bs s n).length = n := by
  simp [window]; omega

theorem recordsOf_allLen {sz n : Nat} {bs : Bytes} (h : bs.length = n * sz) :
    AllLen sz (recordsOf sz n bs) := by
  intro r hr
  simp only [recordsOf, List.mem_map, List.mem_range] at hr
  obtain ⟨i, hi, rfl⟩ := hr
  apply length_window
  rw [h]
  calc i * sz + sz = (i + 1) * sz := by rw [Nat.succ_mul]
    _ ≤ n * sz := Nat.mul_le_mul_right _ hi

theorem flatten_recordsOf {sz n : Nat} {bs : Bytes} (h : bs.length = n * sz) :
    (recordsOf sz n bs).flatten = bs := by
  induction n generalizing bs with
  | zero => simp at h; simp [recordsOf, h]
  | succ n ih =>
    have e : recordsOf sz (n + 1) bs = window bs 0 sz :: recordsOf sz n (bs.drop sz) := by
      unfold recordsOf
      rw [List.range_succ_eq_map, List.map_cons, List.map_map]
      simp only [Nat.zero_mul, List.cons.injEq, true_and]
      apply List.map_congr_left
      intro i _
      simp only [Function.comp_apply, window, List.drop_drop, Nat.succ_mul]
      rw [Nat.add_comm]
    rw [e, List.flatten_cons, ih (by simp [h, Nat.succ_mul])]
    simp [window]

/-- Bytes are blocks. -/
theorem exists_blocks {sz n : Nat} {bs : Bytes} (h : bs.length = n * sz) :
    ∃ rs : List Bytes, AllLen sz rs ∧ rs.length = n ∧ bs = rs.flatten :=
  ⟨recordsOf sz n bs, recordsOf_allLen h, recordsOf_length .., (flatten_recordsOf h).symm⟩

/-- Overwriting inside block `i`. -/
theorem put_flatten {sz : Nat} {rs : List Bytes} (h : AllLen sz rs) {i : Nat} (hi : i < rs.length)
    (o : Nat) (v : Bytes) (hov : o + v.length ≤ sz) :
    put rs.flatten (i * sz + o) v = (rs.modify i fun r => overwrite r o v).flatten := by
  induction rs generalizing i with
  | nil => simp at hi
  | cons r rs ih =>
    obtain ⟨h1, h2⟩ := AllLen.cons_iff.1 h
    cases i with
    | zero =>
      simp only [List.modify_zero_cons, List.flatten_cons, put, overwrite, Nat.zero_mul, Nat.zero_add]
      rw [List.take_append_of_le_length (by omega), List.drop_append_of_le_length (by omega)]
      simp
    | succ i =>
      have hi' : i < rs.length := by simpa using hi
      rw [List.modify_succ_cons, List.flatten_cons, List.flatten_cons, ← ih h2 hi']
      unfold put
      have e1 : (i + 1) * sz + o = r.length + (i * sz + o) := by rw [h1, Nat.succ_mul]; omega
      rw [e1, List.take_length_add_append, Nat.add_assoc, List.drop_length_add_append]
      simp

/-- Overwriting whole blocks. -/
theorem put_blocks {sz : Nat} {rs ds : List Bytes} (h : AllLen sz rs) (hd : AllLen sz ds) (s : Nat) :
    put rs.flatten (s * sz) ds.flatten = (overwrite rs s ds).flatten := by
  unfold put overwrite
  rw [hd.flatten_length, h.flatten_take, ← Nat.add_mul, h.flatten_drop]
  simp

/-- Reading whole blocks. -/
theorem sliceGet_blocks {sz : Nat} {rs : List Bytes} (h : AllLen sz rs) {a b : Nat} (hab : a ≤ b)
    (hb : b ≤ rs.length) :
    sliceGet rs.flatten (a * sz) (b * sz) = .ok ((rs.drop a).take (b - a)).flatten := by
  unfold sliceGet
  rw [if_pos ⟨Nat.mul_le_mul_right _ hab, by rw [h.flatten_length]; exact Nat.mul_le_mul_right _ hb⟩,
    h.flatten_drop, ← Nat.sub_mul, (h.drop a).flatten_take]

theorem resize_blocks {sz : Nat} {rs : List Bytes} (h : AllLen sz rs) (n : Nat) :
    vecResize rs.flatten (n * sz) 0 = (resized rs n (zeros sz)).flatten := by
  unfold vecResize resized
  rw [h.flatten_take, h.flatten_length, List.flatten_append]
  congr 1
  rw [← Nat.sub_mul]
  generalize n - rs.length = k
  induction k with
  | zero => simp
  | succ k ih =>
    rw [List.replicate_succ, List.flatten_cons, ← ih, Nat.succ_mul, Nat.add_comm,
      List.replicate_add]; rfl

theorem sliceGet_ok {data : Bytes} {a n : Nat} (h : a + n ≤ data.length) :
    sliceGet data a (a + n) = .ok (window data a n) := by
  unfold sliceGet window
  rw [if_pos ⟨by omega, h⟩]
  simp

theorem sliceGet_panic {data : Bytes} {a b : Nat} (h : data.length < b) :
    sliceGet data a b = .error .panic := by
  unfold sliceGet panicked
  rw [if_neg (by omega)]

theorem slicePut_ok {data v : Bytes} {a b : Nat} (hv : a + v.length = b) (h : b ≤ data.length) :
    slicePut data a b v = .ok (put data a v) := by
  unfold slicePut
  rw [if_pos (by omega)]

theorem slicePut_panic {data v : Bytes} {a b : Nat} (h : data.length < b) :
    slicePut data a b v = .error .panic := by
  unfold slicePut panicked
  rw [if_neg (by omega)]

end Pasture
