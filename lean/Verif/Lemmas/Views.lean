import Verif.Spec.Iter
import Verif.Lemmas.SlicesMut

/-! # Views and iterators -/

namespace Pasture

open Spec

theorem castSlice_blocks {sz : Nat} {rs : List Bytes} (h : AllLen sz rs) (hsz : 0 < sz) :
    castSlice sz rs.flatten = .ok rs := by
  unfold castSlice
  rw [h.flatten_length, if_neg (by omega)]
  rw [assertThat_true (by simp)]
  rw [Nat.mul_div_cancel _ hsz]
  exact congrArg Except.ok (recordsOf_flatten h rfl)

/-- Element `i` of the list is what the iterator fetches; it fails with `e` past the end. -/
structure Fetches {α : Type} (n : Nat) (get : Nat → Out α) (xs : List α) (e : Fault) : Prop where
  len_eq : n = xs.length
  ok : ∀ i x, xs[i]? = some x → get i = .ok x
  fail : ∀ i, xs.length < i → get i = .error e

theorem iterNext_eq {α : Type} {n : Nat} {get : Nat → Out α} {xs : List α} {e : Fault}
    (h : Fetches n get xs e) {i : Nat} (hi : i ≤ xs.length) :
    iterNext n get i = .ok ((xs.drop i).head?, min (i + 1) xs.length) := by
  unfold iterNext
  rw [h.len_eq]
  by_cases hn : i = xs.length
  · rw [if_pos hn]; subst hn; simp
  · rw [if_neg hn]
    have hlt : i < xs.length := by omega
    have := h.ok i xs[i] (List.getElem?_eq_getElem hlt)
    rw [this]
    simp only [bind, Except.bind, pure, Except.pure, List.head?_drop]
    rw [List.getElem?_eq_getElem hlt, Nat.min_eq_left (by omega)]

theorem drop_min {α : Type} (xs : List α) (k : Nat) : xs.drop (min k xs.length) = xs.drop k := by
  by_cases h : k ≤ xs.length
  · rw [Nat.min_eq_left h]
  · rw [Nat.min_eq_right (by omega), List.drop_length, List.drop_of_length_le (by omega)]

theorem iterCall_eq {α : Type} {n : Nat} {get : Nat → Out α} {xs : List α} {e : Fault}
    (h : Fetches n get xs e) {i : Nat} (hi : i ≤ xs.length) {c : IterCall}
    (hc : ∀ k, c = .nth k → k ≤ (xs.drop i).length) :
    ∃ j, j ≤ xs.length ∧ xs.drop j = Call.rest (xs.drop i) c ∧
      iterCall n get i c = .ok (Call.result (xs.drop i) c, j) := by
  cases c with
  | next =>
    refine ⟨min (i + 1) xs.length, by omega, ?_, iterNext_eq h hi⟩
    rw [drop_min]; simp [Call.rest]
  | nth k =>
    have hk := hc k rfl
    rw [List.length_drop] at hk
    refine ⟨min (i + k + 1) xs.length, by omega, ?_, ?_⟩
    · rw [drop_min]; simp [Call.rest, Nat.add_assoc]
    · show iterNext n get (i + k) = _
      rw [iterNext_eq h (by omega)]
      simp [Call.result]

theorem runIter_within {α : Type} {n : Nat} {get : Nat → Out α} {xs : List α} {e : Fault}
    (h : Fetches n get xs e) : ∀ (cs : List IterCall) (i : Nat), i ≤ xs.length → Within cs (xs.drop i) →
    runIter (iterCall n get) cs i = .ok (results cs (xs.drop i))
  | [], i, _, _ => rfl
  | c :: cs, i, hi, hw => by
    obtain ⟨j, hj, hd, he⟩ := iterCall_eq h hi hw.1
    simp only [runIter, he, bind, Except.bind]
    rw [runIter_within h cs j hj (by rw [hd]; exact hw.2), hd]
    rfl

theorem iterDefaultNth_eq {α : Type} {n : Nat} {get : Nat → Out α} {xs : List α} {e : Fault}
    (h : Fetches n get xs e) : ∀ (k i : Nat), i ≤ xs.length →
    iterDefaultNth n get k i = .ok (xs[i + k]?, min (i + k + 1) xs.length)
  | 0, i, hi => by
    unfold iterDefaultNth
    rw [iterNext_eq h hi]; simp
  | k + 1, i, hi => by
    unfold iterDefaultNth
    rw [iterNext_eq h hi]
    simp only [bind, Except.bind, List.head?_drop]
    by_cases hn : i < xs.length
    · rw [List.getElem?_eq_getElem hn]
      dsimp only
      rw [Nat.min_eq_left (by omega), iterDefaultNth_eq h k (i + 1) (by omega)]
      congr 3 <;> omega
    · rw [List.getElem?_eq_none (by omega)]
      dsimp only
      rw [List.getElem?_eq_none (by omega), Nat.min_eq_right (by omega), Nat.min_eq_right (by omega)]
      rfl

theorem runIter_default {α : Type} {n : Nat} {get : Nat → Out α} {xs : List α} {e : Fault}
    (h : Fetches n get xs e) : ∀ (cs : List IterCall) (i : Nat), i ≤ xs.length →
    runIter (iterDefaultCall n get) cs i = .ok (results cs (xs.drop i))
  | [], i, _ => rfl
  | .next :: cs, i, hi => by
    simp only [runIter, iterDefaultCall]
    rw [iterNext_eq h hi]
    simp only [bind, Except.bind]
    rw [runIter_default h cs _ (by omega), drop_min]
    simp [results, Call.rest, Call.result, pure, Except.pure]
  | .nth k :: cs, i, hi => by
    simp only [runIter, iterDefaultCall]
    rw [iterDefaultNth_eq h k i hi]
    simp only [bind, Except.bind]
    rw [runIter_default h cs _ (by omega), drop_min]
    simp [results, Call.rest, Call.result, pure, Except.pure, Nat.add_assoc]

/-- Past the end the iterator fails. -/
theorem runIter_past {α : Type} {n : Nat} {get : Nat → Out α} {xs : List α} {e : Fault}
    (h : Fetches n get xs e) {k : Nat} (hk : xs.length < k) (cs : List IterCall) :
    runIter (iterCall n get) (.nth k :: cs) 0 = .error e := by
  simp only [runIter, iterCall, iterNext, Nat.zero_add]
  rw [if_neg (by have := h.len_eq; omega), h.fail k hk]
  rfl

theorem fetches_elemAt {α : Type} (xs : List α) : Fetches xs.length (elemAt xs) xs .panic where
  len_eq := rfl
  ok i x h := by unfold elemAt; rw [h]; rfl
  fail i h := by unfold elemAt; rw [List.getElem?_eq_none (by omega)]; rfl

theorem fetches_elemPtr {α : Type} (xs : List α) :
    Fetches xs.length (elemPtr xs) (List.range xs.length) .ub where
  len_eq := by simp
  ok i x h := by
    have hi : i < xs.length := by
      by_contra hc
      rw [List.getElem?_eq_none (by simpa using hc)] at h
      cases h
    rw [List.getElem?_eq_getElem (by simpa using hi), List.getElem_range] at h
    unfold elemPtr; rw [if_pos hi]
    exact congrArg Except.ok (Option.some.inj h)
  fail i h := by
    rw [List.length_range] at h
    unfold elemPtr; rw [if_neg (by omega)]

end Pasture
