import Verif.Spec.Sort
import Verif.Lemmas.ViewsShow

/-! # Stable sorting, and updating a range of points -/

namespace Pasture

open Spec

theorem mergeSort_stable {α : Type} {cmp : α → α → Ordering} (h : Ranks cmp) (xs : List α) :
    StablySorted cmp xs (xs.mergeSort fun x y => cmp x y != .gt) := by
  have ht : ∀ a b c : α, (cmp a b != .gt) = true → (cmp b c != .gt) = true → (cmp a c != .gt) = true := by
    intro a b c h1 h2
    simp only [bne_iff_ne] at h1 h2 ⊢
    exact h.trans a b c h1 h2
  have hd : ∀ a b : α, ((cmp a b != .gt) || (cmp b a != .gt)) = true := by
    intro a b
    rw [h.swap a b]
    cases cmp b a <;> rfl
  have hp := List.mergeSort_perm xs (fun x y => cmp x y != .gt)
  refine ⟨?_, hp, ?_⟩
  · exact (List.pairwise_mergeSort ht hd xs).imp fun h => by simpa using h
  · intro p
    have hsub : (xs.filter fun x => decide (cmp p x = .eq)).Sublist (xs.mergeSort fun x y => cmp x y != .gt) := by
      apply List.sublist_mergeSort ht hd _ List.filter_sublist
      rw [List.pairwise_iff_forall_sublist]
      intro a b hab
      have ha : a ∈ xs.filter fun x => decide (cmp p x = .eq) := hab.subset (by simp)
      have hb : b ∈ xs.filter fun x => decide (cmp p x = .eq) := hab.subset (by simp)
      have ha' : cmp p a = .eq := by simpa using (List.mem_filter.1 ha).2
      have hb' : cmp p b = .eq := by simpa using (List.mem_filter.1 hb).2
      have : cmp a p ≠ .gt := by rw [h.swap a p, ha']; decide
      have : cmp a b ≠ .gt := h.trans a p b this (by rw [hb']; decide)
      simpa using this
    have hsub2 := hsub.filter fun x => decide (cmp p x = .eq)
    rw [List.filter_filter] at hsub2
    simp only [Bool.and_self] at hsub2
    exact (hsub2.eq_of_length ((hp.filter _).length_eq).symm).symm

theorem allLen_perm {sz : Nat} {xs ys : List Bytes} (h : AllLen sz xs) (hp : ys.Perm xs) : AllLen sz ys :=
  fun r hr => h r (hp.mem_iff.1 hr)

namespace Interleaved

variable {l : PointLayout} {rs : List Bytes}

/-- Updating a range of points. -/
theorem getPointRangeMut_ok (h : AllLen l.size rs) {s e : Nat} (hse : s ≤ e) (he : e ≤ rs.length)
    {f : Bytes → Out Bytes} {qs : List Bytes} (hq : AllLen l.size qs) (hql : qs.length = e - s)
    (hf : f ((rs.drop s).take (e - s)).flatten = .ok qs.flatten) :
    (ofRecords l rs).getPointRangeMut ⟨s, e⟩ f = .ok (ofRecords l (overwrite rs s qs)) := by
  have hs := sliceGet_blocks h hse he
  simp only [getPointRangeMut, update, byteRangeOfPoints, read, bind, Except.bind]
  rw [hs]
  simp only
  rw [hf]
  simp only [write]
  rw [slicePut_ok (by rw [hq.flatten_length, hql, ← Nat.add_mul]; congr 1; omega)
    (by rw [h.flatten_length]; exact Nat.mul_le_mul_right _ he), put_blocks h hq]
  simp only [bind, Except.bind, pure, Except.pure, ofRecords]
  congr 2
  unfold overwrite
  simp only [List.length_append, List.length_take, List.length_drop]
  omega

/-- Updating all points. -/
theorem getPointRangeMut_all (h : AllLen l.size rs) {f : Bytes → Out Bytes} {qs : List Bytes}
    (hq : AllLen l.size qs) (hql : qs.length = rs.length) (hf : f rs.flatten = .ok qs.flatten) :
    (ofRecords l rs).getPointRangeMut ⟨0, rs.length⟩ f = .ok (ofRecords l qs) := by
  rw [getPointRangeMut_ok h (Nat.zero_le _) (Nat.le_refl _) hq (by omega) (by simpa using hf)]
  unfold overwrite
  rw [hql]
  simp

end Interleaved

theorem forLoop_set {α : Type} (f : α → α) : ∀ (k : Nat) (xs : List α), k ≤ xs.length →
    forLoop (List.range k) xs (fun xs i => do
      let x ← elemAt xs i
      pure (xs.set i (f x))) = (.ok ((xs.take k).map f ++ xs.drop k) : Out (List α))
  | 0, xs, _ => by simp [forLoop, pure, Except.pure]
  | k + 1, xs, hk => by
    have ih := forLoop_set f k xs (by omega)
    unfold forLoop at ih ⊢
    rw [List.range_succ, List.foldlM_append, ih]
    have hlt : k < xs.length := by omega
    simp only [bind, Except.bind, List.foldlM_cons, List.foldlM_nil, pure, Except.pure, elemAt]
    have e1 : ((xs.take k).map f ++ xs.drop k)[k]? = some xs[k] := by
      rw [List.getElem?_append_right (by simp)]
      simp [Nat.min_eq_left (Nat.le_of_lt hlt), List.getElem?_eq_getElem hlt]
    rw [e1]
    simp only [expectSome]
    congr 1
    apply List.ext_getElem
    · simp; omega
    · intro i h1 h2
      simp only [List.getElem_set, List.getElem_append, List.getElem_map, List.length_map, List.length_take,
        List.getElem_take, List.getElem_drop]
      by_cases hik : i = k
      · subst hik
        rw [if_pos rfl, dif_pos (by omega)]
      · by_cases hik2 : i < k
        · rw [if_neg (by omega), dif_pos (by omega), dif_pos (by omega)]
        · rw [if_neg (by omega), dif_neg (by omega), dif_neg (by omega)]
          congr 1
          omega

end Pasture
