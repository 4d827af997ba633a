import Verif.Lemmas.Interleaved
import Verif.Model.Ops

/-! # Loops that fill an output slice block by block; histories -/

namespace Pasture

open Spec

theorem assertThat_true {b : Bool} (h : b = true) : assertThat b = .ok () := by
  unfold assertThat; rw [if_pos h]

theorem assertThat_false {b : Bool} (h : b = false) : assertThat b = .error .panic := by
  unfold assertThat panicked; rw [h]; rfl

/-- A loop over `a..a+n` whose step for `i` replaces block `i - a` of the output by `v i`. -/
theorem fill_loop {sz a : Nat} {v : Nat → Bytes} {body : Bytes → Nat → Out Bytes} (n : Nat) (data : Bytes)
    (hlen : data.length = n * sz)
    (hv : ∀ k, k < n → (v (a + k)).length = sz)
    (step : ∀ k, k < n → ∀ d : Bytes, d.length = n * sz →
      body d (a + k) = .ok (put d (k * sz) (v (a + k)))) :
    forLoop (List.range' a n) data body = .ok ((List.range' a n).map v).flatten := by
  have key : ∀ k, k ≤ n → forLoop (List.range' a k) data body =
      .ok (((List.range' a k).map v).flatten ++ data.drop (k * sz)) ∧
      (((List.range' a k).map v).flatten).length = k * sz := by
    intro k
    induction k with
    | zero => intro _; simp
    | succ k ih =>
      intro hk
      obtain ⟨ih1, ih2⟩ := ih (by omega)
      have hb : k * sz + sz ≤ n * sz := Interleaved.block_end_le (by omega)
      have hvk := hv k (by omega)
      rw [List.range'_1_concat, forLoop_append, ih1]
      simp only [Except.bind, forLoop_cons, forLoop_nil]
      rw [step k (by omega) _ (by simp only [List.length_append, ih2, List.length_drop]; omega)]
      simp only [put, List.map_append, List.flatten_append, List.map_cons, List.map_nil,
        List.flatten_cons, List.flatten_nil, List.append_nil, Nat.succ_mul]
      refine ⟨?_, by simp only [List.length_append, ih2, hvk]⟩
      rw [List.take_left' ih2, hvk]
      congr 2
      rw [← List.drop_drop, List.drop_left' ih2, List.drop_drop]
  obtain ⟨h1, _⟩ := key n (Nat.le_refl _)
  rw [h1, List.drop_eq_nil_of_le (by omega), List.append_nil]

/-- A loop over `a..b` that fails at index `c` and succeeds before. -/
theorem range_loop_fails {σ : Type} {P : σ → Prop} {body : σ → Nat → Out σ} {a b c : Nat} {e : Fault}
    (hac : a ≤ c) (hcb : c < b) (s : σ) (hs : P s)
    (step : ∀ i s, a ≤ i → i < c → P s → ∃ s', body s i = .ok s' ∧ P s')
    (fail : ∀ s, P s → body s c = .error e) :
    forLoop (List.range' a (b - a)) s body = .error e := by
  have key : ∀ k, a + k ≤ c → ∃ s', forLoop (List.range' a k) s body = .ok s' ∧ P s' := by
    intro k
    induction k with
    | zero => intro _; exact ⟨s, rfl, hs⟩
    | succ k ih =>
      intro hk
      obtain ⟨s1, h1, h2⟩ := ih (by omega)
      obtain ⟨s2, h3, h4⟩ := step (a + k) s1 (by omega) (by omega) h2
      refine ⟨s2, ?_, h4⟩
      rw [List.range'_1_concat, forLoop_append, h1]
      simp [Except.bind, h3]
  obtain ⟨s1, h1, h2⟩ := key (c - a) (by omega)
  have e2 : List.range' a (b - a) = List.range' a (c - a) ++ c :: List.range' (c + 1) (b - c - 1) := by
    have : c = a + (c - a) := by omega
    rw [show List.range' a (b - a) = List.range' a ((c - a) + (b - c)) by congr 1; omega,
      ← List.range'_append_1, ← this]
    congr 1
    rw [show b - c = (b - c - 1) + 1 by omega, List.range'_succ]
    simp
  rw [e2, forLoop_append, h1]
  simp [Except.bind, fail s1 h2]

section
variable {β : Type} [BorrowedBuffer β]

/-- Range reads through the provided method, when single reads succeed. -/
theorem getAttributeRange_ok {b : β} {d : AttrDef} {m : Member} {r : Rng} {v : Nat → Bytes} {data : Bytes}
    (hf : (BorrowedBuffer.layout b).getAttribute d = some m)
    (hr : ∀ i, r.start ≤ i → i < r.stop → (v i).length = m.size ∧ ∀ old : Bytes, old.length = m.size →
      BorrowedBuffer.getAttributeUnchecked b m i old = .ok (v i))
    (hd : data.length = (r.stop - r.start) * m.size) :
    getAttributeRange b d r data = .ok ((List.range' r.start (r.stop - r.start)).map v).flatten := by
  simp only [getAttributeRange, hf, expectSome, bind, Except.bind, Rng.toList]
  apply fill_loop (sz := m.size) _ _ hd
  · intro k hk; exact (hr _ (by omega) (by omega)).1
  · intro k hk dd hdd
    have hb : k * m.size + m.size ≤ (r.stop - r.start) * m.size := Interleaved.block_end_le hk
    have e : r.start + k - r.start = k := by omega
    obtain ⟨h1, h2⟩ := hr (r.start + k) (by omega) (by omega)
    simp only [e, Nat.succ_mul]
    rw [sliceGet_ok (by omega)]
    simp only
    rw [h2 _ (length_window (by omega))]
    simp only
    rw [slicePut_ok (by omega) (by omega)]

theorem getAttributeRange_panic {b : β} {d : AttrDef} {m : Member} {r : Rng} {n : Nat} {data : Bytes}
    (hf : (BorrowedBuffer.layout b).getAttribute d = some m)
    (hok : ∀ i, i < n → ∀ old : Bytes, old.length = m.size →
      ∃ v, BorrowedBuffer.getAttributeUnchecked b m i old = .ok v ∧ v.length = m.size)
    (hfail : ∀ i, n ≤ i → ∀ old, BorrowedBuffer.getAttributeUnchecked b m i old = .error .panic)
    (h1 : r.start < r.stop) (h2 : n < r.stop)
    (hd : data.length = (r.stop - r.start) * m.size) :
    getAttributeRange b d r data = .error .panic := by
  simp only [getAttributeRange, hf, expectSome, bind, Except.bind, Rng.toList]
  have hb : ∀ i, r.start ≤ i → i < r.stop → (i - r.start) * m.size + m.size ≤ (r.stop - r.start) * m.size :=
    fun i _ _ => Interleaved.block_end_le (by omega)
  apply range_loop_fails (P := fun s : Bytes => s.length = (r.stop - r.start) * m.size)
    (c := max r.start n) (by omega) (by omega) data hd
  · intro i s hi1 hi2 hs
    have := hb i hi1 (by omega)
    simp only [Nat.succ_mul]
    rw [sliceGet_ok (by omega)]
    simp only
    obtain ⟨v, hv1, hv2⟩ := hok i (by omega) _ (length_window (bs := s) (s := (i - r.start) * m.size)
      (n := m.size) (by omega))
    rw [hv1]
    simp only
    rw [slicePut_ok (by omega) (by omega)]
    refine ⟨_, rfl, ?_⟩
    rw [put_eq_overwrite, length_overwrite (by omega), hs]
  · intro s hs
    have := hb (max r.start n) (by omega) (by omega)
    simp only [Nat.succ_mul]
    rw [sliceGet_ok (by omega)]
    simp only
    rw [hfail _ (by omega)]

theorem getAttributeRange_absent {b : β} {d : AttrDef} (r : Rng) (data : Bytes)
    (hf : (BorrowedBuffer.layout b).getAttribute d = none) :
    getAttributeRange b d r data = .error .panic := by
  simp [getAttributeRange, hf, expectSome, panicked, bind, Except.bind]

end

/-- A simulation of single operations is one of histories. -/
theorem runOps_sim {β σ : Type} [OwningBuffer β] {abs : σ → β} {inv : σ → Prop}
    {step : σ → Op → Out σ} {ok : Op → Prop}
    (sim : ∀ s op, inv s → ok op → runOp (abs s) op = (step s op).map abs)
    (keep : ∀ s op s', inv s → ok op → step s op = .ok s' → inv s')
    (ops : List Op) : ∀ s, inv s → (∀ op ∈ ops, ok op) →
      runOps (abs s) ops = (forLoop ops s step).map abs ∧
        ∀ s', forLoop ops s step = .ok s' → inv s' := by
  induction ops with
  | nil => intro s hs _; exact ⟨rfl, by intro s' h; simp at h; exact h ▸ hs⟩
  | cons op ops ih =>
    intro s hs hop
    have h1 := sim s op hs (hop op (by simp))
    unfold runOps at *
    simp only [forLoop_cons]
    rw [h1]
    cases hst : step s op with
    | error e => simp [Except.bind, Except.map]
    | ok s1 =>
      have hs1 := keep s op s1 hs (hop op (by simp)) hst
      simpa [Except.bind, Except.map] using ih s1 hs1 (fun op h => hop op (by simp [h]))

theorem recordHistory_eq (l : PointLayout) (ops : List Op) (rs : List Bytes) :
    recordHistory l ops rs = forLoop ops rs fun rs op => op.stepRecords l rs := by
  induction ops generalizing rs with
  | nil => rfl
  | cons op ops ih =>
    simp only [recordHistory, forLoop_cons, bind]
    cases op.stepRecords l rs <;> simp [Except.bind, ih]

theorem pointHistory_eq (l : PointLayout) (ops : List Op) (ps : List Point) :
    pointHistory l ops ps = forLoop ops ps fun ps op => op.stepPoints l ps := by
  induction ops generalizing ps with
  | nil => rfl
  | cons op ops ih =>
    simp only [pointHistory, forLoop_cons, bind]
    cases op.stepPoints l ps <;> simp [Except.bind, ih]

end Pasture
