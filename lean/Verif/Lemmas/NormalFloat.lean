import Verif.Props.Centroid

/-!
# NaNs and infinities in the estimation of normals
-/

namespace Pasture

open Normals Props

namespace Normals

/-! ## NaNs stay -/

theorem add_nan {x y : F64} (h : x.isNaN = true ∨ y.isNaN = true) : (Flt.add x y).isNaN = true := by
  unfold Flt.add
  rw [if_pos h]
  rfl

theorem sub_nan {x y : F64} (h : x.isNaN = true ∨ y.isNaN = true) : (Flt.sub x y).isNaN = true :=
  add_nan (h.imp_right id)

theorem mul_nan {x y : F64} (h : x.isNaN = true ∨ y.isNaN = true) : (Flt.mul x y).isNaN = true := by
  unfold Flt.mul
  rw [if_pos h]
  rfl

theorem div_nan {x y : F64} (h : x.isNaN = true ∨ y.isNaN = true) : (Flt.div x y).isNaN = true := by
  unfold Flt.div
  rw [if_pos h]
  rfl

theorem lt_nan {x y : F64} (h : x.isNaN = true) : Flt.lt x y = false := by
  unfold Flt.lt
  rw [h]
  rfl

theorem sum_nan : ∀ (xs : List F64) (s : F64), s.isNaN = true ∨ (∃ x ∈ xs, x.isNaN = true) →
    (xs.foldl Flt.add s).isNaN = true
  | [], s, h => by
    rcases h with h | ⟨x, hx, _⟩
    · exact h
    · cases hx
  | x :: xs, s, h => by
    rw [List.foldl_cons]
    refine sum_nan xs _ ?_
    rcases h with h | ⟨y, hy, h⟩
    · exact .inl (add_nan (.inl h))
    · rcases List.mem_cons.1 hy with rfl | hy
      · exact .inl (add_nan (.inr h))
      · exact .inr ⟨y, hy, h⟩

/-! ## A sum with an infinite term -/

theorem inf_notNaN {v : F64} (h : v.isInf = true) : v.isNaN = false := by
  unfold Flt.isInf at h
  unfold Flt.isNaN
  rw [of_decide_eq_true h]
  exact decide_eq_false (Nat.lt_irrefl _)

theorem inf_eq {v w : F64} (hv : v.isInf = true) (hw : w.isInf = true) (h : v.neg = w.neg) : v = w := by
  unfold Flt.isInf at hv hw
  cases v
  cases w
  simp_all

theorem add_inf {s v : F64} (h : v.isInf = true) : (Flt.add s v).isNaN = true ∨ Flt.add s v = v := by
  unfold Flt.add
  split
  · exact .inl rfl
  · split
    · split
      · exact .inl rfl
      · rename_i hs hn
        exact .inr (inf_eq hs h (by simpa [h] using hn))
    · exact .inr rfl

theorem inf_add {s v : F64} (h : v.isInf = true) : (Flt.add v s).isNaN = true ∨ Flt.add v s = v := by
  unfold Flt.add
  split
  · exact .inl rfl
  · split
    · exact .inl rfl
    · exact .inr rfl

theorem sum_inf {v : F64} (hv : v.isInf = true) : ∀ (xs : List F64) (s : F64), s = v ∨ v ∈ xs →
    (xs.foldl Flt.add s).isNaN = true ∨ xs.foldl Flt.add s = v
  | [], s, h => by
    rcases h with h | h
    · exact .inr h
    · cases h
  | x :: xs, s, h => by
    rw [List.foldl_cons]
    rcases h with rfl | h
    · rcases inf_add (s := x) hv with e | e
      · exact .inl (sum_nan xs _ (.inl e))
      · exact sum_inf hv xs _ (.inl e)
    · rcases List.mem_cons.1 h with rfl | h
      · rcases add_inf (s := s) hv with e | e
        · exact .inl (sum_nan xs _ (.inl e))
        · exact sum_inf hv xs _ (.inl e)
      · exact sum_inf hv xs _ (.inr h)

theorem count_positive (n : Nat) : (Flt.ofInt .f64 n).neg = false := by
  unfold Flt.ofInt Flt.ofUnits
  dsimp only
  split
  · rfl
  · refine decide_eq_false ?_
    have : (0 : Int) ≤ (n : Int) * FloatFormat.f64.one := Int.mul_nonneg (Int.natCast_nonneg n) (Int.natCast_nonneg _)
    omega

/-- An infinite coordinate minus the mean of the coordinates is a NaN. -/
theorem deviation_nan {v : F64} (hv : v.isInf = true) {xs : List F64} (h : v ∈ xs) :
    (Flt.sub v (Flt.div (xs.foldl Flt.add (Flt.zero .f64)) (Flt.ofInt .f64 xs.length))).isNaN = true := by
  have hn := count_positive xs.length
  generalize Flt.ofInt .f64 xs.length = n at hn
  rcases sum_inf hv xs (Flt.zero .f64) (.inr h) with e | e
  · exact sub_nan (.inr (div_nan (.inl e)))
  · rw [e]
    unfold Flt.div
    split
    · exact sub_nan (.inr rfl)
    · split
      · exact sub_nan (.inr rfl)
      · rw [hn]
        unfold Flt.sub Flt.add
        split
        · rfl
        · rw [if_pos]
          · rfl
          · refine ⟨?_, ?_⟩
            · unfold Flt.negate Flt.inf Flt.isInf
              exact decide_eq_true rfl
            · unfold Flt.negate Flt.inf
              cases v.neg <;> decide

/-! ## The covariance matrix -/

theorem covariance_sums (c : P3 F64) : ∀ (ps : List (P3 F64)) (m : Upper F64), ps.foldl (covarianceAdd c) m =
    ⟨(ps.map fun p => (p.x.sub c.x).mul (p.x.sub c.x)).foldl Flt.add m.a00,
     (ps.map fun p => (p.y.sub c.y).mul (p.x.sub c.x)).foldl Flt.add m.a01,
     (ps.map fun p => (p.z.sub c.z).mul (p.x.sub c.x)).foldl Flt.add m.a02,
     (ps.map fun p => (p.y.sub c.y).mul (p.y.sub c.y)).foldl Flt.add m.a11,
     (ps.map fun p => (p.y.sub c.y).mul (p.z.sub c.z)).foldl Flt.add m.a12,
     (ps.map fun p => (p.z.sub c.z).mul (p.z.sub c.z)).foldl Flt.add m.a22⟩
  | [], _ => rfl
  | p :: ps, m => by rw [List.foldl_cons, covariance_sums c ps]; rfl

theorem diagonal_nan {c : F64} {xs : List F64} {v : F64} (h : v ∈ xs) (hc : (Flt.sub v c).isNaN = true) :
    ((xs.map fun x => (x.sub c).mul (x.sub c)).foldl Flt.add (Flt.zero .f64)).isNaN = true :=
  sum_nan _ _ (.inr ⟨_, List.mem_map_of_mem h, mul_nan (.inl hc)⟩)

theorem roots_nan (trig : Trig F64) (c0 c1 c2 : F64) (h : c2.isNaN = true) :
    sort3 (cubicRoots trig c0 c1 c2) = panicked := by
  unfold sort3
  rw [if_pos]
  have : (cubicRoots trig c0 c1 c2).x.isNaN = true := add_nan (.inl (mul_nan (.inl h)))
  show ((cubicRoots trig c0 c1 c2).x.isNaN || _ || _) = true
  rw [this]
  rfl

theorem solve_nan (trig : Trig F64) {a : Mat3 F64}
    (h : a.row0.x.isNaN = true ∨ a.row1.y.isNaN = true ∨ a.row2.z.isNaN = true) : solvePlaneParameter trig a = panicked := by
  have h2 : (coefficient2 a).isNaN = true := by
    rcases h with h | h | h
    · exact add_nan (.inl (add_nan (.inl h)))
    · exact add_nan (.inl (add_nan (.inr h)))
    · exact add_nan (.inr h)
  have h0 : (coefficient0 a).isNaN = true := by
    refine sub_nan (.inl (sub_nan (.inl (sub_nan (.inl (add_nan (.inl ?_)))))))
    rcases h with h | h | h
    · exact mul_nan (.inl (mul_nan (.inl h)))
    · exact mul_nan (.inl (mul_nan (.inr h)))
    · exact mul_nan (.inr h)
  have hp : solvePolynomial trig a = panicked := by
    unfold solvePolynomial
    have : Arith.lt (Arith.abs (coefficient0 a)) Number.epsilon = false :=
      lt_nan (x := Flt.abs (coefficient0 a)) h0
    dsimp only
    rw [this, roots_nan trig _ _ _ h2]
    rfl
  unfold solvePlaneParameter eigen3x3
  rw [hp]
  rfl

/-- A cloud with an infinite coordinate and without NaNs has no normal: the estimation panics. -/
theorem estimation_infinite (trig : Trig F64) {ps : List (P3 F64)} (hd : isDense ps = true)
    (h : ∃ p ∈ ps, p.x.isInf = true ∨ p.y.isInf = true ∨ p.z.isInf = true) : normalEstimation trig ps = panicked := by
  obtain ⟨p, hp, h⟩ := h
  have hne : ps.isEmpty = false := by
    cases ps with
    | nil => cases hp
    | cons => rfl
  unfold normalEstimation covarianceMatrix centroid
  rw [if_neg (by rw [hne]; decide)]
  dsimp only
  rw [if_pos hd, fold_points]
  simp only [bind, Except.bind]
  rw [if_pos hd, covariance_sums]
  dsimp only
  by_cases hl : ps.length < 3
  · simp only [bailIf, hl, decide_true, if_true]
    rfl
  · simp only [bailIf, hl, decide_false]
    refine solve_nan trig ?_
    rcases h with h | h | h
    · left
      have := deviation_nan h (List.mem_map_of_mem (f := P3.x) hp)
      rw [List.length_map] at this
      have := diagonal_nan (List.mem_map_of_mem (f := P3.x) hp) this
      rw [List.map_map] at this
      exact this
    · right; left
      have := deviation_nan h (List.mem_map_of_mem (f := P3.y) hp)
      rw [List.length_map] at this
      have := diagonal_nan (List.mem_map_of_mem (f := P3.y) hp) this
      rw [List.map_map] at this
      exact this
    · right; right
      have := deviation_nan h (List.mem_map_of_mem (f := P3.z) hp)
      rw [List.length_map] at this
      have := diagonal_nan (List.mem_map_of_mem (f := P3.z) hp) this
      rw [List.map_map] at this
      exact this

end Normals
end Pasture
