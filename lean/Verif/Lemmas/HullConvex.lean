import Mathlib.Analysis.Convex.Topology
import Mathlib.Analysis.LocallyConvex.Separation
import Verif.Lemmas.HullStep

/-! # The vertices of the mesh span the hull -/

namespace Pasture.Hull

open Spec

/-- The scalar product with `w`. -/
def along (w : P3 ℝ) (v : P3 ℝ) : ℝ := w.x * v.x + w.y * v.y + w.z * v.z

def minus (a b : P3 ℝ) : P3 ℝ := ⟨a.x - b.x, a.y - b.y, a.z - b.z⟩

/-- The triple product. -/
def triple (a b c : P3 ℝ) : ℝ :=
  a.x * (b.y * c.z - b.z * c.y) - a.y * (b.x * c.z - b.z * c.x) + a.z * (b.x * c.y - b.y * c.x)

theorem volume_triple (p q r s : P3 ℝ) : volume p q r s = triple (minus q p) (minus r p) (minus s p) := by
  simp only [volume, triple, minus]

theorem triple_identity (w b c d : P3 ℝ) :
    along w w * triple b c d = along w b * triple w c d + along w c * triple b w d + along w d * triple b c w := by
  simp only [along, triple]
  ring

/-- Going around `e`, the neighbours advance in the direction `d`. -/
theorem fan_step {w b c d : P3 ℝ} (hd : along w d = 0) (hb : along w b < 0) (hc : along w c < 0) (ht : triple b c d < 0) :
    triple w c d / along w c < triple w b d / along w b := by
  have h1 := triple_identity w b c d
  have h2 : triple b w d = -triple w b d := by simp only [triple]; ring
  have h0 : 0 < along w w := by
    have : w.x ≠ 0 ∨ w.y ≠ 0 ∨ w.z ≠ 0 := by
      by_contra hn
      simp only [not_or, not_not] at hn
      simp [along, hn] at hb
    unfold along
    rcases this with h | h | h <;> nlinarith [mul_self_pos.2 h, mul_self_nonneg w.x, mul_self_nonneg w.y, mul_self_nonneg w.z]
  rw [hd, zero_mul, add_zero, h2] at h1
  have h3 : along w b * triple w c d + along w c * -triple w b d < 0 := by
    rw [← h1]
    exact mul_neg_of_pos_of_neg h0 ht
  rw [← sub_neg, div_sub_div _ _ hc.ne hb.ne]
  exact div_neg_of_neg_of_pos (by linarith) (mul_pos_of_neg_of_neg hc hb)

variable {α : Type} {R : Nat → P3 ℝ}

def vertices (ts : List (Tri α)) : List Nat := ts.flatMap fun t => [t.a, t.b, t.c]

theorem mem_vertices {ts : List (Tri α)} {v : Nat} : v ∈ vertices ts ↔ ∃ t ∈ ts, v = t.a ∨ v = t.b ∨ v = t.c := by
  simp [vertices]

/-- A direction in which `x` is before a vertex `e` cannot have all other vertices behind `e`. -/
theorem no_direction {ts : List (Tri α)} (hn : (ts.flatMap dedges).Nodup)
    (htwin : ∀ e ∈ ts.flatMap dedges, e.rev ∈ ts.flatMap dedges) (hdist : ∀ t ∈ ts, t.a ≠ t.b ∧ t.b ≠ t.c ∧ t.c ≠ t.a)
    (hin : ∀ t ∈ ts, ∀ v ∈ vertices ts, vol R t.a t.b t.c v ≤ 0)
    {x : P3 ℝ} (hx : ∀ t ∈ ts, volume (R t.a) (R t.b) (R t.c) x < 0)
    {e : Nat} (he : e ∈ vertices ts) (w : P3 ℝ) (hw : ∀ v ∈ vertices ts, v ≠ e → along w (minus (R v) (R e)) < 0)
    (hwx : 0 < along w (minus x (R e))) : False := by
  -- another vertex
  obtain ⟨m, hm, hme⟩ : ∃ m ∈ vertices ts, m ≠ e := by
    obtain ⟨t, ht, h⟩ := mem_vertices.1 he
    obtain ⟨d1, d2, d3⟩ := hdist t ht
    rcases h with rfl | rfl | rfl
    · exact ⟨t.b, mem_vertices.2 ⟨t, ht, by simp⟩, fun h => d1 h.symm⟩
    · exact ⟨t.a, mem_vertices.2 ⟨t, ht, by simp⟩, d1⟩
    · exact ⟨t.a, mem_vertices.2 ⟨t, ht, by simp⟩, fun h => d3 h.symm⟩
  have hwm := hw m hm hme
  obtain ⟨A, hA⟩ : ∃ A, A = -along w (minus (R m) (R e)) := ⟨_, rfl⟩
  obtain ⟨B, hB⟩ : ∃ B, B = along w (minus x (R e)) := ⟨_, rfl⟩
  have hA0 : 0 < A := by rw [hA]; linarith
  have hB0 : 0 < B := by rw [hB]; exact hwx
  obtain ⟨d, hd⟩ : ∃ d : P3 ℝ, d = ⟨A * (x.x - (R e).x) + B * ((R m).x - (R e).x), A * (x.y - (R e).y) + B * ((R m).y - (R e).y),
    A * (x.z - (R e).z) + B * ((R m).z - (R e).z)⟩ := ⟨_, rfl⟩
  have hwd : along w d = 0 := by
    have : along w d = A * along w (minus x (R e)) + B * along w (minus (R m) (R e)) := by
      rw [hd]; simp only [along, minus]; ring
    rw [this, ← hB, hA]
    ring
  -- the direction d is inside of all faces at e
  have key : ∀ b c, b ∈ vertices ts → c ∈ vertices ts → b ≠ e → c ≠ e → volume (R e) (R b) (R c) x < 0 → vol R e b c m ≤ 0 →
      triple w (minus (R c) (R e)) d / along w (minus (R c) (R e)) < triple w (minus (R b) (R e)) d / along w (minus (R b) (R e)) := by
    intro b c hb hc hbe hce h1 h2
    apply fan_step hwd (hw b hb hbe) (hw c hc hce)
    have : triple (minus (R b) (R e)) (minus (R c) (R e)) d = A * volume (R e) (R b) (R c) x + B * volume (R e) (R b) (R c) (R m) := by
      rw [hd]; simp only [triple, minus, volume]; ring
    rw [this]
    have := mul_neg_of_pos_of_neg hA0 h1
    have := mul_nonpos_of_nonneg_of_nonpos hB0.le h2
    linarith
  obtain ⟨H, hH⟩ : ∃ H : Nat → ℝ, ∀ v, H v = triple w (minus (R v) (R e)) d / along w (minus (R v) (R e)) := ⟨_, fun _ => rfl⟩
  simp only [← hH] at key
  obtain ⟨f, hf⟩ : ∃ f : Edge → ℝ, ∀ g, f g = (if g.a = e then H g.b else 0) - (if g.b = e then H g.a else 0) := ⟨_, fun _ => rfl⟩
  have hsum : (ts.map fun t => f ⟨t.a, t.b⟩ + f ⟨t.b, t.c⟩ + f ⟨t.c, t.a⟩).sum = 0 := by
    rw [← sum_faces]
    refine sum_cancels hn htwin f ?_
    intro g
    rw [hf, hf]
    exact (neg_sub _ _).symm
  have hterm : ∀ t ∈ ts, 0 ≤ f ⟨t.a, t.b⟩ + f ⟨t.b, t.c⟩ + f ⟨t.c, t.a⟩ ∧
      (e = t.a ∨ e = t.b ∨ e = t.c → 0 < f ⟨t.a, t.b⟩ + f ⟨t.b, t.c⟩ + f ⟨t.c, t.a⟩) := by
    intro t ht
    obtain ⟨d1, d2, d3⟩ := hdist t ht
    have va : t.a ∈ vertices ts := mem_vertices.2 ⟨t, ht, by simp⟩
    have vb : t.b ∈ vertices ts := mem_vertices.2 ⟨t, ht, by simp⟩
    have vc : t.c ∈ vertices ts := mem_vertices.2 ⟨t, ht, by simp⟩
    have hx1 := hx t ht
    have hm1 := hin t ht m hm
    unfold vol at hm1
    have r1 := fun s => volume_rotate (R t.a) (R t.b) (R t.c) s
    have r2 := fun s => volume_rotate (R t.b) (R t.c) (R t.a) s
    by_cases ha : e = t.a
    · have := key t.b t.c vb vc (by omega) (by omega) (by rw [ha]; exact hx1) (by rw [ha]; exact hm1)
      have e1 : f ⟨t.a, t.b⟩ + f ⟨t.b, t.c⟩ + f ⟨t.c, t.a⟩ = H t.b - H t.c := by
        simp only [hf]
        rw [if_pos ha.symm, if_neg (by omega), if_neg (by omega), if_neg (by omega), if_neg (by omega), if_pos ha.symm]
        ring
      rw [e1]
      exact ⟨by linarith, fun _ => by linarith⟩
    by_cases hb : e = t.b
    · have := key t.c t.a vc va (by omega) (by omega) (by rw [hb, r1]; exact hx1)
        (by rw [hb]; unfold vol; rw [r1]; exact hm1)
      have e1 : f ⟨t.a, t.b⟩ + f ⟨t.b, t.c⟩ + f ⟨t.c, t.a⟩ = H t.c - H t.a := by
        simp only [hf]
        rw [if_neg (by omega), if_pos hb.symm, if_pos hb.symm, if_neg (by omega), if_neg (by omega), if_neg (by omega)]
        ring
      rw [e1]
      exact ⟨by linarith, fun _ => by linarith⟩
    by_cases hc : e = t.c
    · have := key t.a t.b va vb (by omega) (by omega)
        (by rw [hc, r2, r1]; exact hx1) (by rw [hc]; unfold vol; rw [r2, r1]; exact hm1)
      have e1 : f ⟨t.a, t.b⟩ + f ⟨t.b, t.c⟩ + f ⟨t.c, t.a⟩ = H t.a - H t.b := by
        simp only [hf]
        rw [if_neg (by omega), if_neg (by omega), if_neg (by omega), if_pos hc.symm, if_pos hc.symm, if_neg (by omega)]
        ring
      rw [e1]
      exact ⟨by linarith, fun _ => by linarith⟩
    have e1 : f ⟨t.a, t.b⟩ + f ⟨t.b, t.c⟩ + f ⟨t.c, t.a⟩ = 0 := by
      simp only [hf]
      rw [if_neg (by omega), if_neg (by omega), if_neg (by omega), if_neg (by omega), if_neg (by omega), if_neg (by omega)]
      ring
    rw [e1]
    exact ⟨le_rfl, fun h => absurd h (by omega)⟩
  obtain ⟨t, ht, hte⟩ := mem_vertices.1 he
  have hpos : 0 < (ts.map fun t => f ⟨t.a, t.b⟩ + f ⟨t.b, t.c⟩ + f ⟨t.c, t.a⟩).sum := by
    have := List.single_le_sum (l := ts.map fun t => f ⟨t.a, t.b⟩ + f ⟨t.b, t.c⟩ + f ⟨t.c, t.a⟩) (by
      intro y hy
      obtain ⟨u, hu, rfl⟩ := List.mem_map.1 hy
      exact (hterm u hu).1) _ (List.mem_map.2 ⟨t, ht, rfl⟩)
    exact lt_of_lt_of_le ((hterm t ht).2 hte) this
  rw [hsum] at hpos
  exact lt_irrefl _ hpos

/-- `P3` as a vector. -/
def toVec (p : P3 ℝ) : ℝ × ℝ × ℝ := (p.x, p.y, p.z)

/-- Points strictly inside of all triangles are in the hull of the vertices. -/
theorem inside_hull {ts : List (Tri α)} (hne : ts ≠ []) (hn : (ts.flatMap dedges).Nodup)
    (htwin : ∀ e ∈ ts.flatMap dedges, e.rev ∈ ts.flatMap dedges) (hdist : ∀ t ∈ ts, t.a ≠ t.b ∧ t.b ≠ t.c ∧ t.c ≠ t.a)
    (hin : ∀ t ∈ ts, ∀ v ∈ vertices ts, vol R t.a t.b t.c v ≤ 0)
    (hinj : ∀ v ∈ vertices ts, ∀ u ∈ vertices ts, R v = R u → v = u)
    {x : P3 ℝ} (hx : ∀ t ∈ ts, volume (R t.a) (R t.b) (R t.c) x < 0) :
    toVec x ∈ convexHull ℝ {v | ∃ i ∈ vertices ts, v = toVec (R i)} := by
  by_contra hout
  have hfin : {v | ∃ i ∈ vertices ts, v = toVec (R i)}.Finite := by
    refine Set.Finite.subset ((vertices ts).map fun i => toVec (R i)).finite_toSet ?_
    rintro v ⟨i, hi, rfl⟩
    exact List.mem_map.2 ⟨i, hi, rfl⟩
  obtain ⟨g, u, hg1, hg2⟩ := geometric_hahn_banach_closed_point (convex_convexHull ℝ _) (hfin.isClosed_convexHull ℝ) hout
  obtain ⟨w, hw⟩ : ∃ w : P3 ℝ, ∀ p, g (toVec p) = along w p := by
    refine ⟨⟨g (1, 0, 0), g (0, 1, 0), g (0, 0, 1)⟩, ?_⟩
    intro p
    have : toVec p = p.x • ((1, 0, 0) : ℝ × ℝ × ℝ) + p.y • ((0, 1, 0) : ℝ × ℝ × ℝ) + p.z • ((0, 0, 1) : ℝ × ℝ × ℝ) := by
      simp [toVec]
    rw [this, map_add, map_add, map_smul, map_smul, map_smul]
    simp only [along, smul_eq_mul]
    ring
  have hsep : ∀ v ∈ vertices ts, 0 < along w (minus x (R v)) := by
    intro v hv
    have h1 := hg1 _ (subset_convexHull ℝ _ ⟨v, hv, rfl⟩)
    rw [hw] at h1 hg2
    have : along w (minus x (R v)) = along w x - along w (R v) := by simp only [along, minus]; ring
    rw [this]
    linarith
  -- far away
  obtain ⟨s, hs⟩ : ∃ s : ℝ, ∀ v ∈ vertices ts, 0 < s * along w (minus x (R v)) + along (R v) (minus x (R v)) := by
    have : ∀ vs : List Nat, (∀ v ∈ vs, 0 < along w (minus x (R v))) →
        ∃ s0 : ℝ, ∀ s ≥ s0, ∀ v ∈ vs, 0 < s * along w (minus x (R v)) + along (R v) (minus x (R v)) := by
      intro vs
      induction vs with
      | nil => exact fun _ => ⟨0, fun _ _ v hv => absurd hv List.not_mem_nil⟩
      | cons v vs ih =>
        intro h
        obtain ⟨s0, h0⟩ := ih fun u hu => h u (List.mem_cons_of_mem _ hu)
        have hv := h v List.mem_cons_self
        refine ⟨max s0 ((1 - along (R v) (minus x (R v))) / along w (minus x (R v))), ?_⟩
        intro s hs' u hu
        rcases List.mem_cons.1 hu with rfl | hu
        · have h2 := le_trans (le_max_right _ _) hs'
          rw [div_le_iff₀ hv] at h2
          linarith
        · exact h0 s (le_trans (le_max_left _ _) hs') u hu
    obtain ⟨s0, h0⟩ := this (vertices ts) hsep
    exact ⟨s0, h0 s0 le_rfl⟩
  -- the last vertex
  have hvne : (vertices ts).toFinset.Nonempty := by
    obtain ⟨t, ht⟩ := List.exists_mem_of_ne_nil ts hne
    exact ⟨t.a, List.mem_toFinset.2 (mem_vertices.2 ⟨t, ht, by simp⟩)⟩
  obtain ⟨e, he, hmax⟩ := Finset.exists_max_image (vertices ts).toFinset (fun v => 2 * s * along w (R v) + along (R v) (R v)) hvne
  rw [List.mem_toFinset] at he
  refine no_direction hn htwin hdist hin hx he ⟨s * w.x + (R e).x, s * w.y + (R e).y, s * w.z + (R e).z⟩ ?_ ?_
  · intro v hv hve
    have h1 := hmax v (List.mem_toFinset.2 hv)
    have h2 : 0 < along (minus (R v) (R e)) (minus (R v) (R e)) := by
      have : (R v).x - (R e).x ≠ 0 ∨ (R v).y - (R e).y ≠ 0 ∨ (R v).z - (R e).z ≠ 0 := by
        by_contra hc
        simp only [not_or, not_not, sub_eq_zero] at hc
        apply hve
        apply hinj v hv e he
        obtain ⟨a, b, c⟩ := hc
        cases h1 : R v
        cases h2 : R e
        rw [h1, h2] at a b c
        simp at a b c
        rw [a, b, c]
      simp only [along, minus]
      rcases this with h | h | h <;>
        nlinarith [mul_self_pos.2 h, mul_self_nonneg ((R v).x - (R e).x), mul_self_nonneg ((R v).y - (R e).y), mul_self_nonneg ((R v).z - (R e).z)]
    simp only [along, minus] at h1 h2 ⊢
    nlinarith
  · have := hs e he
    simp only [along, minus] at this ⊢
    linarith

end Pasture.Hull
