import Mathlib.Algebra.Order.BigOperators.Group.List
import Verif.Lemmas.HullMesh

/-! # One iteration for points in general position -/

namespace Pasture.Hull

open Spec

variable {α : Type}

/-- `volume` of four points given by their indices. -/
abbrev vol (R : Nat → P3 ℝ) (i j k l : Nat) : ℝ := volume (R i) (R j) (R k) (R l)

variable [Arith α]

/-- The two comparisons with the normal of the triangle tell on which side of the triangle a point is. -/
def Rep (Q : Nat → P3 α) (R : Nat → P3 ℝ) (n : Nat) (t : Tri α) : Prop :=
  ∀ p < n, p ≠ t.a → p ≠ t.b → p ≠ t.c →
    (Arith.lt (Vec3.dot (Vec3.sub (Q t.a) (Q p)) t.normal) Arith.zero = true ↔ 0 < vol R t.a t.b t.c p) ∧
    (Arith.eq (Vec3.dot (Vec3.sub (Q t.a) (Q p)) t.normal) Arith.zero = true ↔ vol R t.a t.b t.c p = 0)

/-- `R` are the real positions of points in general position, `Q` their positions in a type of numbers in which all
    comparisons of the algorithm come out right. -/
structure Exact (look : Nat → Out (P3 α)) (Q : Nat → P3 α) (R : Nat → P3 ℝ) (n : Nat) : Prop where
  look_ok : ∀ i < n, look i = .ok (Q i)
  general : ∀ i < n, ∀ j < n, ∀ k < n, ∀ l < n, [i, j, k, l].Nodup → vol R i j k l ≠ 0
  cone : ∀ a < n, ∀ b < n, ∀ p < n, a ≠ b → b ≠ p → p ≠ a → Rep Q R n ⟨a, b, p, calcNormal (Q a) (Q b) (Q p)⟩
  first : ∀ v : P3 α, ∃ v1 v2, extendFirst look 2 (Q 2) ⟨0, 1, 0, v⟩ = .ok [⟨0, 1, 2, v1⟩, ⟨0, 2, 1, v2⟩] ∧
    Rep Q R n ⟨0, 1, 2, v1⟩ ∧ Rep Q R n ⟨0, 2, 1, v2⟩

/-- The hull of the first `k` points. -/
structure Mesh (Q : Nat → P3 α) (R : Nat → P3 ℝ) (n k : Nat) (ts : List (Tri α)) : Prop where
  nonempty : ts ≠ []
  good : ∀ t ∈ ts, Good k t
  rep : ∀ t ∈ ts, Rep Q R n t
  nodup : (ts.flatMap dedges).Nodup
  twin : ∀ e ∈ ts.flatMap dedges, e.rev ∈ ts.flatMap dedges
  inside : ∀ t ∈ ts, ∀ q < k, vol R t.a t.b t.c q ≤ 0

variable {look : Nat → Out (P3 α)} {Q : Nat → P3 α} {R : Nat → P3 ℝ} {n k : Nat}

open Classical in
/-- Point `k` is outside of the plane of the triangle. -/
noncomputable def visible (R : Nat → P3 ℝ) (k : Nat) (t : Tri α) : Bool := decide (0 < vol R t.a t.b t.c k)

omit [Arith α] in
theorem visible_iff {t : Tri α} : visible R k t = true ↔ 0 < vol R t.a t.b t.c k := by simp [visible]

theorem Exact.not_zero (hX : Exact look Q R n) (hk : k < n) {t : Tri α} (ht : Good k t) : vol R t.a t.b t.c k ≠ 0 := by
  have h1 := ht.a_lt
  have h2 := ht.b_lt
  have h3 := ht.c_lt
  apply hX.general <;> try omega
  have h4 := ht.ab
  have h5 := ht.bc
  have h6 := ht.ca
  simp only [List.nodup_cons, List.mem_cons, List.not_mem_nil, or_false, not_or, not_false_eq_true, List.nodup_nil, and_true]
  omega

/-- The result of `triangles.retain(..)`. -/
theorem sweep_eq (hX : Exact look Q R n) (hk : k < n) : ∀ (ts : List (Tri α)), (∀ t ∈ ts, Good k t ∧ Rep Q R n t) → ∀ s : Sweep α,
    forLoop ts s (sweepStep look (Q k)) = .ok
      (let sets := ((ts.filter (visible R k)).flatMap dedges).foldl (fun s e => addEdge e.a e.b s) (s.outer, s.inner)
      ⟨s.kept ++ ts.filter (fun t => !visible R k t), sets.1, sets.2, s.planar⟩) := by
  intro ts
  induction ts with
  | nil => intro _ s; simp
  | cons t ts ih =>
    intro h s
    obtain ⟨hg, hr⟩ := h t List.mem_cons_self
    have h1 := hg.a_lt
    have h2 := hg.b_lt
    have h3 := hg.c_lt
    obtain ⟨r1, r2⟩ := hr k hk (by omega) (by omega) (by omega)
    have hne := hX.not_zero hk hg
    have hih := ih fun u hu => h u (List.mem_cons_of_mem _ hu)
    by_cases hv : 0 < vol R t.a t.b t.c k
    · have hstep : sweepStep look (Q k) s t = .ok { s with
          outer := (addEdge t.c t.a (addEdge t.b t.c (addEdge t.a t.b (s.outer, s.inner)))).1
          inner := (addEdge t.c t.a (addEdge t.b t.c (addEdge t.a t.b (s.outer, s.inner)))).2 } := by
        unfold sweepStep
        simp only [bind, Except.bind, hX.look_ok t.a (by omega), pure, Except.pure]
        rw [if_pos (r1.2 hv)]
      rw [forLoop_cons, hstep]
      simp only [Except.bind]
      rw [hih, List.filter_cons_of_pos (visible_iff.2 hv), List.filter_cons_of_neg (by simpa [visible] using hv)]
      simp only [List.flatMap_cons, dedges, List.foldl_append, List.foldl_cons, List.foldl_nil]
    · have hstep : sweepStep look (Q k) s t = .ok { s with kept := s.kept ++ [t] } := by
        unfold sweepStep
        simp only [bind, Except.bind, hX.look_ok t.a (by omega), pure, Except.pure]
        rw [if_neg (fun hc => hv (r1.1 hc)), if_neg (fun hc => hne (r2.1 hc))]
      rw [forLoop_cons, hstep]
      simp only [Except.bind]
      rw [hih, List.filter_cons_of_neg (fun hc => hv (visible_iff.1 hc)),
        List.filter_cons_of_pos (by simpa [visible] using hv)]
      simp

/-- The triangle that joins an edge to the new point. -/
def coneTri (Q : Nat → P3 α) (k : Nat) (e : Edge) : Tri α := ⟨e.a, e.b, k, calcNormal (Q e.a) (Q e.b) (Q k)⟩

theorem cone_eq (hX : Exact look Q R n) (hk : k < n) : ∀ (es : List Edge), (∀ e ∈ es, GoodEdge k e) → ∀ ts : List (Tri α),
    forLoop es ts (coneStep look k (Q k)) = .ok (ts ++ es.map (coneTri Q k)) := by
  intro es
  induction es with
  | nil => intro _ ts; simp
  | cons e es ih =>
    intro h ts
    have hg := h e List.mem_cons_self
    have h1 := hg.a_lt
    have h2 := hg.b_lt
    have hstep : coneStep look k (Q k) ts e = .ok (ts ++ [coneTri Q k e]) := by
      unfold coneStep
      simp only [bind, Except.bind, hX.look_ok e.a (by omega), hX.look_ok e.b (by omega), pure, Except.pure]
      rfl
    rw [forLoop_cons, hstep]
    simp only [Except.bind]
    rw [ih fun f hf => h f (List.mem_cons_of_mem _ hf)]
    simp

theorem planar_nil (p : P3 α) (ts : List (Tri α)) : planarStep look k p ts [] = .ok ts := rfl

omit [Arith α] in
/-- A triangle seen from one of its edges. -/
theorem face_of_edge {t : Tri α} (ht : Good k t) {e : Edge} (he : e ∈ dedges t) :
    ∃ c < k, c ≠ e.a ∧ c ≠ e.b ∧ ∀ q, vol R t.a t.b t.c q = vol R e.a e.b c q := by
  have h1 := ht.ab
  have h2 := ht.bc
  have h3 := ht.ca
  unfold dedges at he
  simp only [List.mem_cons, List.not_mem_nil, or_false] at he
  rcases he with rfl | rfl | rfl
  · exact ⟨t.c, ht.c_lt, by show t.c ≠ t.a; omega, by show t.c ≠ t.b; omega, fun q => rfl⟩
  · exact ⟨t.a, ht.a_lt, by show t.a ≠ t.b; omega, by show t.a ≠ t.c; omega, fun q => (volume_rotate _ _ _ _).symm⟩
  · exact ⟨t.b, ht.b_lt, by show t.b ≠ t.c; omega, by show t.b ≠ t.a; omega, fun q => volume_rotate _ _ _ _⟩

omit [Arith α] in
theorem edge_good {t : Tri α} (ht : Good k t) {e : Edge} (he : e ∈ dedges t) : GoodEdge k e := by
  unfold dedges at he
  simp only [List.mem_cons, List.not_mem_nil, or_false] at he
  rcases he with rfl | rfl | rfl
  · exact ⟨ht.a_lt, ht.b_lt, ht.ab⟩
  · exact ⟨ht.b_lt, ht.c_lt, ht.bc⟩
  · exact ⟨ht.c_lt, ht.a_lt, ht.ca⟩

theorem Exact.ne_zero (hX : Exact look Q R n) {i j l m : Nat} (hi : i < n) (hj : j < n) (hl : l < n) (hm : m < n)
    (h1 : i ≠ j) (h2 : i ≠ l) (h3 : i ≠ m) (h4 : j ≠ l) (h5 : j ≠ m) (h6 : l ≠ m) : vol R i j l m ≠ 0 :=
  hX.general i hi j hj l hl m hm (by simp; omega)

/-- The sum of the volumes over all triangles does not depend on the point. -/
theorem sum_volumes {ts : List (Tri α)} (h : Mesh Q R n k ts) (x y : Nat) :
    (ts.map fun t => vol R t.a t.b t.c x).sum = (ts.map fun t => vol R t.a t.b t.c y).sum := by
  let g : Edge → ℝ := fun e =>
    ((R e.a).y * (R e.b).z - (R e.a).z * (R e.b).y) * ((R x).x - (R y).x) +
    ((R e.a).z * (R e.b).x - (R e.a).x * (R e.b).z) * ((R x).y - (R y).y) +
    ((R e.a).x * (R e.b).y - (R e.a).y * (R e.b).x) * ((R x).z - (R y).z)
  have hg := sum_cancels h.nodup h.twin g (by intro e; simp only [g, Edge.rev]; ring)
  rw [sum_faces] at hg
  have : ∀ ts : List (Tri α), (ts.map fun t => vol R t.a t.b t.c x).sum =
      (ts.map fun t => vol R t.a t.b t.c y).sum + (ts.map fun t => g ⟨t.a, t.b⟩ + g ⟨t.b, t.c⟩ + g ⟨t.c, t.a⟩).sum := by
    intro ts
    induction ts with
    | nil => simp
    | cons t ts ih =>
      have ht : vol R t.a t.b t.c x = vol R t.a t.b t.c y + (g ⟨t.a, t.b⟩ + g ⟨t.b, t.c⟩ + g ⟨t.c, t.a⟩) := by
        simp only [g, vol, volume]
        ring
      rw [List.map_cons, List.map_cons, List.map_cons, List.sum_cons, List.sum_cons, List.sum_cons, ih, ht]
      ring
  rw [this, hg, add_zero]

/-- Some triangle is not visible. -/
theorem some_hidden {ts : List (Tri α)} (h : Mesh Q R n k ts) (hk : 1 ≤ k) (p : Nat) : ∃ t ∈ ts, vol R t.a t.b t.c p ≤ 0 := by
  by_contra hc
  have h1 : 0 < (ts.map fun t => vol R t.a t.b t.c p).sum := by
    apply List.sum_pos
    · intro x hx
      obtain ⟨t, ht, rfl⟩ := List.mem_map.1 hx
      by_contra hn
      exact hc ⟨t, ht, not_lt.1 hn⟩
    · simpa using h.nonempty
  have h2 : (ts.map fun t => vol R t.a t.b t.c 0).sum ≤ 0 := by
    have := List.sum_le_card_nsmul (ts.map fun t => vol R t.a t.b t.c 0) 0 (by
      intro x hx
      obtain ⟨t, ht, rfl⟩ := List.mem_map.1 hx
      exact h.inside t ht 0 (by omega))
    simpa using this
  rw [sum_volumes h p 0] at h1
  exact absurd h1 (not_lt.2 h2)

/-- The new triangles have the processed points inside. -/
theorem cone_inside (hX : Exact look Q R n) (hk : k < n) {ts : List (Tri α)} (h : Mesh Q R n k ts) {e : Edge} {F G : Tri α}
    (hF : F ∈ ts) (heF : e ∈ dedges F) (hvF : 0 < vol R F.a F.b F.c k) (hG : G ∈ ts) (heG : e.rev ∈ dedges G)
    (hvG : vol R G.a G.b G.c k ≤ 0) : ∀ q < k, vol R e.a e.b k q ≤ 0 := by
  intro q hq
  have he := edge_good (h.good F hF) heF
  have ha := he.a_lt
  have hb := he.b_lt
  have hab := he.ab
  obtain ⟨c, hc, hca, hcb, hFv⟩ := face_of_edge (R := R) (h.good F hF) heF
  obtain ⟨d, hd, hdb, hda, hGv⟩ := face_of_edge (R := R) (h.good G hG) heG
  have hdb : d ≠ e.b := hdb
  have hda : d ≠ e.a := hda
  have hGv : ∀ q, vol R G.a G.b G.c q = vol R e.b e.a d q := hGv
  have hFq := h.inside F hF q hq
  have hGq := h.inside G hG q hq
  have hFd := h.inside F hF d hd
  rw [hFv] at hFq hvF hFd
  rw [hGv] at hGq hvG
  have hGk : vol R e.b e.a d k ≠ 0 := hX.ne_zero (by omega) (by omega) (by omega) hk (by omega) (by omega) (by omega) (by omega)
    (by omega) (by omega)
  rcases lt_or_eq_of_le hFd with hlt | heq
  · exact new_triangle hFq hGq hvF (lt_of_le_of_ne hvG hGk) hlt
  · have hdc : d = c := by
      by_contra hn
      exact hX.ne_zero (i := e.a) (j := e.b) (l := c) (m := d) (by omega) (by omega) (by omega) (by omega) (by omega) (by omega)
        (by omega) (by omega) (by omega) (by omega) heq
    subst hdc
    have h0 : vol R e.a e.b d q = 0 := by
      have := volume_swap (R e.a) (R e.b) (R d) (R q)
      unfold vol at hFq hGq ⊢
      linarith
    have hqq : q = e.a ∨ q = e.b ∨ q = d := by
      by_contra hn
      exact hX.ne_zero (i := e.a) (j := e.b) (l := d) (m := q) (by omega) (by omega) (by omega) (by omega) (by omega) (by omega)
        (by omega) (by omega) (by omega) (by omega) h0
    rcases hqq with rfl | rfl | rfl
    · exact (volume_first _ _ _).le
    · exact (volume_second _ _ _).le
    · unfold vol at hvF ⊢
      rw [volume_swap_last]
      linarith

/-- One iteration extends the hull. -/
theorem step_mesh (hX : Exact look Q R n) (hk : k < n) (hk1 : 1 ≤ k) (order : List Edge → List Edge)
    (horder : ∀ es, (order es).Perm es) {ts : List (Tri α)} (h : Mesh Q R n k ts) :
    ∃ ts', iteration order look ts (k, Q k) = .ok ts' ∧ Mesh Q R n (k + 1) ts' := by
  have hnot1 : ∀ t : Tri α, ts ≠ [t] := by
    rintro t rfl
    have hg := h.good t (List.mem_singleton_self t)
    have := h.twin ⟨t.a, t.b⟩ (by simp [dedges])
    have h1 := hg.ab
    have h2 := hg.bc
    have h3 := hg.ca
    simp [dedges, Edge.rev] at this
    omega
  have hsweep := sweep_eq hX hk ts (fun t ht => ⟨h.good t ht, h.rep t ht⟩) ⟨[], [], [], []⟩
  -- the visible triangles and their edges
  obtain ⟨V, hV⟩ : ∃ V, V = ts.filter (visible R k) := ⟨_, rfl⟩
  obtain ⟨K, hK⟩ : ∃ K, K = ts.filter (fun t => !visible R k t) := ⟨_, rfl⟩
  have hVmem : ∀ t, t ∈ V ↔ t ∈ ts ∧ 0 < vol R t.a t.b t.c k := by
    intro t; rw [hV, List.mem_filter, visible_iff]
  have hKmem : ∀ t, t ∈ K ↔ t ∈ ts ∧ vol R t.a t.b t.c k ≤ 0 := by
    intro t; rw [hK, List.mem_filter, Bool.not_eq_true', Bool.eq_false_iff, ne_eq, visible_iff, not_lt]
  have hperm : (V.flatMap dedges ++ K.flatMap dedges).Perm (ts.flatMap dedges) := by
    rw [hV, hK, ← List.flatMap_append]
    exact (List.filter_append_perm (visible R k) ts).flatMap_right dedges
  have hnd := hperm.nodup_iff.2 h.nodup
  obtain ⟨hVn, hKn, hVK⟩ := List.nodup_append.1 hnd
  have hVe : ∀ e ∈ V.flatMap dedges, e ∉ K.flatMap dedges := fun e h1 h2 => hVK e h1 e h2 rfl
  have hVgood : ∀ e ∈ V.flatMap dedges, GoodEdge k e := by
    intro e he
    obtain ⟨t, ht, het⟩ := List.mem_flatMap.1 he
    exact edge_good (h.good t ((hVmem t).1 ht).1) het
  have hKgood : ∀ e ∈ K.flatMap dedges, GoodEdge k e := by
    intro e he
    obtain ⟨t, ht, het⟩ := List.mem_flatMap.1 he
    exact edge_good (h.good t ((hKmem t).1 ht).1) het
  have htwin : ∀ e, e ∈ V.flatMap dedges ∨ e ∈ K.flatMap dedges → e.rev ∈ V.flatMap dedges ∨ e.rev ∈ K.flatMap dedges := by
    intro e he
    have := h.twin e (hperm.mem_iff.1 (List.mem_append.2 he))
    exact List.mem_append.1 (hperm.mem_iff.2 this)
  obtain ⟨t1, t2, t3⟩ := toggle (V.flatMap dedges) hVn fun e he => (hVgood e he).ab
  rw [← hV, ← hK] at hsweep
  have t4 : V = [] → (V.flatMap dedges).foldl (fun s e => addEdge e.a e.b s) ([], []) = ([], []) := by
    intro hc
    rw [hc]
    rfl
  generalize (V.flatMap dedges).foldl (fun s e => addEdge e.a e.b s) ([], []) = sets at hsweep t1 t2 t3 t4
  have hiter : iteration order look ts (k, Q k) =
      if ¬ sets.1.isEmpty ∨ ¬ sets.2.isEmpty then forLoop (order sets.1) K (coneStep look k (Q k)) else .ok K := by
    unfold iteration
    simp only
    rw [if_neg (by omega)]
    rw [hsweep]
    simp only [bind, Except.bind, List.nil_append, planar_nil]
  by_cases hVnil : V = []
  · -- the point is inside
    have hKts : K = ts := by
      rw [hK, List.filter_eq_self]
      intro t ht
      rw [Bool.not_eq_true', Bool.eq_false_iff, ne_eq, visible_iff]
      intro hc
      have := (hVmem t).2 ⟨ht, hc⟩
      rw [hVnil] at this
      cases this
    rw [hiter, t4 hVnil]
    refine ⟨ts, by simp [hKts], h.nonempty, fun t ht => (h.good t ht).mono (Nat.le_succ k), h.rep, h.nodup, h.twin, ?_⟩
    intro t ht q hq
    rcases Nat.lt_succ_iff_lt_or_eq.1 hq with hq | rfl
    · exact h.inside t ht q hq
    · rw [← hKts] at ht
      exact ((hKmem t).1 ht).2
  · -- the horizon
    have hLne : V.flatMap dedges ≠ [] := by
      obtain ⟨t, ht⟩ := List.exists_mem_of_ne_nil V hVnil
      intro hc
      have : (⟨t.a, t.b⟩ : Edge) ∈ V.flatMap dedges := List.mem_flatMap.2 ⟨t, ht, by simp [dedges]⟩
      rw [hc] at this
      cases this
    have hcond : ¬ sets.1.isEmpty ∨ ¬ sets.2.isEmpty := by simpa [List.isEmpty_iff] using t3 hLne
    obtain ⟨O, hOdef⟩ : ∃ O, O = order sets.1 := ⟨_, rfl⟩
    have hOperm : O.Perm sets.1 := by rw [hOdef]; exact horder _
    have hO : ∀ e, e ∈ O ↔ e ∈ V.flatMap dedges ∧ e.rev ∉ V.flatMap dedges := fun e => (hOperm.mem_iff).trans (t1 e)
    have hOn : O.Nodup := hOperm.nodup_iff.2 t2
    have hOgood : ∀ e ∈ O, GoodEdge k e := fun e he => hVgood e ((hO e).1 he).1
    rw [hiter, if_pos hcond, ← hOdef, cone_eq hX hk O hOgood K]
    have hOin : ∀ e ∈ O, ∀ q < k, vol R e.a e.b k q ≤ 0 := by
      intro e he
      obtain ⟨h1, h2⟩ := (hO e).1 he
      obtain ⟨F, hF, heF⟩ := List.mem_flatMap.1 h1
      obtain ⟨G, hG, heG⟩ := List.mem_flatMap.1 ((htwin e (.inl h1)).resolve_left h2)
      exact cone_inside hX hk h ((hVmem F).1 hF).1 heF ((hVmem F).1 hF).2 ((hKmem G).1 hG).1 heG ((hKmem G).1 hG).2
    have hhead : ∀ e ∈ O, ∀ f ∈ O, e.b = f.b → e = f := by
      intro e he f hf hb
      by_contra hne
      have ge := hOgood e he
      have gf := hOgood f hf
      have hna : e.a ≠ f.a := by
        intro ha
        apply hne
        obtain ⟨a, b⟩ := e
        obtain ⟨c, d⟩ := f
        simp at ha hb
        rw [ha, hb]
      have h1 := hOin e he f.a gf.a_lt
      have h2 := hOin f hf e.a ge.a_lt
      rw [← hb] at h2
      have h3 : vol R e.a e.b k f.a ≠ 0 := by
        have := ge.a_lt; have := ge.b_lt; have := gf.a_lt; have := ge.ab; have := gf.ab
        exact hX.ne_zero (by omega) (by omega) hk (by omega) ge.ab (by omega) hna (by omega) (by omega) (by omega)
      have := volume_swap_ends (R e.a) (R e.b) (R k) (R f.a)
      unfold vol at h1 h2 h3
      rw [this] at h2
      exact h3 (le_antisymm h1 (by linarith))
    have htail : ∀ e ∈ O, ∀ f ∈ O, e.a = f.a → e = f := by
      intro e he f hf ha
      by_contra hne
      have ge := hOgood e he
      have gf := hOgood f hf
      have hnb : e.b ≠ f.b := by
        intro hb
        apply hne
        obtain ⟨a, b⟩ := e
        obtain ⟨c, d⟩ := f
        simp at ha hb
        rw [ha, hb]
      have h1 := hOin e he f.b gf.b_lt
      have h2 := hOin f hf e.b ge.b_lt
      rw [← ha] at h2
      have h3 : vol R e.a e.b k f.b ≠ 0 := by
        have := ge.a_lt; have := ge.b_lt; have := gf.b_lt; have := ge.ab; have := gf.ab
        exact hX.ne_zero (by omega) (by omega) hk (by omega) ge.ab (by omega) (by omega) (by omega) hnb (by omega)
      have : volume (R e.a) (R f.b) (R k) (R e.b) = -volume (R e.a) (R e.b) (R k) (R f.b) := by unfold volume; ring
      unfold vol at h1 h2 h3
      rw [this] at h2
      exact h3 (le_antisymm h1 (by linarith))
    have hdeg : ∀ v, (∃ e ∈ O, e.a = v) ↔ ∃ e ∈ O, e.b = v := by
      intro v
      have hd := horizon_degrees V hVn O hOn hO v
      have c1 : (∃ e ∈ O, e.a = v) ↔ 0 < O.countP (fun e => e.a == v) := by rw [List.countP_pos_iff]; simp
      have c2 : (∃ e ∈ O, e.b = v) ↔ 0 < O.countP (fun e => e.b == v) := by rw [List.countP_pos_iff]; simp
      rw [c1, c2, hd]
    have hconeEdges : ∀ e, e ∈ (O.map (coneTri Q k)).flatMap dedges ↔
        e ∈ O ∨ (∃ f ∈ O, e = ⟨f.b, k⟩) ∨ ∃ f ∈ O, e = ⟨k, f.a⟩ := by
      intro e
      simp only [List.mem_flatMap, List.mem_map, dedges, coneTri]
      constructor
      · rintro ⟨_, ⟨f, hf, rfl⟩, he⟩
        simp only [List.mem_cons, List.not_mem_nil, or_false] at he
        rcases he with rfl | rfl | rfl
        · exact .inl hf
        · exact .inr (.inl ⟨f, hf, rfl⟩)
        · exact .inr (.inr ⟨f, hf, rfl⟩)
      · rintro (hf | ⟨f, hf, rfl⟩ | ⟨f, hf, rfl⟩)
        · exact ⟨_, ⟨e, hf, rfl⟩, by simp⟩
        · exact ⟨_, ⟨f, hf, rfl⟩, by simp⟩
        · exact ⟨_, ⟨f, hf, rfl⟩, by simp⟩
    obtain ⟨th, hth, hth0⟩ := some_hidden h hk1 k
    refine ⟨_, rfl, ?_, ?_, ?_, ?_, ?_, ?_⟩
    · have : th ∈ K := (hKmem th).2 ⟨hth, hth0⟩
      intro hc
      rw [List.append_eq_nil_iff] at hc
      rw [hc.1] at this
      cases this
    · intro t ht
      rcases List.mem_append.1 ht with ht | ht
      · exact (h.good t ((hKmem t).1 ht).1).mono (Nat.le_succ k)
      · obtain ⟨e, he, rfl⟩ := List.mem_map.1 ht
        have ge := hOgood e he
        have h1 := ge.a_lt
        have h2 := ge.b_lt
        exact ⟨by show e.a < k + 1; omega, by show e.b < k + 1; omega, by show k < k + 1; omega, ge.ab,
          by show e.b ≠ k; omega, by show k ≠ e.a; omega⟩
    · intro t ht
      rcases List.mem_append.1 ht with ht | ht
      · exact h.rep t ((hKmem t).1 ht).1
      · obtain ⟨e, he, rfl⟩ := List.mem_map.1 ht
        have ge := hOgood e he
        have h1 := ge.a_lt
        have h2 := ge.b_lt
        exact hX.cone e.a (by omega) e.b (by omega) k hk ge.ab (by omega) (by omega)
    · rw [List.flatMap_append, List.nodup_append]
      refine ⟨hKn, ?_, ?_⟩
      · rw [List.flatMap_map, List.nodup_flatMap]
        refine ⟨?_, ?_⟩
        · intro e he
          have ge := hOgood e he
          have h1 := ge.a_lt
          have h2 := ge.b_lt
          have h3 := ge.ab
          simp [dedges, coneTri]
          omega
        · rw [List.nodup_iff_pairwise_ne] at hOn
          refine hOn.imp_of_mem ?_
          intro e f he hf hne x hx hy
          have ge := hOgood e he
          have gf := hOgood f hf
          have := ge.a_lt; have := ge.b_lt; have := gf.a_lt; have := gf.b_lt
          have n1 : e.b ≠ f.b := fun hc => hne (hhead e he f hf hc)
          have n2 : e.a ≠ f.a := fun hc => hne (htail e he f hf hc)
          simp only [dedges, coneTri, List.mem_cons, List.not_mem_nil, or_false] at hx hy
          rcases hx with rfl | rfl | rfl <;> rcases hy with hy | hy | hy <;> (simp at hy; omega)
      · intro e he f hf hef
        subst hef
        have ge := hKgood e he
        have h1 := ge.a_lt
        have h2 := ge.b_lt
        rcases (hconeEdges e).1 hf with hf | ⟨f, hf, rfl⟩ | ⟨f, hf, rfl⟩
        · exact hVe e ((hO e).1 hf).1 he
        · simp at h2
        · simp at h1
    · intro e he
      rw [List.flatMap_append, List.mem_append, hconeEdges] at he ⊢
      rcases he with he | he | ⟨f, hf, rfl⟩ | ⟨f, hf, rfl⟩
      · rcases htwin e (.inr he) with h1 | h1
        · right; left
          exact (hO _).2 ⟨h1, fun hc => hVe e hc he⟩
        · exact .inl h1
      · obtain ⟨h1, h2⟩ := (hO e).1 he
        exact .inl ((htwin e (.inl h1)).resolve_left h2)
      · obtain ⟨g, hg, hgf⟩ := (hdeg f.b).2 ⟨f, hf, rfl⟩
        exact .inr (.inr (.inr ⟨g, hg, by simp [Edge.rev, hgf]⟩))
      · obtain ⟨g, hg, hgf⟩ := (hdeg f.a).1 ⟨f, hf, rfl⟩
        exact .inr (.inr (.inl ⟨g, hg, by simp [Edge.rev, hgf]⟩))
    · intro t ht q hq
      rcases List.mem_append.1 ht with ht | ht
      · rcases Nat.lt_succ_iff_lt_or_eq.1 hq with hq | rfl
        · exact h.inside t ((hKmem t).1 ht).1 q hq
        · rename_i hK'
          exact ((hKmem t).1 hK').2
      · obtain ⟨e, he, rfl⟩ := List.mem_map.1 ht
        rcases Nat.lt_succ_iff_lt_or_eq.1 hq with hq | rfl
        · exact hOin e he q hq
        · exact (volume_third _ _ _).le

end Pasture.Hull
