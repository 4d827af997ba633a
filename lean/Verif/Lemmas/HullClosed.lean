import Verif.Lemmas.HullStep
import Verif.Spec.HullClosed

/-! # Each edge of a hull belongs to an even number of triangles -/

namespace Pasture.Hull

open Spec

/-- A property of edges that does not depend on their direction. -/
def Symm (P : Edge → Bool) : Prop := ∀ e f : Edge, e.same f = true → P e = P f

theorem same_refl (e : Edge) : e.same e = true := same_iff.2 (.inl rfl)

theorem same_symm {e f : Edge} (h : e.same f = true) : f.same e = true := by
  rcases same_iff.1 h with rfl | rfl
  · exact h
  · exact same_iff.2 (.inr (Edge.rev_rev _).symm)

theorem same_trans {e f g : Edge} (h1 : e.same f = true) (h2 : f.same g = true) : e.same g = true := by
  rcases same_iff.1 h1 with rfl | rfl
  · exact h2
  · rcases same_iff.1 h2 with rfl | rfl
    · exact h1
    · exact same_iff.2 (.inl (Edge.rev_rev _))

theorem symm_same (g : Edge) : Symm fun e => e.same g := by
  intro e f h
  rw [Bool.eq_iff_iff]
  exact ⟨same_trans (same_symm h), same_trans h⟩

/-- The edge ends at the vertex. -/
def touches (u : Nat) (e : Edge) : Bool := e.a == u || e.b == u

theorem symm_touches (u : Nat) : Symm (touches u) := by
  intro e f h
  rcases same_iff.1 h with rfl | rfl
  · rfl
  · simp only [touches, Edge.rev, Bool.or_comm]

/-- No two edges are equal. -/
def Distinct (s : List Edge) : Prop := s.Pairwise fun e f => e.same f = false

theorem filter_same {s : List Edge} (h : Distinct s) (e : Edge) (hc : edgeContains s e = true) :
    (s.filter fun f => f.same e).length = 1 := by
  have h1 : (s.filter fun f => f.same e) ≠ [] := by
    obtain ⟨f, hf, hs⟩ := List.any_eq_true.1 hc
    exact List.ne_nil_of_mem (List.mem_filter.2 ⟨hf, hs⟩)
  have h2 : Distinct (s.filter fun f => f.same e) := List.Pairwise.filter _ h
  have h3 : ∀ f ∈ s.filter (fun f => f.same e), f.same e = true := fun f hf => (List.mem_filter.1 hf).2
  generalize s.filter (fun f => f.same e) = L at h1 h2 h3
  match L, h1, h2, h3 with
  | [], h1, _, _ => exact absurd rfl h1
  | [_], _, _, _ => rfl
  | f :: g :: L, _, h2, h3 =>
    have := (List.pairwise_cons.1 h2).1 g (by simp)
    rw [same_trans (h3 f (by simp)) (same_symm (h3 g (by simp)))] at this
    cases this

/-- Adding an edge changes the parity of the edges with a property exactly if the edge has it. -/
theorem addEdge_parity {P : Edge → Bool} (hP : Symm P) (e : Edge) {sets : List Edge × List Edge} (h : Distinct sets.1) :
    (addEdge e.a e.b sets).1.countP P % 2 = (sets.1.countP P + [e].countP P) % 2 := by
  by_cases hc : edgeContains sets.1 e = true
  · have hval : (addEdge e.a e.b sets).1 = edgeRemove sets.1 e := by
      have : edgeInsert sets.1 ⟨e.a, e.b⟩ = (sets.1, false) := if_pos hc
      simp [addEdge, this]
    rw [hval]
    unfold edgeRemove
    have h1 := List.countP_eq_countP_filter_add sets.1 P fun f => f.same e
    have h2 : (sets.1.filter fun f => f.same e).countP P = [e].countP P := by
      obtain ⟨f, hf⟩ := List.length_eq_one_iff.1 (filter_same h e hc)
      have hm : f ∈ sets.1.filter fun f => f.same e := by rw [hf]; simp
      rw [hf, List.countP_singleton, List.countP_singleton, hP f e (List.mem_filter.1 hm).2]
    omega
  · have hval : (addEdge e.a e.b sets).1 = sets.1 ++ [e] := by
      have : edgeInsert sets.1 ⟨e.a, e.b⟩ = (sets.1 ++ [e], true) := if_neg hc
      simp [addEdge, this]
    rw [hval, List.countP_append]

theorem addEdge_distinct (a b : Nat) {sets : List Edge × List Edge} (h : Distinct sets.1) : Distinct (addEdge a b sets).1 := by
  by_cases hc : edgeContains sets.1 ⟨a, b⟩ = true
  · have : edgeInsert sets.1 ⟨a, b⟩ = (sets.1, false) := if_pos hc
    simp only [addEdge, this]
    exact List.Pairwise.filter _ h
  · have : edgeInsert sets.1 ⟨a, b⟩ = (sets.1 ++ [⟨a, b⟩], true) := if_neg hc
    simp only [addEdge, this]
    refine List.pairwise_append.2 ⟨h, by simp, ?_⟩
    intro f hf g hg
    rw [List.mem_singleton.1 hg, Bool.eq_false_iff]
    intro hs
    exact hc (List.any_eq_true.2 ⟨f, hf, hs⟩)

variable {α : Type}

/-- The edges of triangles with a property. -/
def edgeCount (ts : List (Tri α)) (P : Edge → Bool) : Nat := (ts.flatMap dedges).countP P

theorem edgeCount_append (ts us : List (Tri α)) (P : Edge → Bool) :
    edgeCount (ts ++ us) P = edgeCount ts P + edgeCount us P := by
  unfold edgeCount
  rw [List.flatMap_append, List.countP_append]

theorem edgeCount_single (t : Tri α) (P : Edge → Bool) :
    edgeCount [t] P = [(⟨t.a, t.b⟩ : Edge)].countP P + [(⟨t.b, t.c⟩ : Edge)].countP P + [(⟨t.c, t.a⟩ : Edge)].countP P := by
  unfold edgeCount dedges
  simp only [List.flatMap_cons, List.flatMap_nil, List.append_nil, List.countP_cons, List.countP_nil]
  omega

/-- Two edges of a triangle end at each of its vertices. -/
theorem touches_even {n : Nat} (ts : List (Tri α)) (h : ∀ t ∈ ts, Good n t) (u : Nat) : edgeCount ts (touches u) % 2 = 0 := by
  induction ts with
  | nil => rfl
  | cons t ts ih =>
    have g := h t List.mem_cons_self
    have := ih fun t ht => h t (List.mem_cons_of_mem _ ht)
    rw [show t :: ts = [t] ++ ts from rfl, edgeCount_append, edgeCount_single]
    have h1 := g.ab
    have h2 := g.bc
    have h3 := g.ca
    have : ([(⟨t.a, t.b⟩ : Edge)].countP (touches u) + [(⟨t.b, t.c⟩ : Edge)].countP (touches u) +
        [(⟨t.c, t.a⟩ : Edge)].countP (touches u)) % 2 = 0 := by
      simp only [touches, List.countP_singleton]
      by_cases e1 : t.a = u
      · subst e1
        have : (t.b == t.a) = false := by simpa using fun e => h1 e.symm
        have : (t.c == t.a) = false := by simpa using h3
        simp [*]
      · by_cases e2 : t.b = u
        · subst e2
          have : (t.c == t.b) = false := by simpa using fun e => h2 e.symm
          have : (t.a == t.b) = false := by simpa using e1
          simp [*]
        · have : (t.b == u) = false := by simpa using e2
          have : (t.a == u) = false := by simpa using e1
          by_cases e3 : t.c = u <;> simp [*]
    omega

/-- Each edge belongs to an even number of triangles. -/
def EvenEdges (ts : List (Tri α)) : Prop := ∀ u v : Nat, u ≠ v → edgeCount ts (fun e => e.same ⟨u, v⟩) % 2 = 0

/-- Edges of older points. -/
theorem fresh_edges {k : Nat} (ts : List (Tri α)) (h : ∀ t ∈ ts, Good k t) (u : Nat) :
    edgeCount ts (fun e => e.same ⟨u, k⟩) = 0 := by
  unfold edgeCount
  rw [List.countP_eq_zero]
  intro e he hs
  obtain ⟨t, ht, he⟩ := List.mem_flatMap.1 he
  have g := h t ht
  have h1 := g.a_lt
  have h2 := g.b_lt
  have h3 := g.c_lt
  simp only [dedges, List.mem_cons, List.not_mem_nil, or_false] at he
  rcases he with rfl | rfl | rfl <;> simp [Edge.same] at hs <;> omega

theorem same_swap (u v : Nat) : (fun e : Edge => e.same ⟨u, v⟩) = fun e => e.same ⟨v, u⟩ := by
  funext e
  simp only [Edge.same, Bool.or_comm]

section
variable [Arith α] {look : Nat → Out (P3 α)} {Q : Nat → P3 α} {n k : Nat}

/-- The edges of the cone over outer edges. -/
theorem cone_edges (es : List Edge) (h : ∀ e ∈ es, GoodEdge k e) {u v : Nat} (hu : u ≠ k) (hv : v ≠ k) :
    edgeCount (es.map (coneTri Q k)) (fun e => e.same ⟨u, v⟩) = es.countP fun e => e.same ⟨u, v⟩ := by
  induction es with
  | nil => rfl
  | cons e es ih =>
    rw [List.map_cons, show coneTri Q k e :: es.map (coneTri Q k) = [coneTri Q k e] ++ es.map (coneTri Q k) from rfl,
      edgeCount_append, ih fun f hf => h f (List.mem_cons_of_mem _ hf), edgeCount_single]
    have h1 : (⟨e.b, k⟩ : Edge).same ⟨u, v⟩ = false := by
      simp only [Edge.same, Bool.or_eq_false_iff, Bool.and_eq_false_iff, beq_eq_false_iff_ne]
      omega
    have h2 : (⟨k, e.a⟩ : Edge).same ⟨u, v⟩ = false := by
      simp only [Edge.same, Bool.or_eq_false_iff, Bool.and_eq_false_iff, beq_eq_false_iff_ne]
      omega
    have h3 : (⟨e.a, e.b⟩ : Edge).same ⟨u, v⟩ = e.same ⟨u, v⟩ := rfl
    simp only [coneTri, List.countP_cons, List.countP_nil, h1, h2, h3]
    simp
    omega

theorem cone_spokes (es : List Edge) (h : ∀ e ∈ es, GoodEdge k e) (u : Nat) (hu : u ≠ k) :
    edgeCount (es.map (coneTri Q k)) (fun e => e.same ⟨u, k⟩) = es.countP (touches u) := by
  induction es with
  | nil => rfl
  | cons e es ih =>
    rw [List.map_cons, show coneTri Q k e :: es.map (coneTri Q k) = [coneTri Q k e] ++ es.map (coneTri Q k) from rfl,
      edgeCount_append, ih fun f hf => h f (List.mem_cons_of_mem _ hf), edgeCount_single]
    have g := h e List.mem_cons_self
    have g1 := g.a_lt
    have g2 := g.b_lt
    have g3 := g.ab
    have h1 : (⟨e.a, e.b⟩ : Edge).same ⟨u, k⟩ = false := by
      simp only [Edge.same, Bool.or_eq_false_iff, Bool.and_eq_false_iff, beq_eq_false_iff_ne]
      omega
    have h2 : (⟨e.b, k⟩ : Edge).same ⟨u, k⟩ = (e.b == u) := by
      have : (k == u) = false := by simpa using fun e => hu e.symm
      simp [Edge.same, this]
    have h3 : (⟨k, e.a⟩ : Edge).same ⟨u, k⟩ = (e.a == u) := by
      have : (k == u) = false := by simpa using fun e => hu e.symm
      simp [Edge.same, this]
    simp only [coneTri, List.countP_cons, List.countP_nil, h1, h2, h3, touches]
    by_cases e1 : e.a = u
    · subst e1
      have : (e.b == e.a) = false := by simpa using fun e => g3 e.symm
      simp [this]
      omega
    · have : (e.a == u) = false := by simpa using e1
      simp [this]
      omega

/-- What is kept by `retain`, and the outer edges: together their parities are those of the triangles before. -/
theorem sweep_parity (hlook : ∀ j < k, ∃ p, look j = .ok p) (point : P3 α) (ts : List (Tri α)) (hts : ∀ t ∈ ts, Good k t)
    (hplane : ∀ t ∈ ts, ∀ p, look t.a = .ok p → Arith.eq (Vec3.dot (Vec3.sub p point) t.normal) Arith.zero = false) :
    ∃ s : Sweep α, forLoop ts ⟨[], [], [], []⟩ (sweepStep look point) = .ok s ∧ (∀ t ∈ s.kept, t ∈ ts) ∧ s.planar = [] ∧
      Distinct s.outer ∧ ∀ P, Symm P → (s.outer.countP P + edgeCount s.kept P) % 2 = edgeCount ts P % 2 := by
  refine forLoop_total (P := fun pre (s : Sweep α) => (∀ t ∈ s.kept, t ∈ ts) ∧ s.planar = [] ∧
      Distinct s.outer ∧ ∀ P, Symm P → (s.outer.countP P + edgeCount s.kept P) % 2 = edgeCount pre P % 2) ts [] ⟨[], [], [], []⟩
    ⟨by simp, rfl, .nil, fun _ _ => rfl⟩ ?_
  intro pre t suf s he ⟨h1, h2, h3, h4⟩
  have hmem : t ∈ ts := by rw [show ts = pre ++ t :: suf from he]; simp
  obtain ⟨pa, hpa⟩ := hlook t.a (hts t hmem).a_lt
  unfold sweepStep
  simp only [bind, Except.bind, hpa, pure, Except.pure, hplane t hmem pa hpa]
  split
  · refine ⟨_, rfl, h1, h2, addEdge_distinct _ _ (addEdge_distinct _ _ (addEdge_distinct _ _ h3)), ?_⟩
    intro P hP
    have d1 : Distinct (addEdge t.a t.b (s.outer, s.inner)).1 := addEdge_distinct _ _ h3
    have d2 := addEdge_distinct t.b t.c d1
    have p1 := addEdge_parity hP ⟨t.a, t.b⟩ (sets := (s.outer, s.inner)) h3
    have p2 := addEdge_parity hP ⟨t.b, t.c⟩ d1
    have p3 := addEdge_parity hP ⟨t.c, t.a⟩ d2
    have p4 := h4 P hP
    rw [edgeCount_append, edgeCount_single]
    simp only at p1 p2 p3 ⊢
    omega
  · refine ⟨_, rfl, ?_, h2, h3, ?_⟩
    · intro u hu
      rcases List.mem_append.1 hu with hu | hu
      · exact h1 u hu
      · rw [List.mem_singleton.1 hu]; exact hmem
    · intro P hP
      have p4 := h4 P hP
      rw [edgeCount_append, edgeCount_append]
      simp only at p4 ⊢
      omega

theorem cone_list (hlook : ∀ j < k, look j = .ok (Q j)) (es : List Edge) (hes : ∀ e ∈ es, GoodEdge k e) : ∀ ts : List (Tri α),
    forLoop es ts (coneStep look k (Q k)) = .ok (ts ++ es.map (coneTri Q k)) := by
  induction es with
  | nil => intro ts; simp
  | cons e es ih =>
    intro ts
    have hg := hes e List.mem_cons_self
    have hstep : coneStep look k (Q k) ts e = .ok (ts ++ [coneTri Q k e]) := by
      unfold coneStep
      simp only [bind, Except.bind, hlook e.a hg.a_lt, hlook e.b hg.b_lt, pure, Except.pure]
      rfl
    rw [forLoop_cons, hstep]
    simp only [Except.bind]
    rw [ih fun f hf => hes f (List.mem_cons_of_mem _ hf)]
    simp

/-- The normal of a triangle is one of the two normals computed from its vertices. -/
def Normal (Q : Nat → P3 α) (t : Tri α) : Prop :=
  t.normal = calcNormal (Q t.a) (Q t.b) (Q t.c) ∨ t.normal = Vec3.neg (calcNormal (Q t.a) (Q t.c) (Q t.b))

/-- The hull of at least three points that are not on a line. -/
structure Tight (Q : Nat → P3 α) (k : Nat) (ts : List (Tri α)) : Prop where
  good : ∀ t ∈ ts, Good k t
  normal : ∀ t ∈ ts, Normal Q t
  even : EvenEdges ts

theorem Tight.not_single {t : Tri α} (h : Tight Q k [t]) : False := by
  have g := h.good t (by simp)
  have e := h.even t.a t.b g.ab
  rw [edgeCount_single] at e
  have g1 := g.ab
  have g2 := g.bc
  have g3 := g.ca
  have h1 : (⟨t.b, t.c⟩ : Edge).same ⟨t.a, t.b⟩ = false := by
    simp only [Edge.same, Bool.or_eq_false_iff, Bool.and_eq_false_iff, beq_eq_false_iff_ne]
    omega
  have h2 : (⟨t.c, t.a⟩ : Edge).same ⟨t.a, t.b⟩ = false := by
    simp only [Edge.same, Bool.or_eq_false_iff, Bool.and_eq_false_iff, beq_eq_false_iff_ne]
    omega
  simp [h1, h2, same_refl] at e

theorem tight_step (hlook : ∀ j < k, look j = .ok (Q j)) (order : List Edge → List Edge) (horder : ∀ es, (order es).Perm es)
    (hplane : ∀ a < k, ∀ b < k, ∀ c < k, [a, b, c].Nodup → ¬ InComputedPlane (Q a) (Q b) (Q c) (Q k)) (hk : k ≠ 0)
    (ts : List (Tri α)) (h : Tight Q k ts) : ∃ r, iteration order look ts (k, Q k) = .ok r ∧ Tight Q (k + 1) r := by
  have hlook' : ∀ j < k, ∃ p, look j = .ok p := fun j hj => ⟨_, hlook j hj⟩
  obtain ⟨s, s1, s2, s3, s4, s5⟩ := sweep_parity hlook' (Q k) ts h.good (by
    intro t ht p hp
    have g := h.good t ht
    have g1 := g.ab
    have g2 := g.bc
    have g3 := g.ca
    rw [hlook t.a g.a_lt] at hp
    cases hp
    rw [Bool.eq_false_iff]
    intro hc
    rcases h.normal t ht with hn | hn
    · exact hplane t.a g.a_lt t.b g.b_lt t.c g.c_lt (by simp; omega) (.inl (by rw [hn] at hc; exact hc))
    · exact hplane t.a g.a_lt t.c g.c_lt t.b g.b_lt (by simp; omega) (.inr (by rw [hn] at hc; exact hc)))
  obtain ⟨s', s1', _, s7, _⟩ := sweep_total hlook' (Q k) ts h.good
  obtain rfl : s = s' := by rw [s1] at s1'; exact Except.ok.inj s1'
  have hkept : ∀ t ∈ s.kept, Good k t := fun t ht => h.good t (s2 t ht)
  have hcone : Tight Q (k + 1) (s.kept ++ (order s.outer).map (coneTri Q k)) := by
    have ho : ∀ e ∈ order s.outer, GoodEdge k e := fun e he => s7 e ((horder _).mem_iff.1 he)
    refine ⟨?_, ?_, ?_⟩
    · intro t ht
      rcases List.mem_append.1 ht with ht | ht
      · exact (hkept t ht).mono (Nat.le_succ k)
      · obtain ⟨e, he, rfl⟩ := List.mem_map.1 ht
        have g := ho e he
        have g1 := g.a_lt
        have g2 := g.b_lt
        exact ⟨by show e.a < k + 1; omega, by show e.b < k + 1; omega, by show k < k + 1; omega, g.ab,
          by show e.b ≠ k; omega, by show k ≠ e.a; omega⟩
    · intro t ht
      rcases List.mem_append.1 ht with ht | ht
      · exact h.normal t (s2 t ht)
      · obtain ⟨e, he, rfl⟩ := List.mem_map.1 ht
        exact .inl rfl
    · have spokes : ∀ u, u ≠ k → edgeCount (s.kept ++ (order s.outer).map (coneTri Q k)) (fun e => e.same ⟨u, k⟩) % 2 = 0 := by
        intro u hu
        rw [edgeCount_append, fresh_edges s.kept hkept, cone_spokes _ ho u hu, (horder _).countP_eq]
        have p1 := s5 (touches u) (symm_touches u)
        have p2 := touches_even ts h.good u
        have p3 := touches_even s.kept hkept u
        omega
      intro u v huv
      by_cases hv : v = k
      · subst hv
        exact spokes u huv
      · by_cases hu : u = k
        · subst hu
          rw [same_swap]
          exact spokes v hv
        · rw [edgeCount_append, cone_edges _ ho hu hv, (horder _).countP_eq]
          have p1 := s5 _ (symm_same ⟨u, v⟩)
          have p2 := h.even u v huv
          omega
  unfold iteration
  simp only
  rw [if_neg hk]
  split
  · exact h.not_single.elim
  · rw [s1]
    simp only [bind, Except.bind]
    split
    · exact ⟨_, cone_list hlook _ (fun e he => s7 e ((horder _).mem_iff.1 he)) _, hcone⟩
    · rename_i hempty
      have : s.outer = [] := by
        by_contra hne
        exact hempty (.inl (by simpa using hne))
      have ho : order s.outer = [] := by rw [this]; exact (horder []).eq_nil
      rw [ho] at hcone
      rw [s3]
      exact ⟨_, planar_nil _ _, by simpa using hcone⟩

/-- The hull: one triangle as long as all points are on a line. -/
def Stage (Q : Nat → P3 α) (k : Nat) (ts : List (Tri α)) : Prop := Sound k ts ∧ (ts.length = 1 ∨ Tight Q k ts)

theorem stage_first (hlook : ∀ j < k, look j = .ok (Q j)) (hk : 1 ≤ k) (first : Tri α) (hf : Sound k [first]) :
    ∃ r, extendFirst look k (Q k) first = .ok r ∧ (r.length = 1 ∨ Tight Q (k + 1) r) := by
  obtain ⟨ha, hb, hc⟩ := hf.below first (List.mem_singleton_self _)
  unfold extendFirst
  split
  · exact ⟨_, rfl, .inl rfl⟩
  · rename_i h1
    have hab := hf.segment (by omega) first (List.mem_singleton_self _)
    simp only [bind, Except.bind, hlook first.a ha, hlook first.b hb, pure, Except.pure]
    split
    · exact ⟨_, rfl, .inl rfl⟩
    · split
      · split
        · split <;> exact ⟨_, rfl, .inl rfl⟩
        · exact ⟨_, rfl, .inl rfl⟩
      · refine ⟨_, rfl, .inr ⟨?_, ?_, ?_⟩⟩
        · intro t ht
          rcases List.mem_cons.1 ht with rfl | ht
          · exact ⟨by show first.a < k + 1; omega, by show first.b < k + 1; omega, by show k < k + 1; omega, hab,
              by show first.b ≠ k; omega, by show k ≠ first.a; omega⟩
          · rw [List.mem_singleton.1 ht]
            exact ⟨by show first.a < k + 1; omega, by show k < k + 1; omega, by show first.b < k + 1; omega,
              by show first.a ≠ k; omega, by show k ≠ first.b; omega, fun e => hab e.symm⟩
        · intro t ht
          rcases List.mem_cons.1 ht with rfl | ht
          · exact .inl rfl
          · rw [List.mem_singleton.1 ht]
            exact .inr rfl
        · intro u v huv
          rw [show ∀ x y : Tri α, [x, y] = [x] ++ [y] from fun _ _ => rfl, edgeCount_append, edgeCount_single, edgeCount_single]
          have sw : ∀ a b : Nat, (⟨a, b⟩ : Edge).same ⟨u, v⟩ = (⟨b, a⟩ : Edge).same ⟨u, v⟩ := by
            intro a b
            exact symm_same ⟨u, v⟩ _ _ (same_iff.2 (.inr rfl))
          simp only [List.countP_singleton, sw k first.b, sw first.b first.a, sw first.a k]
          omega

theorem stage_step (hlook : ∀ j < k, look j = .ok (Q j)) (order : List Edge → List Edge) (horder : ∀ es, (order es).Perm es)
    (hplane : ∀ a < k, ∀ b < k, ∀ c < k, [a, b, c].Nodup → ¬ InComputedPlane (Q a) (Q b) (Q c) (Q k))
    (ts : List (Tri α)) (h : Stage Q k ts) : ∃ r, iteration order look ts (k, Q k) = .ok r ∧ Stage Q (k + 1) r := by
  obtain ⟨r, r1, r2⟩ := iteration_total order horder (fun j hj => ⟨_, hlook j hj⟩) (Q k) ts h.1
  refine ⟨r, r1, r2, ?_⟩
  have same : ∀ q, iteration order look ts (k, Q k) = .ok q → q = r := by
    intro q hq
    rw [r1] at hq
    exact (Except.ok.inj hq).symm
  by_cases hk : k = 0
  · subst hk
    have : ts = [] := by
      cases ts with
      | nil => rfl
      | cons t ts => exact absurd (h.1.below t List.mem_cons_self).1 (by omega)
    subst this
    exact .inl (by rw [← same _ rfl]; rfl)
  · rcases h.2 with h1 | h1
    · obtain ⟨t, rfl⟩ := List.length_eq_one_iff.1 h1
      obtain ⟨q, q1, q2⟩ := stage_first hlook (by omega) t h.1
      have : iteration order look [t] (k, Q k) = .ok q := by
        unfold iteration
        simp only
        rw [if_neg hk]
        exact q1
      rw [← same q this]
      exact q2
    · obtain ⟨q, q1, q2⟩ := tight_step hlook order horder hplane hk ts h1
      rw [← same q q1]
      exact .inr q2

theorem stage_all (order : List Edge → List Edge) (horder : ∀ es, (order es).Perm es) (points : List (P3 α))
    (hlook : ∀ j < points.length, look j = .ok (Q j)) (hp : ∀ i (hi : i < points.length), points[i] = Q i)
    (hplane : NoFourInPlane points) (k : Nat) (hk : k ≤ points.length) :
    ∃ r, forLoop (((List.range points.length).zip points).take k) [] (iteration order look) = .ok r ∧ Stage Q k r := by
  induction k with
  | zero =>
    refine ⟨[], by simp, ⟨by simp, by simp, by simp⟩, .inr ⟨by simp, by simp, ?_⟩⟩
    intro u v _
    rfl
  | succ k ih =>
    obtain ⟨r, h1, h2⟩ := ih (by omega)
    have hget : ((List.range points.length).zip points)[k]? = some (k, Q k) := by
      rw [List.getElem?_eq_getElem (by simp; omega)]
      simp [hp k (by omega)]
    obtain ⟨q, h3, h4⟩ := stage_step (Q := Q) (k := k) (fun j hj => hlook j (by omega)) order horder (by
      intro a ha b hb c hc hn
      have := hplane ⟨a, by omega⟩ ⟨b, by omega⟩ ⟨c, by omega⟩ ⟨k, by omega⟩ (by
        simp only [List.nodup_cons, List.mem_cons, List.not_mem_nil, or_false, Fin.mk.injEq, not_false_eq_true,
          List.nodup_nil, and_true] at hn ⊢
        omega)
      simpa [hp] using this) r h2
    refine ⟨q, ?_, h4⟩
    rw [List.take_add_one, hget, forLoop_append, h1]
    exact forLoop_cons_ok.2 ⟨q, h3, rfl⟩

end

end Pasture.Hull
