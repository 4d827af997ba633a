import Verif.Lemmas.Ransac
import Verif.Model.ConvexHull

/-! # The convex hull refers to points that were processed -/

namespace Pasture.Hull

variable {α : Type}

/-- The vertices are different indices below `n`. -/
structure Good (n : Nat) (t : Tri α) : Prop where
  a_lt : t.a < n
  b_lt : t.b < n
  c_lt : t.c < n
  ab : t.a ≠ t.b
  bc : t.b ≠ t.c
  ca : t.c ≠ t.a

/-- The ends are different indices below `n`. -/
structure GoodEdge (n : Nat) (e : Edge) : Prop where
  a_lt : e.a < n
  b_lt : e.b < n
  ab : e.a ≠ e.b

theorem Good.mono {n m : Nat} (h : n ≤ m) {t : Tri α} (g : Good n t) : Good m t :=
  ⟨by have := g.a_lt; omega, by have := g.b_lt; omega, by have := g.c_lt; omega, g.ab, g.bc, g.ca⟩

theorem bind_total {σ τ : Type} {x : Out σ} {f : σ → Out τ} {P : σ → Prop} {Q : τ → Prop} (hx : ∃ r, x = .ok r ∧ P r)
    (hf : ∀ r, P r → ∃ s, f r = .ok s ∧ Q s) : ∃ s, (x >>= f) = .ok s ∧ Q s := by
  obtain ⟨r, h1, h2⟩ := hx
  obtain ⟨s, h3, h4⟩ := hf r h2
  exact ⟨s, by rw [h1]; exact h3, h4⟩

theorem expect_total {σ : Type} {xs : List σ} {i : Nat} (h : i < xs.length) :
    ∃ r, expectSome xs[i]? = .ok r ∧ r ∈ xs := by
  rw [List.getElem?_eq_getElem h]
  exact ⟨_, rfl, List.getElem_mem h⟩

theorem remove_total {σ : Type} {xs : List σ} {i : Nat} (h : i < xs.length) :
    ∃ r, vecRemove xs i = .ok r ∧ (r.length + 1 = xs.length ∧ ∀ x ∈ r, x ∈ xs) := by
  unfold vecRemove
  rw [if_pos h]
  refine ⟨_, rfl, ?_, fun x hx => List.mem_of_mem_eraseIdx hx⟩
  rw [List.length_eraseIdx, if_pos h]
  omega

theorem edgeInsert_mem {s : List Edge} {e f : Edge} (h : f ∈ (edgeInsert s e).1) : f ∈ s ∨ f = e := by
  unfold edgeInsert at h
  split at h
  · exact .inl h
  · simpa using h

theorem addEdge_good {n a b : Nat} (g : GoodEdge n ⟨a, b⟩) {sets : List Edge × List Edge}
    (h : ∀ e ∈ sets.1, GoodEdge n e) : ∀ e ∈ (addEdge a b sets).1, GoodEdge n e := by
  intro e he
  unfold addEdge at he
  rcases heq : edgeInsert sets.1 ⟨a, b⟩ with ⟨outer, fresh⟩
  simp only [heq] at he
  have hin : ∀ f ∈ outer, GoodEdge n f := by
    intro f hf
    rcases edgeInsert_mem (s := sets.1) (e := ⟨a, b⟩) (f := f) (by rw [heq]; exact hf) with h1 | h1
    · exact h f h1
    · rw [h1]; exact g
  split at he
  · exact hin e he
  · exact hin e (List.mem_filter.1 he).1

variable [Arith α] {look : Nat → Out (P3 α)} {n : Nat}

theorem sweep_total (hlook : ∀ j < n, ∃ p, look j = .ok p) (point : P3 α) (ts : List (Tri α)) (hts : ∀ t ∈ ts, Good n t) :
    ∃ s : Sweep α, forLoop ts ⟨[], [], [], []⟩ (sweepStep look point) = .ok s ∧ (∀ t ∈ s.kept, Good n t) ∧
      (∀ e ∈ s.outer, GoodEdge n e) ∧ ∀ t ∈ s.planar, Good n t := by
  refine forLoop_total (P := fun _ (s : Sweep α) => (∀ t ∈ s.kept, Good n t) ∧ (∀ e ∈ s.outer, GoodEdge n e) ∧
    ∀ t ∈ s.planar, Good n t) ts [] ⟨[], [], [], []⟩ ⟨by simp, by simp, by simp⟩ ?_
  intro pre t suf s he ⟨h1, h2, h3⟩
  have ht : Good n t := hts t (by rw [show ts = pre ++ t :: suf from he]; simp)
  obtain ⟨pa, hpa⟩ := hlook t.a ht.a_lt
  unfold sweepStep
  simp only [bind, Except.bind, hpa, pure, Except.pure]
  split
  · exact ⟨_, rfl, h1, addEdge_good ⟨ht.c_lt, ht.a_lt, ht.ca⟩ (addEdge_good ⟨ht.b_lt, ht.c_lt, ht.bc⟩
      (addEdge_good ⟨ht.a_lt, ht.b_lt, ht.ab⟩ h2)), h3⟩
  · have hk : ∀ u ∈ s.kept ++ [t], Good n u := by
      intro u hu
      rcases List.mem_append.1 hu with hu | hu
      · exact h1 u hu
      · rw [List.mem_singleton.1 hu]; exact ht
    split
    · refine ⟨_, rfl, hk, h2, ?_⟩
      intro u hu
      rcases List.mem_append.1 hu with hu | hu
      · exact h3 u hu
      · rw [List.mem_singleton.1 hu]; exact ht
    · exact ⟨_, rfl, hk, h2, h3⟩

theorem cone_total (hlook : ∀ j < n, ∃ p, look j = .ok p) (point : P3 α) (ts : List (Tri α)) (hts : ∀ t ∈ ts, Good (n + 1) t)
    (es : List Edge) (hes : ∀ e ∈ es, GoodEdge n e) :
    ∃ r, forLoop es ts (coneStep look n point) = .ok r ∧ ∀ t ∈ r, Good (n + 1) t := by
  refine forLoop_total (P := fun _ (r : List (Tri α)) => ∀ t ∈ r, Good (n + 1) t) es [] ts hts ?_
  intro pre e suf s he h1
  have hg : GoodEdge n e := hes e (by rw [show es = pre ++ e :: suf from he]; simp)
  obtain ⟨pa, hpa⟩ := hlook e.a hg.a_lt
  obtain ⟨pb, hpb⟩ := hlook e.b hg.b_lt
  unfold coneStep
  simp only [bind, Except.bind, hpa, hpb, pure, Except.pure]
  refine ⟨_, rfl, ?_⟩
  intro u hu
  rcases List.mem_append.1 hu with hu | hu
  · exact h1 u hu
  · rw [List.mem_singleton.1 hu]
    have h1 := hg.a_lt
    have h2 := hg.b_lt
    exact ⟨by show e.a < n + 1; omega, by show e.b < n + 1; omega, by show n < n + 1; omega, hg.ab,
      by show e.b ≠ n; omega, by show n ≠ e.a; omega⟩

/-- What holds of `edges_facing_point` and `edge_triangle_id`. -/
structure Facing.Fine (n k : Nat) (s : Facing) : Prop where
  edges : ∀ e ∈ s.edges, GoodEdge n e
  ids : ∀ i ∈ s.ids, i < k
  length : s.edges.length ≤ s.ids.length

theorem Facing.Fine.push {k : Nat} {s : Facing} (h : s.Fine n k) (d : α) {e : Edge} (he : GoodEdge n e) {i : Nat}
    (hi : i < k) : (s.push d e i).Fine n k := by
  unfold Facing.push
  split
  · refine ⟨?_, ?_, ?_⟩
    · intro f hf
      rcases List.mem_append.1 hf with hf | hf
      · exact h.edges f hf
      · rw [List.mem_singleton.1 hf]; exact he
    · intro f hf
      rcases List.mem_append.1 hf with hf | hf
      · exact h.ids f hf
      · rw [List.mem_singleton.1 hf]; exact hi
    · have := h.length
      simp only [List.length_append, List.length_singleton]
      omega
  · exact h

theorem facing_total (hlook : ∀ j < n, ∃ p, look j = .ok p) (point : P3 α) (k : Nat) : ∀ (its : List (Nat × Tri α)) (s : Facing),
    (∀ it ∈ its, it.1 < k ∧ Good n it.2) → s.Fine n k → ∃ r, facingLoop look point its s = .ok r ∧ r.Fine n k := by
  intro its
  induction its with
  | nil => intro s _ hs; exact ⟨s, rfl, hs⟩
  | cons it rest ih =>
    intro s hits hs
    obtain ⟨i, t⟩ := it
    obtain ⟨hi, ht⟩ : i < k ∧ Good n t := hits _ List.mem_cons_self
    obtain ⟨pa, hpa⟩ := hlook t.a ht.a_lt
    obtain ⟨pb, hpb⟩ := hlook t.b ht.b_lt
    obtain ⟨pc, hpc⟩ := hlook t.c ht.c_lt
    unfold facingLoop
    simp only [bind, Except.bind, hpa, hpb, hpc, pure, Except.pure]
    have h3 := ((hs.push (distPointToEdge point pa pb t.normal) (e := ⟨t.a, t.b⟩) ⟨ht.a_lt, ht.b_lt, ht.ab⟩ hi).push
      (distPointToEdge point pb pc t.normal) (e := ⟨t.b, t.c⟩) ⟨ht.b_lt, ht.c_lt, ht.bc⟩ hi).push
      (distPointToEdge point pc pa t.normal) (e := ⟨t.c, t.a⟩) ⟨ht.c_lt, ht.a_lt, ht.ca⟩ hi
    split
    · exact ⟨_, rfl, by simp, h3.ids, by simp⟩
    · exact ih _ (fun it hit => hits it (List.mem_cons_of_mem _ hit)) h3

theorem occluded_total (hlook : ∀ j < n, ∃ p, look j = .ok p) (point : P3 α) (planar : List (Tri α)) (s : Facing)
    (hs : s.Fine n planar.length) (i : Nat) (e : EdgeInfo α) : ∀ js : List Nat, (∀ j ∈ js, j < s.edges.length) →
    ∃ r, occludedLoop look point planar s i e js = .ok r ∧ True := by
  intro js
  induction js with
  | nil => intro _; exact ⟨false, rfl, trivial⟩
  | cons j js ih =>
    intro hj
    obtain ⟨r, hr, _⟩ := ih fun j' h => hj j' (List.mem_cons_of_mem _ h)
    have hjl := hj j List.mem_cons_self
    unfold occludedLoop
    split
    · exact ⟨r, hr, trivial⟩
    · refine bind_total (expect_total (by have := hs.length; omega)) ?_
      intro id hid
      refine bind_total (expect_total (hs.ids id hid)) ?_
      intro other _
      split
      · refine bind_total (expect_total hjl) ?_
        intro edge hedge
        have hg := hs.edges edge hedge
        obtain ⟨pa, hpa⟩ := hlook edge.a hg.a_lt
        obtain ⟨pb, hpb⟩ := hlook edge.b hg.b_lt
        simp only [bind, Except.bind, hpa, hpb, pure, Except.pure]
        split
        · exact ⟨true, rfl, trivial⟩
        · exact ⟨r, hr, trivial⟩
      · exact ⟨r, hr, trivial⟩

theorem occlusion_total (hlook : ∀ j < n, ∃ p, look j = .ok p) (point : P3 α) (planar : List (Tri α)) :
    ∀ (i : Nat) (s : Facing) (normals : List (P3 α)), s.Fine n planar.length → s.edges.length = i + normals.length →
      ∃ r, occlusionLoop look point planar i s normals = .ok r ∧ (∀ e ∈ r.1.edges, GoodEdge n e) ∧
        r.1.edges.length = r.2.length := by
  intro i
  induction i with
  | zero => intro s normals hs hlen; exact ⟨_, rfl, hs.edges, by simpa using hlen⟩
  | succ i ih =>
    intro s normals hs hlen
    have hle := hs.length
    unfold occlusionLoop
    refine bind_total (expect_total (by omega)) ?_
    intro edge hedge
    have hg := hs.edges edge hedge
    obtain ⟨pa, hpa⟩ := hlook edge.a hg.a_lt
    obtain ⟨pb, hpb⟩ := hlook edge.b hg.b_lt
    refine bind_total (P := fun _ => True) ⟨pa, hpa, trivial⟩ ?_
    intro a _
    refine bind_total (P := fun _ => True) ⟨pb, hpb, trivial⟩ ?_
    intro b _
    refine bind_total (expect_total (show i < s.ids.length by omega)) ?_
    intro id hid
    refine bind_total (expect_total (hs.ids id hid)) ?_
    intro tri _
    refine bind_total (occluded_total hlook point planar s hs i _ _ (by intro j hj; exact List.mem_range.1 hj)) ?_
    intro remove _
    split
    · refine bind_total (remove_total (by omega)) ?_
      rintro edges ⟨e1, e2⟩
      refine bind_total (remove_total (by omega)) ?_
      rintro ids ⟨i1, i2⟩
      refine ih ⟨edges, ids⟩ normals ⟨fun e he => hs.edges e (e2 e he), fun j hj => hs.ids j (i2 j hj), ?_⟩ ?_
      · show edges.length ≤ ids.length
        omega
      · show edges.length = _
        omega
    · exact ih s _ hs (by rw [List.length_cons]; omega)

/-- Removing positions in decreasing order. -/
theorem removeAll_total {σ : Type} : ∀ (is : List Nat) (xs : List σ), is.Pairwise (· > ·) → (∀ i ∈ is, i < xs.length) →
    ∃ r, forLoop is xs vecRemove = .ok r ∧ ∀ x ∈ r, x ∈ xs := by
  intro is
  induction is with
  | nil => intro xs _ _; exact ⟨xs, rfl, fun _ h => h⟩
  | cons i is ih =>
    intro xs hp hl
    obtain ⟨r, h1, h2, h3⟩ := remove_total (hl i List.mem_cons_self)
    obtain ⟨hp1, hp2⟩ := List.pairwise_cons.1 hp
    obtain ⟨q, h4, h5⟩ := ih r hp2 (by
      intro j hj
      have := hp1 j hj
      have := hl i List.mem_cons_self
      omega)
    exact ⟨q, forLoop_cons_ok.2 ⟨r, h1, h4⟩, fun x hx => h3 x (h5 x hx)⟩

omit [Arith α] in
theorem drop_total (drop : List Edge) : ∀ (i : Nat) (edges : List Edge) (normals : List (P3 α)), i ≤ edges.length →
    edges.length = normals.length → ∃ r, dropLoop drop i edges normals = .ok r ∧
      (r.1.length = r.2.length ∧ ∀ e ∈ r.1, e ∈ edges) := by
  intro i
  induction i with
  | zero => intro edges normals _ hlen; exact ⟨_, rfl, hlen, fun _ h => h⟩
  | succ i ih =>
    intro edges normals hi hlen
    unfold dropLoop
    refine bind_total (expect_total (by omega)) ?_
    intro e _
    split
    · refine bind_total (remove_total (by omega)) ?_
      rintro edges' ⟨e1, e2⟩
      refine bind_total (remove_total (by omega)) ?_
      rintro normals' ⟨n1, n2⟩
      obtain ⟨r, h1, h2, h3⟩ := ih edges' normals' (by omega) (by omega)
      exact ⟨r, h1, h2, fun e he => e2 e (h3 e he)⟩
    · exact ih edges normals (by omega) hlen

/-- What holds while triangles with vertices on two edges are collected. -/
structure Prune.Fine (n k : Nat) (s : Prune α) : Prop where
  removed : s.removed.Pairwise (· < ·)
  below : ∀ i ∈ s.removed, i < k
  edges : ∀ e ∈ s.edges, GoodEdge n e
  length : s.edges.length = s.normals.length

omit [Arith α] in
theorem Prune.Fine.add {k : Nat} {s : Prune α} (h : s.Fine n k) {e : Edge} (he : GoodEdge n e) (f g : Edge) (v : P3 α) :
    (s.add e f g v).Fine n k := by
  refine ⟨h.removed, h.below, ?_, ?_⟩
  · intro x hx
    rcases List.mem_append.1 hx with hx | hx
    · exact h.edges x hx
    · rw [List.mem_singleton.1 hx]; exact he
  · have := h.length
    simp [Prune.add, this]

omit [Arith α] in
theorem pruneStep_fine (two : List Nat) {k : Nat} {s : Prune α} (h : s.Fine n k) {t : Tri α} (ht : Good n t) :
    (pruneStep two s (k, t)).Fine n (k + 1) := by
  have hm : ∀ {u : Prune α}, u.Fine n k → ∀ i ∈ u.removed, i < k + 1 := fun hu i hi => Nat.lt_succ_of_lt (hu.below i hi)
  unfold pruneStep
  simp only
  split
  · have h0 : ({ s with removed := s.removed ++ [k] } : Prune α).Fine n (k + 1) := by
      refine ⟨?_, ?_, h.edges, h.length⟩
      · rw [List.pairwise_append]
        refine ⟨h.removed, List.pairwise_singleton _ _, ?_⟩
        intro a ha c hc
        rw [List.mem_singleton.1 hc]
        exact h.below a ha
      · intro i hi
        rcases List.mem_append.1 hi with hi | hi
        · exact hm h i hi
        · rw [List.mem_singleton.1 hi]; exact Nat.lt_succ_self k
    have step : ∀ {u : Prune α} (c : Bool) (e f g : Edge), GoodEdge n e → u.Fine n (k + 1) →
        (if c = true then u.add e f g t.normal else u).Fine n (k + 1) := by
      intro u c e f g he hu
      split
      · exact hu.add he _ _ _
      · exact hu
    exact step _ _ _ _ ⟨ht.b_lt, ht.c_lt, ht.bc⟩ (step _ _ _ _ ⟨ht.c_lt, ht.a_lt, ht.ca⟩
      (step _ _ _ _ ⟨ht.a_lt, ht.b_lt, ht.ab⟩ h0))
  · exact ⟨h.removed, hm h, h.edges, h.length⟩

omit [Arith α] in
theorem pruneFold_fine (two : List Nat) : ∀ (ts : List (Tri α)) (k : Nat) (s : Prune α), s.Fine n k →
    (∀ t ∈ ts, Good n t) → (((List.range' k ts.length).zip ts).foldl (pruneStep two) s).Fine n (k + ts.length) := by
  intro ts
  induction ts with
  | nil => intro k s h _; exact h
  | cons t ts ih =>
    intro k s h hts
    rw [List.length_cons, List.range'_succ, List.zip_cons_cons, List.foldl_cons]
    have := ih (k + 1) _ (pruneStep_fine two h (hts t List.mem_cons_self)) fun u hu => hts u (List.mem_cons_of_mem _ hu)
    rw [show k + (ts.length + 1) = k + 1 + ts.length by omega]
    exact this

omit [Arith α] in
theorem prune_total (ts : List (Tri α)) (hts : ∀ t ∈ ts, Good n t) (edges : List Edge) (normals : List (P3 α))
    (he : ∀ e ∈ edges, GoodEdge n e) (hlen : edges.length = normals.length) :
    ∃ r, prune ts edges normals = .ok r ∧ ((∀ t ∈ r.1, Good n t) ∧ (∀ e ∈ r.2.1, GoodEdge n e) ∧
      r.2.1.length = r.2.2.length) := by
  unfold prune
  split
  · have hf := pruneFold_fine (verticesOnTwoEdges edges) ts 0 ⟨[], edges, [], normals⟩
      (⟨.nil, by simp, he, hlen⟩ : Prune.Fine n 0 _) hts
    rw [← List.range_eq_range', Nat.zero_add] at hf
    refine bind_total (removeAll_total _ ts (List.pairwise_reverse.2 hf.removed) ?_) ?_
    · intro i hi
      exact hf.below i (List.mem_reverse.1 hi)
    · intro ts' hts'
      refine bind_total (drop_total _ _ _ _ (Nat.le_refl _) hf.length) ?_
      rintro ⟨es, ns⟩ ⟨h1, h2⟩
      exact ⟨_, rfl, fun t ht => hts t (hts' t ht), fun e hh => hf.edges e (h2 e hh), h1⟩
  · exact ⟨_, rfl, hts, he, hlen⟩

omit [Arith α] in
theorem fan_total (ts : List (Tri α)) (hts : ∀ t ∈ ts, Good (n + 1) t) (edges : List Edge) (normals : List (P3 α))
    (he : ∀ e ∈ edges, GoodEdge n e) (hlen : edges.length = normals.length) :
    ∃ r, forLoop (List.range edges.length) ts (fanStep n edges normals) = .ok r ∧ ∀ t ∈ r, Good (n + 1) t := by
  refine forLoop_total (P := fun _ (r : List (Tri α)) => ∀ t ∈ r, Good (n + 1) t) _ [] ts hts ?_
  intro pre i suf s heq h1
  have hi : i < edges.length := List.mem_range.1 (by rw [show List.range edges.length = pre ++ i :: suf from heq]; simp)
  unfold fanStep
  refine bind_total (expect_total hi) ?_
  intro e hmem
  refine bind_total (expect_total (show i < normals.length by omega)) ?_
  intro v _
  refine ⟨_, rfl, ?_⟩
  intro u hu
  rcases List.mem_append.1 hu with hu | hu
  · exact h1 u hu
  · rw [List.mem_singleton.1 hu]
    have hg := he e hmem
    have h1 := hg.a_lt
    have h2 := hg.b_lt
    exact ⟨by show e.a < n + 1; omega, by show e.b < n + 1; omega, by show n < n + 1; omega, hg.ab,
      by show e.b ≠ n; omega, by show n ≠ e.a; omega⟩

theorem planar_total (hlook : ∀ j < n, ∃ p, look j = .ok p) (point : P3 α) (ts planar : List (Tri α))
    (hts : ∀ t ∈ ts, Good n t) (hp : ∀ t ∈ planar, Good n t) :
    ∃ r, planarStep look n point ts planar = .ok r ∧ ∀ t ∈ r, Good (n + 1) t := by
  unfold planarStep
  refine bind_total (facing_total hlook point planar.length _ ⟨[], []⟩ ?_ ⟨by simp, by simp, by simp⟩) ?_
  · rintro ⟨i, t⟩ hit
    obtain ⟨h1, h2⟩ := List.of_mem_zip hit
    exact ⟨List.mem_range.1 h1, hp t h2⟩
  · intro s hs
    refine bind_total (occlusion_total hlook point planar _ s [] hs rfl) ?_
    rintro ⟨s', normals⟩ ⟨h1, h2⟩
    refine bind_total (prune_total ts hts _ _ h1 h2) ?_
    rintro ⟨ts', es, ns⟩ ⟨h3, h4, h5⟩
    exact fan_total ts' (fun t ht => (h3 t ht).mono (Nat.le_succ n)) es ns h4 h5

/-- The hull after the first `n` points. -/
structure Sound (n : Nat) (ts : List (Tri α)) : Prop where
  below : ∀ t ∈ ts, t.a < n ∧ t.b < n ∧ t.c < n
  segment : 2 ≤ n → ∀ t ∈ ts, t.a ≠ t.b
  proper : ts.length ≠ 1 → ∀ t ∈ ts, Good n t

omit [Arith α] in
theorem Sound.of_good {m : Nat} {ts : List (Tri α)} (h : ∀ t ∈ ts, Good m t) : Sound m ts :=
  ⟨fun t ht => ⟨(h t ht).a_lt, (h t ht).b_lt, (h t ht).c_lt⟩, fun _ t ht => (h t ht).ab, fun _ => h⟩

omit [Arith α] in
theorem sound_single {m : Nat} {t : Tri α} (h : t.a < m ∧ t.b < m ∧ t.c < m) (hab : t.a ≠ t.b) : Sound m [t] := by
  refine ⟨?_, ?_, fun h => absurd rfl h⟩
  · intro u hu
    rw [List.mem_singleton.1 hu]
    exact h
  · intro _ u hu
    rw [List.mem_singleton.1 hu]
    exact hab

theorem first_total (hlook : ∀ j < n, ∃ p, look j = .ok p) (hn : 1 ≤ n) (point : P3 α) (first : Tri α) (hf : Sound n [first]) :
    ∃ r, extendFirst look n point first = .ok r ∧ Sound (n + 1) r := by
  obtain ⟨ha, hb, hc⟩ := hf.below first (List.mem_singleton_self _)
  have setB : Sound (n + 1) [{ first with b := n }] :=
    sound_single ⟨by show first.a < n + 1; omega, by show n < n + 1; omega, by show first.c < n + 1; omega⟩
      (by show first.a ≠ n; omega)
  unfold extendFirst
  split
  · exact ⟨_, rfl, setB⟩
  · rename_i h1
    have hab := hf.segment (by omega) first (List.mem_singleton_self _)
    obtain ⟨pa, hpa⟩ := hlook first.a ha
    obtain ⟨pb, hpb⟩ := hlook first.b hb
    simp only [bind, Except.bind, hpa, hpb, pure, Except.pure]
    split
    · exact ⟨_, rfl, setB⟩
    · split
      · split
        · split
          · exact ⟨_, rfl, setB⟩
          · exact ⟨_, rfl, sound_single ⟨by omega, by omega, by omega⟩ hab⟩
        · exact ⟨_, rfl, sound_single ⟨by show n < n + 1; omega, by show first.b < n + 1; omega,
            by show first.c < n + 1; omega⟩ (by show n ≠ first.b; omega)⟩
      · refine ⟨_, rfl, Sound.of_good ?_⟩
        intro t ht
        rcases List.mem_cons.1 ht with rfl | ht
        · exact ⟨by show first.a < n + 1; omega, by show first.b < n + 1; omega, by show n < n + 1; omega, hab,
            by show first.b ≠ n; omega, by show n ≠ first.a; omega⟩
        · rw [List.mem_singleton.1 ht]
          exact ⟨by show first.a < n + 1; omega, by show n < n + 1; omega, by show first.b < n + 1; omega,
            by show first.a ≠ n; omega, by show n ≠ first.b; omega, fun e => hab e.symm⟩

theorem iteration_total (order : List Edge → List Edge) (horder : ∀ es, (order es).Perm es)
    (hlook : ∀ j < n, ∃ p, look j = .ok p) (point : P3 α) (ts : List (Tri α)) (hts : Sound n ts) :
    ∃ r, iteration order look ts (n, point) = .ok r ∧ Sound (n + 1) r := by
  unfold iteration
  simp only
  split
  · rename_i h0
    subst h0
    have : ts = [] := by
      cases ts with
      | nil => rfl
      | cons t ts => exact absurd (hts.below t List.mem_cons_self).1 (by omega)
    subst this
    refine ⟨_, rfl, ?_, by omega, fun h => absurd rfl h⟩
    intro t ht
    rw [List.mem_singleton.1 ht]
    exact ⟨Nat.one_pos, Nat.one_pos, Nat.one_pos⟩
  · rename_i h0
    split
    · exact first_total hlook (by omega) point _ hts
    · rename_i hne
      have hg := hts.proper (by
        intro h1
        obtain ⟨t, rfl⟩ := List.length_eq_one_iff.1 h1
        exact hne t rfl)
      refine bind_total (sweep_total hlook point ts hg) ?_
      rintro s ⟨h1, h2, h3⟩
      split
      · obtain ⟨r, h4, h5⟩ := cone_total hlook point s.kept (fun t ht => (h1 t ht).mono (Nat.le_succ n)) (order s.outer)
          (fun e he => h2 e ((horder _).mem_iff.1 he))
        exact ⟨r, h4, Sound.of_good h5⟩
      · obtain ⟨r, h4, h5⟩ := planar_total hlook point s.kept s.planar h1 h3
        exact ⟨r, h4, Sound.of_good h5⟩

/-- The state after each number of iterations. -/
theorem iterations_total (order : List Edge → List Edge) (horder : ∀ es, (order es).Perm es) (points : List (P3 α))
    (hlook : ∀ j < points.length, ∃ p, look j = .ok p) (k : Nat) (hk : k ≤ points.length) :
    ∃ r, forLoop (((List.range points.length).zip points).take k) [] (iteration order look) = .ok r ∧ Sound k r := by
  induction k with
  | zero => exact ⟨[], by simp, by simp, by simp, by simp⟩
  | succ k ih =>
    obtain ⟨r, h1, h2⟩ := ih (by omega)
    have hget : ((List.range points.length).zip points)[k]? = some (k, points[k]) := by
      rw [List.getElem?_eq_getElem (by simp; omega)]
      simp
    obtain ⟨q, h3, h4⟩ := iteration_total order horder (fun j hj => hlook j (by omega)) points[k] r h2
    refine ⟨q, ?_, h4⟩
    rw [List.take_add_one, hget, forLoop_append, h1]
    exact forLoop_cons_ok.2 ⟨q, h3, rfl⟩

end Pasture.Hull
