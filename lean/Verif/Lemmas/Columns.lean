import Verif.Lemmas.VectorShows

/-! # Columns, and the columnar buffer that holds given records -/

namespace Pasture

open Spec

/-! ### association lists with the attributes of a layout as keys -/

/-- Columns of the members `ms`, with contents `f`. -/
abbrev colsOf (ms : List Member) (f : Member → Bytes) : Columns := ms.map fun m => (m.definition, f m)

theorem colsOf_get {l : PointLayout} (h : Orderly l) (f : Member → Bytes) {m : Member}
    (hm : m ∈ l.attributes) : (colsOf l.attributes f).get m.definition = some (f m) := by
  unfold Columns.get
  rw [lookup_map_def, find_def_mem h hm]; rfl

theorem colsOf_get_none {l : PointLayout} (f : Member → Bytes) {d : AttrDef}
    (hd : d ∉ l.attributes.map Member.definition) : (colsOf l.attributes f).get d = none := by
  unfold Columns.get
  rw [lookup_map_def, find_def_none hd]; rfl

theorem colsOf_set (ms : List Member) (f : Member → Bytes) (d : AttrDef) (v : Bytes) :
    (colsOf ms f).set d v = colsOf ms fun m => if m.definition = d then v else f m := by
  unfold Columns.set colsOf
  rw [List.map_map]
  apply List.map_congr_left
  intro m _
  simp only [Function.comp_apply]
  split <;> rfl

theorem lookup_append_right {ps qs : List (AttrDef × Bytes)} {d : AttrDef} (h : d ∉ ps.map Prod.fst) :
    (ps ++ qs).lookup d = qs.lookup d := by
  induction ps with
  | nil => rfl
  | cons p ps ih =>
    simp only [List.map_cons, List.mem_cons, not_or] at h
    rw [List.cons_append, List.lookup_cons, ih h.2]
    have : (d == p.1) = false := by simpa using h.1
    rw [this]

/-- A loop over the attributes that replaces the column of each one. -/
theorem cols_loop {f g : Member → Bytes} {body : Columns → Member → Out Columns} :
    ∀ (suf pre : List Member), ((pre ++ suf).map Member.definition).Nodup →
    (∀ m ∈ suf, ∀ cols : Columns, cols.get m.definition = some (f m) →
      body cols m = .ok (cols.set m.definition (g m))) →
    forLoop suf (colsOf pre g ++ colsOf suf f) body = .ok (colsOf (pre ++ suf) g) := by
  intro suf
  induction suf with
  | nil => intro pre _ _; simp
  | cons m suf ih =>
    intro pre hn hstep
    have hpre : m.definition ∉ pre.map Member.definition ∧ m.definition ∉ suf.map Member.definition := by
      rw [List.map_append, List.map_cons, List.nodup_append] at hn
      obtain ⟨_, h2, h3⟩ := hn
      exact ⟨fun hc => h3 _ hc _ (by simp) rfl, (List.nodup_cons.1 h2).1⟩
    have hget : Columns.get (colsOf pre g ++ colsOf (m :: suf) f) m.definition = some (f m) := by
      unfold Columns.get
      rw [lookup_append_right (by simpa [colsOf, List.map_map, Function.comp_def] using hpre.1)]
      simp [colsOf]
    have hset : Columns.set (colsOf pre g ++ colsOf (m :: suf) f) m.definition (g m) =
        colsOf (pre ++ [m]) g ++ colsOf suf f := by
      unfold Columns.set colsOf
      simp only [List.map_append, List.map_map, List.map_cons, List.append_assoc, List.map_nil,
        if_true, List.singleton_append]
      congr 1
      · apply List.map_congr_left
        intro x hx
        have : x.definition ≠ m.definition := fun he => hpre.1 (he ▸ List.mem_map_of_mem hx)
        simp [this]
      · congr 1
        apply List.map_congr_left
        intro x hx
        have : x.definition ≠ m.definition := fun he => hpre.2 (he ▸ List.mem_map_of_mem hx)
        simp [this]
    rw [forLoop_cons, hstep m (by simp) _ hget]
    simp only [Except.bind]
    rw [hset, ih (pre ++ [m]) (by simpa using hn) (fun x hx => hstep x (by simp [hx]))]
    simp

theorem cols_loop_layout {l : PointLayout} (h : Orderly l) {f g : Member → Bytes}
    {body : Columns → Member → Out Columns}
    (step : ∀ m ∈ l.attributes, ∀ cols : Columns, cols.get m.definition = some (f m) →
      body cols m = .ok (cols.set m.definition (g m))) :
    forLoop l.attributes (colsOf l.attributes f) body = .ok (colsOf l.attributes g) := by
  have := cols_loop (f := f) (g := g) (body := body) l.attributes [] (by simpa using defs_nodup h) step
  simpa using this

theorem attrs_loop_fails {σ : Type} {l : PointLayout} (h : Solid l) {s : σ} {e : Fault}
    {body : σ → Member → Out σ} (step : ∀ m ∈ l.attributes, body s m = .error e) :
    forLoop l.attributes s body = .error e := by
  cases hl : l.attributes with
  | nil => exact absurd hl h.nonempty
  | cons m ms =>
    rw [forLoop_cons, step m (by simp [hl])]
    rfl

/-! ### loops over indices that change one element per step -/

theorem modify_loop {α σ : Type} (rep : List α → σ) (inv : List α → Prop) (F : Nat → α → α)
    {body : σ → Nat → Out σ} (a n off : Nat) (xs : List α) (hx : inv xs)
    (step : ∀ k ys, k < n → inv ys → ys.length = xs.length →
      body (rep ys) (a + k) = .ok (rep (ys.modify (off + k) (F k))) ∧ inv (ys.modify (off + k) (F k))) :
    forLoop (List.range' a n) (rep xs) body =
      .ok (rep (xs.mapIdx fun j x => if off ≤ j ∧ j < off + n then F (j - off) x else x)) := by
  have key : ∀ k, k ≤ n → forLoop (List.range' a k) (rep xs) body =
      .ok (rep (xs.mapIdx fun j x => if off ≤ j ∧ j < off + k then F (j - off) x else x)) ∧
      inv (xs.mapIdx fun j x => if off ≤ j ∧ j < off + k then F (j - off) x else x) := by
    intro k
    induction k with
    | zero =>
      intro _
      have : (xs.mapIdx fun j x => if off ≤ j ∧ j < off + 0 then F (j - off) x else x) = xs := by
        apply List.ext_getElem?
        intro j
        rw [List.getElem?_mapIdx]
        have : ¬ (off ≤ j ∧ j < off + 0) := by omega
        simp only [if_neg this]
        simp
      rw [this]
      exact ⟨rfl, hx⟩
    | succ k ih =>
      intro hk
      obtain ⟨h1, h2⟩ := ih (by omega)
      obtain ⟨h3, h4⟩ := step k _ (by omega) h2 (by simp)
      have e : (xs.mapIdx fun j x => if off ≤ j ∧ j < off + k then F (j - off) x else x).modify (off + k) (F k) =
          xs.mapIdx fun j x => if off ≤ j ∧ j < off + (k + 1) then F (j - off) x else x := by
        apply List.ext_getElem?
        intro j
        rw [List.getElem?_modify, List.getElem?_mapIdx, List.getElem?_mapIdx]
        cases xs[j]? with
        | none => simp
        | some x =>
          simp only [Option.map_some, Option.map_eq_map]
          by_cases e : off + k = j
          · subst e
            have h2 : (off ≤ off + k ∧ off + k < off + (k + 1)) := by omega
            simp [h2]
          · have h1 : (off ≤ j ∧ j < off + k) ↔ (off ≤ j ∧ j < off + (k + 1)) := by omega
            simp only [if_neg e, h1]
      rw [e] at h3 h4
      refine ⟨?_, h4⟩
      rw [List.range'_1_concat, forLoop_append, h1]
      simp [Except.bind, h3]
  exact (key n (Nat.le_refl _)).1

/-! ### scattering attribute values into a record -/

/-- Write the value of every member to its place. -/
def scatter (ms : List Member) (v : Member → Bytes) (data : Bytes) : Bytes :=
  ms.foldl (fun d m => overwrite d m.offset (v m)) data

theorem point_set_fold (g f : Member → Bytes) : ∀ (suf pre : List Member),
    ((pre ++ suf).map Member.definition).Nodup →
    suf.foldl (fun (p : Point) m => p.set m.definition (g m)) (colsOf pre g ++ colsOf suf f) =
      colsOf (pre ++ suf) g := by
  intro suf pre hn
  have := cols_loop (f := f) (g := g) (body := fun cols m => .ok (cols.set m.definition (g m))) suf pre hn
    (fun _ _ _ _ => rfl)
  have e : ∀ (ms : List Member) (c : Columns), forLoop ms c
      (fun cols m => .ok (cols.set m.definition (g m))) =
      .ok (ms.foldl (fun (p : Point) m => p.set m.definition (g m)) c) := by
    intro ms
    induction ms with
    | nil => intro c; rfl
    | cons m ms ih => intro c; rw [forLoop_cons]; exact ih _
  rw [e] at this
  exact Except.ok.inj this

theorem scatter_spec {l : PointLayout} (h : Orderly l) {v : Member → Bytes}
    (hv : ∀ m ∈ l.attributes, (v m).length = m.size) (data : Bytes) (hd : data.length = l.size) :
    (scatter l.attributes v data).length = l.size ∧
      pointOf l (scatter l.attributes v data) = colsOf l.attributes v := by
  have key : ∀ (ms : List Member) (d : Bytes), (∀ m ∈ ms, m ∈ l.attributes) → d.length = l.size →
      (scatter ms v d).length = l.size ∧ pointOf l (scatter ms v d) =
        ms.foldl (fun (p : Point) m => p.set m.definition (v m)) (pointOf l d) := by
    intro ms
    induction ms with
    | nil => intro d _ hd; exact ⟨hd, rfl⟩
    | cons m ms ih =>
      intro d hms hd
      have hm := hms m (by simp)
      have hi := h.inside m hm
      have hvm := hv m hm
      have := ih (overwrite d m.offset (v m)) (fun x hx => hms x (by simp [hx]))
        (by rw [length_overwrite (by omega), hd])
      rw [pointOf_overwrite h hd hm hvm] at this
      exact this
  obtain ⟨h1, h2⟩ := key l.attributes data (fun _ h => h) hd
  refine ⟨h1, ?_⟩
  rw [h2]
  have := point_set_fold v (fun m => window data m.offset m.size) l.attributes [] (by simpa using defs_nodup h)
  simpa [pointOf] using this

/-- A record with the values of a point, zero elsewhere. -/
def recordOf (l : PointLayout) (p : Point) : Bytes :=
  scatter l.attributes (fun m => (p.get m.definition).getD (zeros m.size)) (zeros l.size)

theorem typed_get {l : PointLayout} {p : Point} (hp : Typed l p) {m : Member}
    (hm : m ∈ l.attributes) : ∃ v, p.get m.definition = some v ∧ v.length = m.size := by
  obtain ⟨h1, h2⟩ := hp
  have : m.definition ∈ p.map Prod.fst := by rw [h1]; exact List.mem_map_of_mem hm
  unfold Point.get
  cases hl : p.lookup m.definition with
  | none =>
    obtain ⟨kv, hkv, he⟩ := List.mem_map.1 this
    have := List.lookup_eq_none_iff.1 hl kv hkv
    simp [he] at this
  | some v =>
    refine ⟨v, rfl, ?_⟩
    obtain ⟨l1, l2, e, _⟩ := List.lookup_eq_some_iff.1 hl
    exact h2 (m.definition, v) (by rw [e]; simp)

theorem typed_ext {l : PointLayout} (h : Orderly l) {p : Point} (hp : Typed l p) :
    p = colsOf l.attributes fun m => (p.get m.definition).getD (zeros m.size) := by
  obtain ⟨h1, h2⟩ := hp
  have hn : (p.map Prod.fst).Nodup := by rw [h1]; exact defs_nodup h
  have hlen : p.length = l.attributes.length := by
    have := congrArg List.length h1; simpa using this
  apply List.ext_getElem
  · simp [hlen]
  · intro i hi hi'
    have hi2 : i < l.attributes.length := by omega
    have e1 : p[i].1 = (l.attributes[i]).definition := by
      have : (p.map Prod.fst)[i]? = (l.attributes.map Member.definition)[i]? := by rw [h1]
      simpa [List.getElem?_eq_getElem hi, List.getElem?_eq_getElem hi2] using this
    have e2 : p.get p[i].1 = some p[i].2 := by
      unfold Point.get
      rw [List.lookup_eq_some_iff]
      refine ⟨p.take i, p.drop (i + 1), ?_, ?_⟩
      · rw [show ((p[i].1, p[i].2) : AttrDef × Bytes) = p[i] from rfl, ← List.drop_eq_getElem_cons hi,
          List.take_append_drop]
      · intro kv hkv
        have : kv.1 ≠ p[i].1 := by
          intro he
          obtain ⟨j, hj, rfl⟩ := List.mem_iff_getElem.1 hkv
          have hj' : j < i := by simp at hj; omega
          rw [List.getElem_take] at he
          have := (List.nodup_iff_injective_get.1 hn) (a₁ := ⟨j, by simp; omega⟩)
            (a₂ := ⟨i, by simp; omega⟩) (by simpa using he)
          simp at this; omega
        simpa using fun h => this h.symm
    simp only [List.getElem_map]
    rw [← e1, e2]
    rfl

theorem recordOf_spec {l : PointLayout} (h : Orderly l) {p : Point} (hp : Typed l p) :
    (recordOf l p).length = l.size ∧ pointOf l (recordOf l p) = p := by
  have := scatter_spec h (v := fun m => (p.get m.definition).getD (zeros m.size)) (by
    intro m hm
    obtain ⟨v, h1, h2⟩ := typed_get hp hm
    simp [h1, h2]) (zeros l.size) (by simp [zeros])
  exact ⟨this.1, this.2.trans (typed_ext h hp).symm⟩

end Pasture
