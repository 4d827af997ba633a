import Verif.Lemmas.Collect

/-! # The attribute pusher -/

namespace Pasture

open Spec

/-- One call of `push_attribute_range`: attribute, element type, values. -/
abbrev Push := AttrDef × DataType × List Bytes

/-- The values pushed for attribute `d` (by the first push of it). -/
def pushed (pushes : List Push) (d : AttrDef) : List Bytes :=
  match pushes.find? (fun c => c.1 = d) with
  | some c => c.2.2
  | none => []

theorem pushed_cons (c : Push) (cs : List Push) (d : AttrDef) :
    pushed (c :: cs) d = if c.1 = d then c.2.2 else pushed cs d := by
  unfold pushed
  rw [List.find?_cons]
  by_cases h : c.1 = d <;> simp [h]

theorem pushed_absent {cs : List Push} {d : AttrDef} (h : d ∉ cs.map Prod.fst) : pushed cs d = [] := by
  unfold pushed
  rw [List.find?_eq_none.2]
  intro c hc he
  exact h (List.mem_map.2 ⟨c, hc, by simpa using he⟩)

theorem pushed_mem {cs : List Push} (hn : (cs.map Prod.fst).Nodup) {c : Push} (hc : c ∈ cs) :
    pushed cs c.1 = c.2.2 := by
  induction cs with
  | nil => simp at hc
  | cons x cs ih =>
    rw [List.map_cons, List.nodup_cons] at hn
    rw [pushed_cons]
    rcases List.mem_cons.1 hc with e | e
    · subst e; simp
    · rw [if_neg (fun he : x.1 = c.1 => hn.1 (List.mem_map.2 ⟨c, e, he.symm⟩)), ih hn.2 e]

namespace AttributePusher

/-- Pushing distinct attributes, all with `n` values. -/
theorem push_loop {l : PointLayout} (hl : Solid l) (n : Nat) (buf : HashMapBuffer) :
    ∀ (cs done : List Push), ((done ++ cs).map Prod.fst).Nodup →
    (∀ c ∈ cs, c.1 ∈ l.attributes.map Member.definition ∧ c.2.1 = c.1.datatype ∧ c.2.2.length = n) →
    (∀ c ∈ done, c.2.2.length = n) →
    forLoop cs (⟨colsOf l.attributes fun m => (pushed done m.definition).flatten,
        if done = [] then none else some n, buf⟩ : AttributePusher)
      (fun p c => p.pushAttributeRange c.1 c.2.1 c.2.2) =
    .ok ⟨colsOf l.attributes fun m => (pushed (done ++ cs) m.definition).flatten,
        if done ++ cs = [] then none else some n, buf⟩ := by
  intro cs
  induction cs with
  | nil => intro done _ _ _; simp
  | cons c cs ih =>
    intro done hn hcs hdone
    obtain ⟨h1, h2, h3⟩ := hcs c (by simp)
    obtain ⟨m, hm, hmd⟩ := List.mem_map.1 h1
    have hnd : c.1 ∉ done.map Prod.fst := by
      rw [List.map_append, List.nodup_append] at hn
      intro hc
      exact hn.2.2 _ hc _ (by simp) rfl
    have hg := colsOf_get hl (fun m => (pushed done m.definition).flatten) hm
    rw [hmd] at hg
    have hstep : (⟨colsOf l.attributes fun m => (pushed done m.definition).flatten,
        if done = [] then none else some n, buf⟩ : AttributePusher).pushAttributeRange c.1 c.2.1 c.2.2 =
        .ok ⟨colsOf l.attributes fun m => (pushed (done ++ [c]) m.definition).flatten, some n, buf⟩ := by
      have hcols : (colsOf l.attributes fun m => (pushed done m.definition).flatten).set c.1
          ((pushed done c.1).flatten ++ c.2.2.flatten) =
          colsOf l.attributes fun m => (pushed (done ++ [c]) m.definition).flatten := by
        rw [colsOf_set]
        apply List.map_congr_left
        intro x _
        congr 1
        dsimp only
        by_cases hx : x.definition = c.1
        · rw [if_pos hx, hx, pushed_absent hnd, pushed, List.find?_append,
            List.find?_eq_none.2 (fun y hy he => hnd (List.mem_map.2 ⟨y, hy, by simpa using he⟩))]
          simp
        · rw [if_neg hx]
          unfold pushed
          rw [List.find?_append]
          cases done.find? (fun c => c.1 = x.definition) with
          | some y => simp
          | none => simp [Ne.symm hx]
      unfold pushAttributeRange
      rw [assertThat_true (decide_eq_true h2)]
      simp only [hg, expectSome, bind, Except.bind]
      by_cases hd : done = []
      · simp only [hd, if_true, pure, Except.pure]
        rw [hd] at hcols
        rw [hcols, h3]
      · simp only [hd, if_false]
        rw [assertThat_true (decide_eq_true h3.symm)]
        simp only [pure, Except.pure]
        rw [hcols]
    rw [forLoop_cons, hstep]
    simp only [Except.bind]
    have := ih (done ++ [c]) (by simpa using hn) (fun x hx => hcs x (by simp [hx]))
      (by
        intro x hx
        rcases List.mem_append.1 hx with hx | hx
        · exact hdone x hx
        · rw [List.mem_singleton.1 hx]; exact h3)
    simpa using this

theorem flatten_ne_nil {sz : Nat} (hsz : 0 < sz) {vs : List Bytes} (h : AllLen sz vs) (hn : 0 < vs.length) :
    vs.flatten ≠ [] := by
  intro he
  have := h.flatten_length
  rw [he] at this
  have hp := Nat.mul_pos hn hsz
  have hq := Nat.mul_pos hsz hn
  rw [List.length_nil] at this
  omega

/-- `done` when every attribute has values. -/
theorem done_ok {l : PointLayout} (hl : Solid l) {rs : List Bytes} {n : Nat} (hn : 0 < n)
    {v : Member → List Bytes} (hv : ∀ m ∈ l.attributes, AllLen m.size (v m) ∧ (v m).length = n) :
    AttributePusher.done ⟨colsOf l.attributes fun m => (v m).flatten, some n, HashMapBuffer.ofRecords l rs⟩ =
      .ok ⟨colsOf l.attributes fun m => (vals m rs).flatten ++ (v m).flatten, l, rs.length + n⟩ := by
  unfold done
  simp only [Option.getD_some]
  rw [if_neg (by omega), assertThat_true (by
    rw [List.all_eq_true]
    intro kv hkv
    obtain ⟨m, hm, rfl⟩ := List.mem_map.1 hkv
    have := flatten_ne_nil (hl.positive m hm) (hv m hm).1 (by rw [(hv m hm).2]; exact hn)
    simpa using this)]
  have := cols_loop_layout hl.orderly (f := fun m => (vals m rs).flatten)
    (g := fun m => (vals m rs).flatten ++ (v m).flatten)
    (body := fun cols m => do
      let col ← expectSome (cols.get m.definition)
      pure (cols.set m.definition (col ++ (v m).flatten))) (by
    intro m hm cols hg
    simp only [hg]
    rfl)
  rw [forLoop_map]
  simp only [bind, Except.bind] at this ⊢
  rw [this]
  rfl

/-- `done` when an attribute has no values. -/
theorem done_missing {l : PointLayout} {n : Nat} (hn : 0 < n) {v : Member → List Bytes} {m : Member}
    (hm : m ∈ l.attributes) (hv : v m = []) (buf : HashMapBuffer) :
    AttributePusher.done ⟨colsOf l.attributes fun m => (v m).flatten, some n, buf⟩ = .error .panic := by
  unfold done
  simp only [Option.getD_some]
  rw [if_neg (by omega), assertThat_false (by
    rw [List.all_eq_false]
    exact ⟨(m.definition, (v m).flatten), List.mem_map_of_mem (f := fun m => (m.definition, (v m).flatten)) hm,
      by simp [hv]⟩)]
  rfl

end AttributePusher

/-- Records made of given columns. -/
theorem exists_rows {l : PointLayout} (hl : Solid l) {n : Nat} {v : Member → List Bytes}
    (hv : ∀ m ∈ l.attributes, AllLen m.size (v m) ∧ (v m).length = n) :
    ∃ qs : List Bytes, AllLen l.size qs ∧ qs.length = n ∧ (∀ m ∈ l.attributes, vals m qs = v m) ∧
      qs.map (pointOf l) = (List.range n).map fun i => l.attributes.map fun m => (m.definition, ((v m)[i]?).getD []) := by
  have hrow : ∀ i, i < n → Typed l (l.attributes.map fun m => (m.definition, ((v m)[i]?).getD [])) := by
    intro i hi
    constructor
    · simp [List.map_map, Function.comp_def]
    · intro kv hkv
      obtain ⟨m, hm, rfl⟩ := List.mem_map.1 hkv
      obtain ⟨h1, h2⟩ := hv m hm
      have e := List.getElem?_eq_getElem (show i < (v m).length by omega)
      simp only [e, Option.getD_some]
      exact h1.getElem e
  refine ⟨(List.range n).map fun i => recordOf l (l.attributes.map fun m => (m.definition, ((v m)[i]?).getD [])),
    ?_, by simp, ?_, ?_⟩
  · intro r hr
    obtain ⟨i, hi, rfl⟩ := List.mem_map.1 hr
    exact (recordOf_spec hl (hrow i (by simpa using hi))).1
  · intro m hm
    unfold vals
    rw [List.map_map]
    apply List.ext_getElem?
    intro i
    rw [List.getElem?_map]
    obtain ⟨h1, h2⟩ := hv m hm
    by_cases hi : i < n
    · rw [List.getElem?_range hi, Option.map_some]
      have e := List.getElem?_eq_getElem (show i < (v m).length by omega)
      rw [e]
      congr 1
      have := (recordOf_spec hl (hrow i hi)).2
      unfold pointOf at this
      have := (Prod.mk.inj ((List.map_inj_left.1 this) m hm)).2
      rw [e] at this
      exact this
    · rw [List.getElem?_eq_none (by simp; omega), List.getElem?_eq_none (by omega)]; rfl
  · rw [List.map_map]
    apply List.map_congr_left
    intro i hi
    exact (recordOf_spec hl (hrow i (by simpa using hi))).2

end Pasture
