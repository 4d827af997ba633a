import Verif.Spec.Weightless
import Verif.Props.Buffers

/-!
# Buffers of points without data
-/

namespace Pasture

open Spec BorrowedBuffer Props

theorem forLoop_same {α σ : Type} {f : σ → α → Out σ} {s : σ} : ∀ (xs : List α), (∀ x ∈ xs, f s x = .ok s) →
    forLoop xs s f = .ok s
  | [], _ => rfl
  | x :: xs, h => by
    rw [forLoop_cons, h x (by simp)]
    exact forLoop_same xs fun y hy => h y (by simp [hy])

/-- `n` points of the layout in interleaved memory. -/
def bareVector (l : PointLayout) (n : Nat) : VectorBuffer := ⟨[], l, n⟩

/-- `n` points of the layout in columns. -/
def bareColumns (l : PointLayout) (n : Nat) : HashMapBuffer := ⟨l.attributes.map fun m => (m.definition, []), l, n⟩

variable {l : PointLayout}

theorem bare_vector (hl : Weightless l) {b : VectorBuffer} (hb : b.layout = l) (hc : VectorConsistent b) :
    b = bareVector l b.length := by
  obtain ⟨s, l', n⟩ := b
  obtain rfl : l' = l := hb
  have : s = [] := List.eq_nil_of_length_eq_zero (by
    have h : s.length = n * l'.size := hc
    rw [hl.size] at h
    exact h)
  subst this
  rfl

theorem member_bare (hl : Weightless l) {m : Member} (hm : m ∈ l.attributes) : m.offset = 0 ∧ m.size = 0 := by
  have := hl.inside m hm
  rw [hl.size] at this
  omega

theorem bare_columns (hl : Weightless l) {b : HashMapBuffer} (hb : b.layout = l) (hc : HashMapConsistent b) :
    b = bareColumns l b.length := by
  obtain ⟨c, l', n⟩ := b
  obtain rfl : l' = l := hb
  obtain ⟨h1, h2⟩ := hc
  have : c = l'.attributes.map fun m => (m.definition, []) := by
    change c.map Prod.fst = _ at h1
    have h3 : c = (c.map Prod.fst).map fun d => (d, []) := by
      rw [List.map_map]
      conv => lhs; rw [← List.map_id c]
      apply List.map_congr_left
      intro kv hkv
      obtain ⟨m, hm, he⟩ := List.mem_map.1 (show kv.1 ∈ l'.attributes.map Member.definition from h1 ▸ List.mem_map_of_mem hkv)
      have hz : kv.1.size = 0 := by rw [← he]; exact (member_bare hl hm).2
      have h4 : kv.2.length = n * kv.1.size := h2 kv hkv
      rw [hz] at h4
      exact Prod.ext rfl (List.eq_nil_of_length_eq_zero h4)
    rw [h3, h1, List.map_map]
    rfl
  subst this
  rfl

theorem bare_get {m : Member} (hm : m ∈ l.attributes) (n : Nat) : (bareColumns l n).columns.get m.definition = some [] := by
  show List.lookup m.definition (l.attributes.map fun m => (m.definition, ([] : Bytes))) = some []
  generalize l.attributes = xs at hm
  induction xs with
  | nil => cases hm
  | cons x xs ih =>
    rw [List.map_cons, List.lookup_cons]
    by_cases h : m.definition = x.definition
    · rw [h, beq_self_eq_true]
    · rw [beq_eq_false_iff_ne.2 h]
      rcases List.mem_cons.1 hm with rfl | hm
      · exact absurd rfl h
      · exact ih hm

theorem bare_set (d : AttrDef) (n : Nat) : (bareColumns l n).columns.set d [] = (bareColumns l n).columns := by
  show (l.attributes.map fun m => (m.definition, ([] : Bytes))).map _ = l.attributes.map _
  rw [List.map_map]
  apply List.map_congr_left
  intro m _
  show (if m.definition = d then (m.definition, ([] : Bytes)) else (m.definition, [])) = _
  split <;> rfl

section
variable (hl : Weightless l)
include hl

theorem bareVector_get (n i : Nat) : Interleaved.getPoint (bareVector l n) i [] = .ok [] := by
  have : (bareVector l n).layout.size = 0 := hl.size
  unfold Interleaved.getPoint Interleaved.getPointRef Interleaved.read Interleaved.byteRangeOfPoint
  rw [this, Nat.mul_zero, Nat.mul_zero]
  rfl

theorem bareVector_set (n i : Nat) : Interleaved.setPoint (bareVector l n) i [] = .ok (bareVector l n) := by
  have : (bareVector l n).layout.size = 0 := hl.size
  unfold Interleaved.setPoint Interleaved.write Interleaved.byteRangeOfPoint
  rw [this, Nat.mul_zero, Nat.mul_zero]
  rfl

theorem bareVector_swap {n i j : Nat} (hi : i < n) (hj : j < n) :
    Interleaved.swap (bareVector l n) i j = .ok (bareVector l n) := by
  have hs : (bareVector l n).layout.size = 0 := hl.size
  have hi' : decide (i < (bareVector l n).length) = true := decide_eq_true hi
  have hj' : decide (j < (bareVector l n).length) = true := decide_eq_true hj
  unfold Interleaved.swap
  rw [hi', hj', hs, Nat.mul_zero, Nat.mul_zero]
  by_cases h : i = j
  · rw [if_pos h]; rfl
  · rw [if_neg h]; rfl

theorem bareVector_resize (n k : Nat) : VectorBuffer.resize (bareVector l n) k = bareVector l k := by
  have hs : (bareVector l n).layout.size = 0 := hl.size
  unfold VectorBuffer.resize
  rw [hs, Nat.mul_zero]
  rfl

theorem bareColumns_get (n i : Nat) : HashMapBuffer.getPoint (bareColumns l n) i [] = .ok [] := by
  unfold HashMapBuffer.getPoint
  apply forLoop_same
  intro m hm
  change m ∈ l.attributes at hm
  obtain ⟨h1, h2⟩ := member_bare hl hm
  have h3 : m.definition.size = 0 := h2
  have h4 : m.stop = 0 := by unfold Member.stop; rw [h1, h2]
  rw [bare_get hm, h1, h4]
  unfold HashMapBuffer.byteRange
  rw [h3, Nat.mul_zero, Nat.mul_zero]
  rfl

theorem bareColumns_set (n i : Nat) : HashMapBuffer.setPoint (bareColumns l n) i [] = .ok (bareColumns l n) := by
  unfold HashMapBuffer.setPoint
  have : forLoop (bareColumns l n).layout.attributes (bareColumns l n).columns (fun cols m => do
      let r := HashMapBuffer.byteRange i m.definition
      let col ← expectSome (cols.get m.definition)
      let src ← sliceGet ([] : Bytes) m.offset m.stop
      let col ← slicePut col r.start r.stop src
      pure (cols.set m.definition col)) = .ok (bareColumns l n).columns := by
    apply forLoop_same
    intro m hm
    change m ∈ l.attributes at hm
    obtain ⟨h1, h2⟩ := member_bare hl hm
    have h3 : m.definition.size = 0 := h2
    have h4 : m.stop = 0 := by unfold Member.stop; rw [h1, h2]
    rw [bare_get hm, h1, h4]
    unfold HashMapBuffer.byteRange
    rw [h3, Nat.mul_zero, Nat.mul_zero]
    show Except.ok ((bareColumns l n).columns.set m.definition []) = _
    rw [bare_set]
  rw [this]
  rfl

theorem bareColumns_resize (n k : Nat) : HashMapBuffer.resize (bareColumns l n) k = bareColumns l k := by
  unfold HashMapBuffer.resize bareColumns
  have : (l.attributes.map fun m => (m.definition, ([] : Bytes))).map
      (fun (d, col) => (d, vecResize col (k * d.size) 0)) = l.attributes.map fun m => (m.definition, []) := by
    rw [List.map_map]
    apply List.map_congr_left
    intro m hm
    have h3 : m.definition.size = 0 := (member_bare hl hm).2
    show (m.definition, vecResize ([] : Bytes) (k * m.definition.size) 0) = _
    rw [h3, Nat.mul_zero]
    rfl
  show HashMapBuffer.mk _ l k = _
  rw [this]

theorem bareColumns_swap {n i j : Nat} (hi : i < n) (hj : j < n) :
    HashMapBuffer.swap (bareColumns l n) i j = .ok (bareColumns l n) := by
  have hi' : decide (i < (bareColumns l n).length) = true := decide_eq_true hi
  have hj' : decide (j < (bareColumns l n).length) = true := decide_eq_true hj
  unfold HashMapBuffer.swap
  rw [hi', hj']
  by_cases h : i = j
  · rw [if_pos h]; rfl
  · rw [if_neg h]
    have : (bareColumns l n).columns.mapM (fun (x : AttrDef × Bytes) => do
        let col ← swapNonoverlapping x.2 (HashMapBuffer.byteRange i x.1).start (HashMapBuffer.byteRange j x.1).start x.1.size
        pure (x.1, col)) = (.ok (bareColumns l n).columns : Out _) := by
      have hz : ∀ x ∈ (bareColumns l n).columns, x.1.size = 0 ∧ x.2 = [] := by
        intro x hx
        obtain ⟨m, hm, rfl⟩ := List.mem_map.1 hx
        exact ⟨(member_bare hl hm).2, rfl⟩
      generalize (bareColumns l n).columns = xs at hz
      induction xs with
      | nil => rfl
      | cons x xs ih =>
        obtain ⟨h1, h2⟩ := hz x (by simp)
        rw [List.mapM_cons, ih fun y hy => hz y (by simp [hy])]
        obtain ⟨d, v⟩ := x
        obtain rfl : v = [] := h2
        unfold HashMapBuffer.byteRange
        simp only at h1 ⊢
        rw [h1, Nat.mul_zero, Nat.mul_zero]
        rfl
    show Except.bind (Except.ok ()) _ = _
    show Except.bind ((bareColumns l n).columns.mapM _) _ = _
    rw [this]
    rfl

theorem columns_consistent (n : Nat) : HashMapConsistent (bareColumns l n) := by
  refine ⟨by show (l.attributes.map _).map _ = _; rw [List.map_map]; rfl, fun kv hkv => ?_⟩
  obtain ⟨m, hm, rfl⟩ := List.mem_map.1 hkv
  have h3 : m.definition.size = 0 := (member_bare hl hm).2
  show 0 = n * m.definition.size
  rw [h3, Nat.mul_zero]

end

end Pasture
