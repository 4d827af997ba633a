import Verif.Model.ViewAddress
import Verif.Spec.Observe

/-! # Specification: where values lie, and references to them -/

namespace Pasture.Spec

/-- `T` is a type of Rust: its alignment is positive and divides its size. -/
structure Pod.Valid (t : Pod) : Prop where
  align_pos : 0 < t.align
  divides : t.align ∣ t.size

/-- References to the values `rs` of `size` bytes each, which lie one after the other from `addr` on. -/
def references (addr size : Nat) (rs : List Bytes) : List Mem :=
  rs.mapIdx fun i r => ⟨addr + i * size, r⟩

/-- The memory of value `i` and of the values in a range, as a buffer returns it: the values `rs` lie one
    after the other from `addr` on. Memory of no values is a whole number of values away from `addr`. -/
structure Lies (one : Nat → Out Mem) (many : Rng → Out Mem) (size addr : Nat) (rs : List Bytes) : Prop where
  sizes : ∀ r ∈ rs, r.length = size
  one_eq : ∀ i r, rs[i]? = some r → one i = .ok ⟨addr + i * size, r⟩
  many_eq : ∀ s e, s < e → e ≤ rs.length →
    many ⟨s, e⟩ = .ok ⟨addr + s * size, ((rs.drop s).take (e - s)).flatten⟩
  many_empty : ∀ s, s ≤ rs.length → ∃ k, s ≤ k ∧ many ⟨s, s⟩ = .ok ⟨addr + k * size, []⟩

/-- No memory is returned for the values from `n` on. -/
def RefusesFrom (one : Nat → Out Mem) (n : Nat) : Prop := ∀ i, n ≤ i → one i = .error .panic

end Pasture.Spec
