/-!
# Specification: how a C-like struct is laid out

Independent of the code under study. These are the rules of the Rust reference for
`#[repr(C)]` and `#[repr(C, packed(N))]` structs.
-/

namespace Pasture.Spec

/-- `r` is the least multiple of `a` that is not below `x`. -/
def IsLeastMultiple (x a r : Nat) : Prop :=
  a ∣ r ∧ x ≤ r ∧ ∀ r', a ∣ r' → x ≤ r' → r ≤ r'

/-- A struct field as the layout rules see it. -/
structure Field where
  size : Nat
  align : Nat

/-- `Placed start fields offsets stop`: placing `fields` one after the other from byte `start`,
    each at the least multiple of its alignment that is not below the end of its predecessor,
    gives `offsets`, and the last field ends at `stop`. -/
inductive Placed : Nat → List Field → List Nat → Nat → Prop
  | nil (e : Nat) : Placed e [] [] e
  | cons {e off e' : Nat} {f : Field} {fs : List Field} {offs : List Nat} :
      IsLeastMultiple e f.align off → Placed (off + f.size) fs offs e' →
      Placed e (f :: fs) (off :: offs) e'

/-- `align` is the largest alignment of the fields, and 1 if there are none. -/
def IsMaxAlign (fields : List Field) (align : Nat) : Prop :=
  1 ≤ align ∧ (∀ f ∈ fields, f.align ≤ align) ∧ (align = 1 ∨ ∃ f ∈ fields, f.align = align)

/-- The `repr(C)` rule: field offsets, struct size and struct alignment. -/
def StructLayout (fields : List Field) (offsets : List Nat) (size align : Nat) : Prop :=
  ∃ stop, Placed 0 fields offsets stop ∧ IsMaxAlign fields align ∧ IsLeastMultiple stop align size

/-- The `repr(C, packed(n))` rule: every field alignment is capped at `n`. -/
def PackedStructLayout (n : Nat) (fields : List Field) (offsets : List Nat) (size align : Nat) :
    Prop :=
  StructLayout (fields.map fun f => ⟨f.size, min n f.align⟩) offsets size align

/-- A Rust struct with `repr(C)`, optionally `packed(n)` and/or `align(m)` (`m = 1` if absent). -/
def RustStructLayout (packed : Option Nat) (alignAtLeast : Nat) (fields : List Field)
    (offsets : List Nat) (size align : Nat) : Prop :=
  let fields' := fields.map fun f => (⟨f.size, match packed with
    | some n => min n f.align
    | none => f.align⟩ : Field)
  ∃ stop a0, Placed 0 fields' offsets stop ∧ IsMaxAlign fields' a0 ∧
    align = max a0 alignAtLeast ∧ IsLeastMultiple stop align size

end Pasture.Spec
