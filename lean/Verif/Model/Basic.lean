/-!
# Shared vocabulary of the model

Conventions (see DESIGN.md, section 1):

* a Rust panic is `Except.error Fault.panic`, a returned `Err(..)` is
  `Except.error Fault.err`, and an access the Rust code performs through a raw
  pointer outside its allocation is `Except.error Fault.ub`;
* memory is `List Byte`;
* `a..b` is `Rng`.
-/

namespace Pasture

/-- How a modelled Rust function can fail. -/
inductive Fault where
  | panic
  | err
  | ub
  deriving DecidableEq, Repr

/-- Result of a modelled Rust function. -/
abbrev Out (α : Type) := Except Fault α

deriving instance DecidableEq for Except

/-- A Rust panic. -/
def panicked {α : Type} : Out α := .error .panic

/-- `assert!(b)`. -/
def assertThat (b : Bool) : Out Unit := if b then .ok () else panicked

/-- `Option::expect` / `Option::unwrap`. -/
def expectSome {α : Type} : Option α → Out α
  | some a => .ok a
  | none => panicked

/-- One byte. -/
abbrev Byte := BitVec 8

/-- A byte buffer (`[u8]`, `Vec<u8>`). -/
abbrev Bytes := List Byte

/-- `n` zero bytes (`vec![0; n]`). -/
def zeros (n : Nat) : Bytes := List.replicate n 0

/-- `std::ops::Range<usize>`. -/
structure Rng where
  start : Nat
  stop : Nat
  deriving DecidableEq, Repr

namespace Rng
/-- `Range::len` (0 for an inverted range). -/
def len (r : Rng) : Nat := r.stop - r.start
/-- The indices a `for i in a..b` loop visits. -/
def toList (r : Rng) : List Nat := List.range' r.start (r.stop - r.start)
end Rng

/-- `&data[start..stop]`: panics when `start > stop` or `stop > data.len()`. -/
def sliceGet {α : Type} (data : List α) (start stop : Nat) : Out (List α) :=
  if start ≤ stop ∧ stop ≤ data.length then
    .ok ((data.drop start).take (stop - start))
  else panicked

/-- Overwrite `data` from position `start` on with `src` (only used in range). -/
def put {α : Type} (data : List α) (start : Nat) (src : List α) : List α :=
  data.take start ++ src ++ data.drop (start + src.length)

/-- `data[start..stop].copy_from_slice(src)`: panics when the range is not inside `data`
    or the lengths differ. -/
def slicePut {α : Type} (data : List α) (start stop : Nat) (src : List α) : Out (List α) :=
  if start ≤ stop ∧ stop ≤ data.length ∧ src.length = stop - start then
    .ok (put data start src)
  else panicked

/-- `dst.copy_from_slice(src)` for whole slices: panics when the lengths differ. -/
def copyFromSlice {α : Type} (dst src : List α) : Out (List α) :=
  if src.length = dst.length then .ok src else panicked

/-- `Vec::resize(n, 0)`. -/
def vecResize {α : Type} (d : List α) (n : Nat) (zero : α) : List α :=
  d.take n ++ List.replicate (n - d.length) zero

/-- A `for x in xs { s = body(s, x) }` loop that may fail. -/
def forLoop {α σ : Type} (xs : List α) (s : σ) (body : σ → α → Out σ) : Out σ :=
  xs.foldlM body s

end Pasture
