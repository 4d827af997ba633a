import Verif.Spec.LasReader

/-!
# Specification: truncated LAS and LAZ files

A file is cut off somewhere behind its header: after some number of bytes (LAS), or so that only some number of
records can be decompressed (LAZ). The header still promises all the points.
-/

namespace Pasture.Spec

open Pasture.Las

/-- Streams that can be cut off. -/
class Truncates (σ : Type) where
  /-- The stream without everything behind `k`. -/
  cut : (k : Nat) → σ → σ
  /-- The first `m` records, of `size` bytes each from byte `offset` on, lie before `k`. -/
  complete : (k offset size m : Nat) → Prop

/-- Cut off after `k` bytes, possibly in the middle of a record. -/
instance : Truncates Stream where
  cut k s := { s with data := s.data.take k }
  complete k offset size m := offset + m * size ≤ k

/-- Cut off so that `k` records are left. -/
instance : Truncates LazStream where
  cut k s := { s with records := s.records.take k }
  complete k _ _ m := m ≤ k

/-- The same reader, on the file cut off at `k`. -/
def _root_.Pasture.Las.RawReader.cut {σ : Type} [Truncates σ] (k : Nat) (r : RawReader σ) : RawReader σ :=
  { r with reader := Truncates.cut k r.reader }

/-- The first `m` records of the file lie before `k`. -/
def Complete {σ : Type} [Truncates σ] (k : Nat) (r : RawReader σ) (m : Nat) : Prop :=
  Truncates.complete σ k r.offsetToFirstPoint r.sizeOfPoint m

/-- A call `read_into(b, count)` on a reader before record `i` of a file that was cut off at `k` did what it should: if
    the records to read are there, it read them (`ReadCorrectly`, for the file as it was), otherwise it failed. -/
def ReadTruncated {σ β : Type} [StoresRecords σ] [Truncates σ] [BorrowedBuffer β] (k : Nat) (r : RawReader σ)
    (recs : List Bytes) (i : Nat) (target : PointLayout) (qs : List Point) (count : Nat) (consistent : β → Prop)
    (out : Out (Nat × β × RawReader σ)) : Prop :=
  (min count (recs.length - i) = 0 ∨ Complete k r (i + min count (recs.length - i)) →
    ∃ b' r', out = .ok (min count (recs.length - i), b', r'.cut k) ∧
      ReadCorrectly r recs i target qs count consistent (.ok (min count (recs.length - i), b', r'))) ∧
  (min count (recs.length - i) ≠ 0 → ¬ Complete k r (i + min count (recs.length - i)) → out = .error .err)

/-- Where the reads of a sequence of calls end that have something to read, for a file that promises `n` records,
    from record `i` on. -/
def readEnds (n : Nat) : Nat → List ReaderCall → List Nat
  | _, [] => []
  | i, .read k :: calls =>
    (if min k (n - i) = 0 then [] else [i + min k (n - i)]) ++ readEnds n (i + min k (n - i)) calls
  | i, .seek p :: calls => readEnds n (min (p.wanted n i).toNat n) calls

end Pasture.Spec
