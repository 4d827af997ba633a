import Verif.Spec.LasWriter
import Verif.Spec.TwoSteps

/-!
# Specification: writing points in another layout, or converting them first
-/

namespace Pasture.Spec

open Pasture.Las

/-- A user writes a buffer between other calls and flushes at the end. -/
def writeAmong {β : Type} [BorrowedBuffer β] (encode : LasHeader → Bytes) (w : RawLasWriter) (before : List WriterCall)
    (buffer : β) (after : List WriterCall) : Out RawLasWriter := do
  let w ← runLas encode w before
  let w ← w.write buffer
  runLas encode w (after ++ [.flush])

/-- The headers differ at most in the numbers of points by return. -/
def SameButReturns (h h' : LasHeader) : Prop :=
  h' = { h with byReturn := h'.byReturn, legacyByReturn := h'.legacyByReturn }

/-- Two writers either both panicked, or they left files with the same bytes behind headers that differ at most in the
    numbers of points by return. -/
def SameFileButReturns (encode : LasHeader → Bytes) (a b : Out RawLasWriter) : Prop :=
  (a = .error .panic ∧ b = .error .panic) ∨
    ∃ u v rest, a = .ok u ∧ b = .ok v ∧ u.writer.data = encode u.header ++ rest ∧ v.writer.data = encode v.header ++ rest ∧
      SameButReturns u.header v.header

/-- The same for a LAZ writer. -/
def writeAmongLaz {β : Type} [BorrowedBuffer β] (w : RawLazWriter) (before : List Batch) (buffer : β) (after : List Batch) :
    Out RawLazWriter := do
  let w ← runLaz w before
  let w ← w.write buffer
  runLaz w after

/-- Two LAZ writers either both panicked, or they handed the same bytes to the compressor and have headers that differ at
    most in the numbers of points by return. -/
def SameLazButReturns (a b : Out RawLazWriter) : Prop :=
  (a = .error .panic ∧ b = .error .panic) ∨
    ∃ u v, a = .ok u ∧ b = .ok v ∧ v.handed = u.handed ∧ SameButReturns u.header v.header

end Pasture.Spec
