import Verif.Spec.LasWriter
import Verif.Spec.Pnts
import Verif.Model.FailedWrites

/-!
# Specification: going on after failed writes

A program that catches the failure of `write` (an error, or a panic with `catch_unwind`) and goes on with the writer.
-/

namespace Pasture.Spec

open Pasture.Las

/-- The writer after a call of `write`, whether it succeeded or not. -/
def goOn {ω : Type} : Left ω ω → ω
  | .ok w => w
  | .error (_, w) => w

/-- Perform the calls on a LAS writer, going on after failures. -/
def goOnLas (encode : LasHeader → Bytes) (w : RawLasWriter) (calls : List WriterCall) : RawLasWriter :=
  calls.foldl (fun w call =>
    match call with
    | .write b => goOn (w.writeLeft b.buffer)
    | .flush => w.flush encode) w

/-- Perform the writes on a LAZ writer, going on after failures. -/
def goOnLaz (w : RawLazWriter) (bs : List Batch) : RawLazWriter :=
  bs.foldl (fun w b => goOn (w.writeLeft b.buffer)) w

/-- Perform the calls on a PNTS writer, going on after failures of `write`. -/
def goOnPnts (J : Tiles3d.JsonText) (order : Tiles3d.Converters → Tiles3d.Converters) :
    Tiles3d.PntsWriter → List WriterCall → Out Tiles3d.PntsWriter
  | w, [] => .ok w
  | w, .write b :: calls => goOnPnts J order (goOn (w.writeLeft order b.buffer)) calls
  | w, .flush :: calls => do
    let w ← w.flush J
    goOnPnts J order w calls

/-- The call is a flush or a write of points of the layout. -/
def WriterCall.fits (l : PointLayout) : WriterCall → Bool
  | .write b => decide (b.layout = l)
  | .flush => true

/-- The point can be stored. -/
def storable (n : Nat) (t : Transforms) (p : Point) : Bool := (storedRecord n t p).isSome

/-- All points of the batch can be stored: its write succeeds (C85). -/
def Batch.accepted (n : Nat) (t : Transforms) (b : Batch) : Bool := b.points.all (storable n t)

/-- The points before the first one that cannot be stored. -/
def Batch.beforeRefusal (n : Nat) (t : Transforms) (b : Batch) : List Point := b.points.takeWhile (storable n t)

/-- The points of the batch that get into a LAZ file: all if they can be stored, else those of the chunks of 50000 points
    before the one with the first point that cannot. -/
def Batch.compressed (n : Nat) (t : Transforms) (b : Batch) : List Point :=
  if b.accepted n t then b.points
  else (b.beforeRefusal n t).take ((b.beforeRefusal n t).length / 50000 * 50000)

/-- The call succeeds. -/
def WriterCall.accepted (n : Nat) (t : Transforms) : WriterCall → Bool
  | .write b => b.accepted n t
  | .flush => true

end Pasture.Spec
