import Verif.Spec.LasWriter

/-!
# Where the extended variable length records of a file are
-/

namespace Pasture.Spec
open Pasture.Las

/-- A reader that starts at the byte `start` of the file finds these extended records, up to the end of the file. -/
def EvlrsAt (file : Bytes) (start : Nat) (evlrs : Bytes) : Prop := start ≤ file.length ∧ file.drop start = evlrs

/-- The byte at which the extended records start if `points` records of format `n` come before them. -/
def afterPoints (H : Nat) (vlrs : Bytes) (n points : Nat) : Nat := H + vlrs.length + points * lasRecordLength n

end Pasture.Spec
