import Verif.Spec.Pnts

/-!
# Specification: input that is not as it should be
-/

namespace Pasture.Spec

/-- The call returns: a value or an error. -/
def Returns {α : Type} (x : Out α) : Prop := (∃ a, x = .ok a) ∨ x = .error .err

namespace Pnts

open Tiles3d

/-- The feature table of a `.pnts` file: the object behind the header. -/
def tableOf (J : JsonText) (file : Bytes) : Option (List (String × Json)) :=
  match J.fromText (window file 28 (field file 3)) with
  | some (.object es) => some es
  | _ => none

/-- Where the values of an attribute begin in the file, according to its feature table. -/
def columnStart (J : JsonText) (file : Bytes) (semantic : String) : Option Nat :=
  match (tableOf J file).bind fun es => es.lookup semantic with
  | some (.object es) =>
    match es.lookup "byteOffset" with
    | some (.int z) => some (28 + field file 3 + z.toNat)
    | _ => none
  | _ => none

/-- The points of a file that has `n`: attribute for attribute, the values that are stored one behind the other. -/
def pointsOf (J : JsonText) (file : Bytes) (n : Nat) : List Point :=
  (List.range n).map fun k => semantics.filterMap fun s =>
    (columnStart J file s.1).map fun o => (s.2, window file (o + k * s.2.size) s.2.size)

/-- A file that cannot be read: too short, not a `.pnts` file, without a feature table, or without a number of points. -/
def Unreadable (J : JsonText) (file : Bytes) : Prop :=
  file.length < 28 ∨ window file 0 4 ≠ [0x70#8, 0x6e#8, 0x74#8, 0x73#8] ∨ file.length < 28 + field file 3 ∨
    tableOf J file = none ∨ ∃ es, tableOf J file = some es ∧ ∀ z : Nat, es.lookup "POINTS_LENGTH" ≠ some (.int z)

/-- The file with its point values. -/
def Complete (J : JsonText) (file : Bytes) (n : Nat) : Prop :=
  ∀ s ∈ semantics, ∀ o, columnStart J file s.1 = some o → o + n * s.2.size ≤ file.length

end Pnts

end Pasture.Spec
