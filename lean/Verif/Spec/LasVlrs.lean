import Verif.Model.LasVlrs
import Verif.Spec.LasMetadata

/-!
# Specification: the variable length records of a LAS file

LAS 1.4: records of the user `LASF_Spec` with the ids 0 (class names), 3 (text) and 4 (extra bytes). The class names are 256
entries of 16 bytes: the number of the class and a text of up to 15 bytes, filled up with NUL.
-/

namespace Pasture.Spec

open Las

/-- The record has the meaning that the LAS specification gives to this id. -/
def KnownVlr (id : BitVec 16) (v : Vlr) : Prop := v.userId = "LASF_Spec" ∧ v.recordId = id

/-- The first record of a kind. -/
def FirstVlr (vlrs : List Vlr) (id : BitVec 16) (v : Vlr) : Prop :=
  ∃ before after, vlrs = before ++ v :: after ∧ KnownVlr id v ∧ ∀ u ∈ before, ¬KnownVlr id u

/-- There is no record of a kind. -/
def NoVlr (vlrs : List Vlr) (id : BitVec 16) : Prop := ∀ u ∈ vlrs, ¬KnownVlr id u

/-- Text that is valid is kept by a lossy decoder. -/
def KeepsText (lossy : Bytes → String) : Prop := ∀ s, lossy (utf8 s) = s

/-- The table of class names, as bytes. -/
def classTable (entries : List (Byte × String)) : Bytes := entries.flatMap fun e => e.1 :: textField e.2 15

end Pasture.Spec
