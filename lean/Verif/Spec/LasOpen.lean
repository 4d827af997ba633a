import Verif.Spec.LasVlrs
import Verif.Spec.LasMetadata
import Verif.Model.LasOpen

/-!
# Specification: which LAS and LAZ files open
-/

namespace Pasture.Spec

open Las

/-- The names of the attributes of a reader: those of a record, and in memory the ones of the bit fields. -/
def namesInUse (n : Nat) (exact : Bool) : List String :=
  (lasItems n).map (·.1) ++ if exact then [] else ((lasItems n).flatMap expandItem).map (·.1)

/-- A file header of point format `n` with `extra` bytes behind the items of each record, and with VLRs whose lengths
    fit the field for it. -/
structure HeaderOf (n extra : Nat) (h : FileHeader) : Prop where
  known : n ≤ 10
  format : ∃ f, Format.new n = .ok f ∧ h.format = { f with extraBytes := extra }
  short : extra < 2 ^ 16
  lengths : ∀ v ∈ h.vlrs, v.data.length < 2 ^ 16

/-- The table of class names and the text of a file, if there are any, are well-formed. -/
def OtherVlrsFine (h : FileHeader) : Prop :=
  (∀ v, FirstVlr h.vlrs 0 v → v.data.length = 4096) ∧ ∀ v, FirstVlr h.vlrs 3 v → ∃ s, utf8 s = v.data

/-- LAS 1.4, table 24: a record of 192 bytes describes a value with this name and this code for the data type. Both texts
    of the record end before the first NUL and must be UTF-8. -/
structure RecordSays (record : Bytes) (value : String × Byte) : Prop where
  code : (record.drop 2).take 1 = [value.2]
  name : utf8 value.1 = ((record.drop 4).take 32).takeWhile (· ≠ 0)
  description : ∃ s, utf8 s = ((record.drop 160).take 32).takeWhile (· ≠ 0)

/-- The records of 192 bytes in the data of a VLR. -/
def extraRecords (data : Bytes) : List Bytes :=
  (List.range (data.length / 192)).map fun i => (data.drop (192 * i)).take 192

/-- LAS 1.4, table 25: how long a value with this code is; none for the deprecated, the reserved and the unspecified
    codes. -/
def codeLength (code : Byte) : Option Nat :=
  [(1, 1), (2, 1), (3, 2), (4, 2), (5, 4), (6, 4), (7, 8), (8, 8), (9, 4), (10, 8)].lookup code.toNat

/-- The values of each record that the first extra bytes VLR describes: their names and codes. Its bytes lie at a multiple
    of 8 in memory. -/
def Describes (h : FileHeader) (values : List (String × Byte)) : Prop :=
  NoVlr h.vlrs 4 ∧ values = [] ∨
    ∃ v, FirstVlr h.vlrs 4 v ∧ 192 ∣ v.data.length ∧ 8 ∣ v.dataAddr ∧ List.Forall₂ RecordSays (extraRecords v.data) values

/-- The described values with their lengths, if all of them have one. -/
def valueItems (values : List (String × Byte)) : Option (List (String × Nat)) :=
  values.mapM fun v => (codeLength v.2).map (v.1, ·)

/-- Descriptions the code does not cope with: two entries with the same name, an entry with a name that is in use, more
    described bytes than there are, and an entry with the name that bytes without a description get, if there are such
    bytes. -/
def Clashes (n extra : Nat) (exact : Bool) (items : List (String × Nat)) : Prop :=
  ¬ (items.map (·.1)).Nodup ∨ (∃ i ∈ items, i.1 ∈ namesInUse n exact) ∨ extra < (items.map (·.2)).sum ∨
    ((items.map (·.2)).sum < extra ∧ "UndescribedExtraBytes" ∈ items.map (·.1))

/-- Opening the file panics: the bytes of the extra bytes VLR happen to lie at an address that is not a multiple of 8,
    or the descriptions clash. -/
def OpeningPanics (n extra : Nat) (exact : Bool) (h : FileHeader) : Prop :=
  OtherVlrsFine h ∧
    ((∃ v, FirstVlr h.vlrs 4 v ∧ 192 ∣ v.data.length ∧ ¬ 8 ∣ v.dataAddr) ∨
      (0 < extra ∧ ∃ values items, Describes h values ∧ valueItems values = some items ∧
        Clashes n extra exact items))

/-- The file opens. -/
def OpeningSucceeds (n extra : Nat) (exact : Bool) (h : FileHeader) : Prop :=
  OtherVlrsFine h ∧ ∃ values, Describes h values ∧
    (extra = 0 ∨ ∃ items, valueItems values = some items ∧ ¬ Clashes n extra exact items)

end Pasture.Spec
