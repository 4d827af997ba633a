import Verif.Model.LasMetadata
import Verif.Spec.Las
import Verif.Spec.Points

/-! # Specification: text fields and extra bytes of LAS files -/

namespace Pasture.Spec

open Las

/-- A text that an `n` byte field can hold: at most `n` bytes of UTF-8 and no NUL. -/
def TextFits (s : String) (n : Nat) : Prop := (utf8 s).length ≤ n ∧ (0 : Byte) ∉ utf8 s

instance (s : String) (n : Nat) : Decidable (TextFits s n) := by unfold TextFits; infer_instance

/-- LAS 1.4, table 25: codes 11 to 30 are deprecated, from 31 on reserved. -/
def TypeFits : ExtraType → Prop
  | .deprecated v => 11 ≤ v.toNat ∧ v.toNat ≤ 30
  | .reserved v => 31 ≤ v.toNat
  | _ => True

instance (t : ExtraType) : Decidable (TypeFits t) := by unfold TypeFits; cases t <;> infer_instance

/-- An entry that an extra bytes record can hold. -/
structure EntryFits (e : ExtraEntry) : Prop where
  type : TypeFits e.dataType
  name : TextFits e.name 32
  description : TextFits e.description 32
  min : e.minValue.length = 8
  max : e.maxValue.length = 8
  noData : e.noDataValue.length = 8

/-- A text in a field of `n` bytes, filled up with NUL. -/
def textField (s : String) (n : Nat) : Bytes := utf8 s ++ zeros (n - (utf8 s).length)

/-- LAS 1.4, table 24: what lies where in the 192 bytes of an extra bytes record (the three values and
    scale and offset are the first elements of what used to be triples; the rest is zero). -/
def extraRecord (e : ExtraEntry) : List (Nat × Bytes) :=
  [(0, zeros 2), (2, [e.dataType.toU8]), (3, [e.options]), (4, textField e.name 32), (36, zeros 4),
   (40, e.noDataValue), (48, zeros 16), (64, e.minValue), (72, zeros 16), (88, e.maxValue), (96, zeros 16),
   (112, natLE 8 e.scale.toNat), (120, zeros 16), (136, natLE 8 e.offset.toNat), (144, zeros 16),
   (160, textField e.description 32)]

/-- The attribute an entry describes; none for data types without a documented meaning. -/
def describedItem (e : ExtraEntry) : Option (String × Nat) := e.dataType.size.map fun n => (e.name, n)

end Pasture.Spec
