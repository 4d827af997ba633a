import Verif.Spec.LasMetadata
import Verif.Spec.LasWriter

/-!
# Specification: records with extra bytes

A record of a file with extra bytes is a record of the point format followed by the described values.
-/

namespace Pasture.Spec

open Pasture.Las

/-- The attribute an extra bytes entry describes: its name, and the type with its code; none for codes without a
    documented type. -/
def extraAttribute (e : ExtraEntry) : Option AttrDef :=
  match e.dataType with
  | .u8 => some ⟨e.name, .u8⟩ | .i8 => some ⟨e.name, .i8⟩
  | .u16 => some ⟨e.name, .u16⟩ | .i16 => some ⟨e.name, .i16⟩
  | .u32 => some ⟨e.name, .u32⟩ | .i32 => some ⟨e.name, .i32⟩
  | .u64 => some ⟨e.name, .u64⟩ | .i64 => some ⟨e.name, .i64⟩
  | .f32 => some ⟨e.name, .f32⟩ | .f64 => some ⟨e.name, .f64⟩
  | .undocumented | .deprecated _ | .reserved _ => none

/-- The number of bytes attributes take up. -/
def bytesOf (ds : List AttrDef) : Nat := (ds.map AttrDef.size).sum

/-- The names point format `n` uses itself: those of the items of a record and of the attributes in memory, and the
    name of the flags of the other formats. -/
def takenNames (n : Nat) : List String :=
  (lasItems n).map (·.1) ++ ((lasItems n).flatMap expandItem).map (·.1) ++ ["LASBasicFlags"]

/-- The names of extra attributes differ from each other and from those of the point format. -/
def OwnNames (n : Nat) (ds : List AttrDef) : Prop :=
  (ds.map AttrDef.name).Nodup ∧ ∀ d ∈ ds, d.name ∉ takenNames n

instance (n : Nat) (ds : List AttrDef) : Decidable (OwnNames n ds) := by unfold OwnNames; infer_instance

/-- The values of attributes that lie one after another in `rec`, from byte `o` on. -/
def valuesFrom (o : Nat) (ds : List AttrDef) (rec : Bytes) : Point :=
  match ds with
  | [] => []
  | d :: ds => (d, window rec o d.size) :: valuesFrom (o + d.size) ds rec

end Pasture.Spec
