import Verif.Model.Numbers
import Verif.Spec.Points

/-!
# Specification: converting attribute values and points

Which value a conversion produces, and which target attribute is filled from which source attribute.
What `readNum`, `asNum` and `writeNum` mean is settled by `Spec/Numbers.lean`, `C25_*` and `C63_*`.
-/

namespace Pasture.Spec

/-- The number type of a scalar attribute. -/
def scalarType : DataType → Option Prim
  | .u8 => some .u8 | .i8 => some .i8 | .u16 => some .u16 | .i16 => some .i16 | .u32 => some .u32
  | .i32 => some .i32 | .u64 => some .u64 | .i64 => some .i64 | .f32 => some .f32 | .f64 => some .f64
  | _ => none

/-- The number type of the components of a vector attribute. -/
def componentType : DataType → Option Prim
  | .vec3u8 => some .u8 | .vec3u16 => some .u16 | .vec3i32 => some .i32 | .vec3f32 => some .f32
  | .vec3f64 => some .f64
  | _ => none

/-- One number, converted as by `as`. -/
def convertNumber (p q : Prim) (v : Bytes) : Bytes := writeNum q (asNum q (readNum p v))

/-- Three numbers one after the other. -/
def convertVector (p q : Prim) (v : Bytes) : Bytes :=
  convertNumber p q (window v 0 p.size) ++ convertNumber p q (window v p.size p.size) ++
    convertNumber p q (window v (2 * p.size) p.size)

/-- How values of type `a` become values of type `b`, if they can. -/
def conversion (a b : DataType) : Option (Bytes → Bytes) :=
  if a = b then some id
  else match scalarType a, scalarType b, componentType a, componentType b with
    | some p, some q, _, _ => some (convertNumber p q)
    | _, _, some p, some q => some (convertVector p q)
    | _, _, _, _ => none

/-- Where the value of a target attribute comes from: a source attribute and a function. -/
structure Rule where
  source : AttrDef
  value : Bytes → Bytes

/-- For each target attribute, the rule that fills it (or none: it keeps its value). -/
abbrev Plan := AttrDef → Option Rule

/-- Without customisation: from the source attribute of the same name, by conversion. -/
def defaultPlan (source : PointLayout) : Plan := fun d =>
  match source.attributes.find? (fun m => m.name = d.name) with
  | some m => (conversion m.datatype d.datatype).map fun f => ⟨m.definition, f⟩
  | none => none

/-- Only from source attributes of the same name with *another* datatype. -/
def differentTypesPlan (source : PointLayout) : Plan := fun d =>
  match source.attributes.find? (fun m => m.name = d.name) with
  | some m => if m.datatype = d.datatype then none
    else (conversion m.datatype d.datatype).map fun f => ⟨m.definition, f⟩
  | none => none

/-- The layout has an attribute of that name. -/
def named (source : PointLayout) (name : String) : Prop := ∃ m ∈ source.attributes, m.name = name

/-- A call that customises one target attribute. -/
inductive MappingCall where
  | plain (source target : AttrDef)
  | transformed (source target : AttrDef) (ty : DataType) (f : Bytes → Bytes) (onSource : Bool)

namespace MappingCall

def source : MappingCall → AttrDef
  | plain s _ => s
  | transformed s .. => s

def target : MappingCall → AttrDef
  | plain _ t => t
  | transformed _ t .. => t

/-- The rule a call asks for: convert, with the transformation before or after. -/
def rule (c : MappingCall) : Option Rule :=
  (conversion c.source.datatype c.target.datatype).map fun conv =>
    match c with
    | plain s _ => ⟨s, conv⟩
    | transformed s _ _ f true => ⟨s, fun v => conv (f v)⟩
    | transformed s _ _ f false => ⟨s, fun v => f (conv v)⟩

/-- The type of the transformation is that of the attribute it is applied to. -/
def typed : MappingCall → Prop
  | plain _ _ => True
  | transformed s _ ty _ true => ty = s.datatype
  | transformed _ t ty _ false => ty = t.datatype

/-- A function on values of type `ty` gives values of type `ty`. -/
def sound : MappingCall → Prop
  | plain _ _ => True
  | transformed _ _ ty f _ => ∀ v : Bytes, v.length = ty.size → (f v).length = ty.size

/-- When a call is accepted. -/
def allowed (source target : PointLayout) (c : MappingCall) : Prop :=
  c.source ∈ source.attributes.map Member.definition ∧ c.target ∈ target.attributes.map Member.definition ∧
    c.typed ∧ c.rule.isSome

end MappingCall

/-- The plan after a call: only the call's target attribute is affected. -/
def Plan.update (plan : Plan) (c : MappingCall) : Plan := fun d => if d = c.target then c.rule else plan d

/-- A target point after a source point was converted into it. -/
def Plan.apply (plan : Plan) (source target : Point) : Point :=
  target.map fun (d, old) =>
    (d, match plan d with
      | some r => match source.get r.source with
        | some v => r.value v
        | none => old
      | none => old)

/-- The points of the target after converting the points `sr` of the source into the points `tr`. -/
def Plan.convert (plan : Plan) (source : List Point) (sr : Rng) (target : List Point) (tr : Rng) :
    List Point :=
  target.mapIdx fun j p =>
    if tr.start ≤ j ∧ j < tr.stop then
      match source[sr.start + (j - tr.start)]? with
      | some s => plan.apply s p
      | none => p
    else p

end Pasture.Spec
