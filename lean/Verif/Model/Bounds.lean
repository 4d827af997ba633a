import Verif.Model.ConvertingView

/-!
# Model of `pasture-core/src/math/{bounds,minmax}.rs` and of `pasture-algorithms/src/{minmax,bounds}.rs`

`AABB<T>` is generic over types with Rust's comparison operators: class `Cmp`. It has instances for the
integers and for floats (`Model/Float.lean`), where every comparison with a NaN is false.
-/

namespace Pasture

open BorrowedBuffer

/-- `PartialOrd`: the operators `<` and `<=`. `a > b` is `b < a`, `a >= b` is `b <= a`. -/
class Cmp (α : Type) where
  lt : α → α → Bool
  le : α → α → Bool

instance : Cmp Int where
  lt a b := decide (a < b)
  le a b := decide (a ≤ b)

instance {F : FloatFormat} : Cmp (Flt F) where
  lt := Flt.lt
  le := Flt.le

/-- `Point3<T>` and `Vector3<T>`. -/
structure P3 (α : Type) where
  x : α
  y : α
  z : α
  deriving DecidableEq, Repr

/-- `AABB<T>`, bounds.rs:7-12. -/
structure AABB (α : Type) where
  min : P3 α
  max : P3 α
  deriving DecidableEq, Repr

namespace AABB

variable {α : Type} [Cmp α]

open Cmp

/-- `from_min_max`, bounds.rs:21-26. -/
def fromMinMax (mn mx : P3 α) : Out (AABB α) :=
  if lt mx.x mn.x || lt mx.y mn.y || lt mx.z mn.z then panicked else .ok ⟨mn, mx⟩

/-- `intersects`, bounds.rs:77-81. -/
def intersects (a b : AABB α) : Bool :=
  (le a.min.x b.max.x && le b.min.x a.max.x)
    && (le a.min.y b.max.y && le b.min.y a.max.y)
    && (le a.min.z b.max.z && le b.min.z a.max.z)

/-- `contains`, bounds.rs:90-97. -/
def contains (b : AABB α) (p : P3 α) : Bool :=
  le b.min.x p.x && le p.x b.max.x && le b.min.y p.y && le p.y b.max.y && le b.min.z p.z && le p.z b.max.z

/-- `if a < b { a } else { b }`. -/
def smaller (a b : α) : α := if lt a b then a else b

/-- `if a > b { a } else { b }`. -/
def larger (a b : α) : α := if lt b a then a else b

/-- `union`, bounds.rs:109-122. -/
def union (a b : AABB α) : AABB α :=
  ⟨⟨smaller a.min.x b.min.x, smaller a.min.y b.min.y, smaller a.min.z b.min.z⟩,
   ⟨larger a.max.x b.max.x, larger a.max.y b.max.y, larger a.max.z b.max.z⟩⟩

/-- `extend_with_point`, bounds.rs:132-169. -/
def extendWithPoint (b : AABB α) (p : P3 α) : AABB α :=
  ⟨⟨smaller b.min.x p.x, smaller b.min.y p.y, smaller b.min.z p.z⟩,
   ⟨larger b.max.x p.x, larger b.max.y p.y, larger b.max.z p.z⟩⟩

/-- `f64::MAX`. -/
def f64Max : F64 := ⟨false, FloatFormat.f64.infMag - 1⟩

/-- `f64::MIN`. -/
def f64Min : F64 := ⟨true, FloatFormat.f64.infMag - 1⟩

/-- Body of the loop of `from_iter`, bounds.rs:273-282. -/
def fromIterStep (acc : P3 F64 × P3 F64) (p : P3 F64) : P3 F64 × P3 F64 :=
  (⟨smaller acc.1.x p.x, smaller acc.1.y p.y, smaller acc.1.z p.z⟩,
   ⟨larger acc.2.x p.x, larger acc.2.y p.y, larger acc.2.z p.z⟩)

/-- `from_iter`, bounds.rs:268-285. -/
def fromIter (ps : List (P3 F64)) : Out (AABB F64) :=
  let (mn, mx) := ps.foldl fromIterStep (⟨f64Max, f64Max, f64Max⟩, ⟨f64Min, f64Min, f64Min⟩)
  fromMinMax mn mx

end AABB

/-- The types `T` with `PrimitiveType` and `MinMax`: the scalars and `Vector3` of a scalar
    (point_layout.rs:186-280 lists the attribute types; minmax.rs:50-108). -/
inductive ValueType where
  | scalar (p : Prim)
  | vec3u8 | vec3u16 | vec3i32 | vec3f32 | vec3f64
  deriving DecidableEq, Repr

namespace ValueType

/-- `T::data_type()`. -/
def dataType : ValueType → DataType
  | scalar p => p.dataType
  | vec3u8 => .vec3u8 | vec3u16 => .vec3u16 | vec3i32 => .vec3i32 | vec3f32 => .vec3f32
  | vec3f64 => .vec3f64

/-- The type of the components. -/
def prim : ValueType → Prim
  | scalar p => p
  | vec3u8 => .u8 | vec3u16 => .u16 | vec3i32 => .i32 | vec3f32 => .f32 | vec3f64 => .f64

/-- The number of components. -/
def count : ValueType → Nat
  | scalar _ => 1
  | _ => 3

/-- The components of the value with the given bytes. -/
def read (t : ValueType) (v : Bytes) : List Num :=
  (List.range t.count).map fun i => readNum t.prim (Converter.component t.prim.size i v)

end ValueType

/-- `a < b` for two values of the same primitive type. -/
def Num.lt : Num → Num → Bool
  | .int a, .int b => decide (a < b)
  | .single a, .single b => Flt.lt a b
  | .double a, .double b => Flt.lt a b
  | _, _ => false

/-- `infimum` of scalars, minmax.rs:38-40, 58-65, 76-83. (`cmp::min` of equal integers may return
    either.) -/
def Num.infimum (a b : Num) : Num := if Num.lt a b then a else b

/-- `supremum` of scalars, minmax.rs:42-44, 67-73, 85-91. -/
def Num.supremum (a b : Num) : Num := if Num.lt b a then a else b

/-- What a `for` loop over an iterator with `n` elements sees: `next` returns the elements at
    0, 1, ... until `current_index == n` (`iterNext`). -/
def iterAll {α : Type} (n : Nat) (get : Nat → Out α) : Out (List α) := (List.range n).mapM get

/-- The values of `for val in view` for an attribute view, attribute_iterators.rs:19-55. -/
def AttributeView.values {β : Type} [BorrowedBuffer β] (b : β) (v : AttributeView) : Out (List Bytes) := do
  let m ← expectSome ((layout b).getAttribute v.member.definition)
  iterAll (len b) fun i => getAttributeUnchecked b m i (zeros v.datatype.size)

/-- The values of `for val in view` for a converting view, buffer_views.rs:617-636. -/
def ConvertingView.values {β : Type} [BorrowedBuffer β] (b : β) (v : ConvertingView) : Out (List Bytes) :=
  iterAll (len b) (ConvertingView.get b v)

/-- Body of the loop of `minmax_attribute`, pasture-algorithms/src/minmax.rs:30-37, 40-47. `infimum` and
    `supremum` of vectors are componentwise (minmax.rs:94-108). -/
def minmaxStep (acc : Option (List Num × List Num)) (val : List Num) : Option (List Num × List Num) :=
  match acc with
  | none => some (val, val)
  | some (oldMin, oldMax) =>
    some (List.zipWith Num.infimum val oldMin, List.zipWith Num.supremum val oldMax)

/-- `minmax_attribute::<T>`, pasture-algorithms/src/minmax.rs:13-51. -/
def minmaxAttribute {β : Type} [BorrowedBuffer β] (b : β) (t : ValueType) (d : AttrDef) :
    Out (Option (List Num × List Num)) := do
  assertThat ((layout b).hasAttributeWithName d.name)
  if t.dataType = d.datatype then
    let v ← AttributeView.new b t.dataType d
    let xs ← v.values b
    pure ((xs.map t.read).foldl minmaxStep none)
  else
    match ConvertingView.new b t.dataType d with
    | .error .err => pure none
    | .error f => .error f
    | .ok v =>
      let xs ← v.values b
      pure ((xs.map t.read).foldl minmaxStep none)

/-- `POSITION_3D`, point_layout.rs: name "Position3D", `Vec3f64`. -/
def position3D : AttrDef := ⟨"Position3D", .vec3f64⟩

/-- A `Vector3<f64>` from its bytes. -/
def readVec3F64 (v : Bytes) : P3 F64 :=
  let c := fun i => Flt.ofBits .f64 (leNat (Converter.component 8 i v))
  ⟨c 0, c 1, c 2⟩

/-- Body of the loops of pasture-algorithms/src/bounds.rs:34-53, 66-85: `if pos.x < pos_min.x { .. }`. -/
def boundsStep (acc : P3 F64 × P3 F64) (p : P3 F64) : P3 F64 × P3 F64 :=
  (⟨if Flt.lt p.x acc.1.x then p.x else acc.1.x, if Flt.lt p.y acc.1.y then p.y else acc.1.y,
    if Flt.lt p.z acc.1.z then p.z else acc.1.z⟩,
   ⟨if Flt.lt acc.2.x p.x then p.x else acc.2.x, if Flt.lt acc.2.y p.y then p.y else acc.2.y,
    if Flt.lt acc.2.z p.z then p.z else acc.2.z⟩)

/-- The shared part of pasture-algorithms/src/bounds.rs:31-55 and 57-87. -/
def boundsOfPositions (xs : List Bytes) : Out (AABB F64) :=
  let (mn, mx) := (xs.map readVec3F64).foldl boundsStep
    (⟨AABB.f64Max, AABB.f64Max, AABB.f64Max⟩, ⟨AABB.f64Min, AABB.f64Min, AABB.f64Min⟩)
  AABB.fromMinMax mn mx

/-- `calculate_bounds`, pasture-algorithms/src/bounds.rs:11-29. -/
def calculateBounds {β : Type} [BorrowedBuffer β] (b : β) : Out (Option (AABB F64)) := do
  if len b = 0 then pure none
  else
    match (layout b).getAttributeByName position3D.name with
    | none => pure none
    | some m =>
      if m.datatype = position3D.datatype then
        let v ← AttributeView.new b .vec3f64 position3D
        let xs ← v.values b
        let r ← boundsOfPositions xs
        pure (some r)
      else
        match ConvertingView.new b .vec3f64 position3D with
        | .error .err => pure none
        | .error f => .error f
        | .ok v =>
          let xs ← v.values b
          let r ← boundsOfPositions xs
          pure (some r)

end Pasture
