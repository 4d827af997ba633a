import Verif.Model.Layout

/-!
# Specification: what a point buffer is

Independent of how a buffer stores its data.

* A *record* is the bytes of one point in the buffer's layout (including padding).
* A *point* is the list of its attribute values, one per attribute of the layout, in layout order.
* A buffer is a list of records (if it keeps padding), or a list of points.
-/

namespace Pasture.Spec

/-- A layout points can be stored in: it has attributes, with distinct names and non-zero sizes,
    which lie inside the point without overlapping. -/
structure Solid (l : PointLayout) : Prop where
  nonempty : l.attributes ≠ []
  names : (l.attributes.map Member.name).Nodup
  positive : ∀ m ∈ l.attributes, 0 < m.size
  inside : ∀ m ∈ l.attributes, m.offset + m.size ≤ l.size
  apart : l.attributes.Pairwise
    fun a b => a.offset + a.size ≤ b.offset ∨ b.offset + b.size ≤ a.offset

/-- `Solid` without the demands that there are attributes and that they take memory: distinct names, inside the point,
    no overlap. -/
structure Orderly (l : PointLayout) : Prop where
  names : (l.attributes.map Member.name).Nodup
  inside : ∀ m ∈ l.attributes, m.offset + m.size ≤ l.size
  apart : l.attributes.Pairwise
    fun a b => a.offset + a.size ≤ b.offset ∨ b.offset + b.size ≤ a.offset

theorem Solid.orderly {l : PointLayout} (h : Solid l) : Orderly l := ⟨h.names, h.inside, h.apart⟩

instance {l : PointLayout} : Coe (Solid l) (Orderly l) := ⟨Solid.orderly⟩

/-- The value bytes of every attribute of one point. -/
abbrev Point := List (AttrDef × Bytes)

/-- The value of attribute `d`. -/
def Point.get (p : Point) (d : AttrDef) : Option Bytes := p.lookup d

/-- Overwrite the value of attribute `d`. -/
def Point.set (p : Point) (d : AttrDef) (v : Bytes) : Point :=
  p.map fun (k, x) => if k = d then (k, v) else (k, x)

/-- The bytes `[start, start + n)`. -/
def window (bytes : Bytes) (start n : Nat) : Bytes := (bytes.drop start).take n

/-- The point a record describes: each attribute's bytes lie at its offset. -/
def pointOf (l : PointLayout) (record : Bytes) : Point :=
  l.attributes.map fun m => (m.definition, window record m.offset m.size)

/-- Bytes as `n` consecutive records of `size` bytes. -/
def recordsOf (size n : Nat) (bytes : Bytes) : List Bytes :=
  (List.range n).map fun i => window bytes (i * size) size

/-- `l` with elements `i` and `j` exchanged. -/
def exchange {α : Type} (xs : List α) (i j : Nat) : List α :=
  match xs[i]?, xs[j]? with
  | some a, some b => (xs.set i b).set j a
  | _, _ => xs

/-- Replace the elements from `start` on by `new`. -/
def overwrite {α : Type} (xs : List α) (start : Nat) (new : List α) : List α :=
  xs.take start ++ new ++ xs.drop (start + new.length)

/-- First `n` elements, padded with `z`. -/
def resized {α : Type} (xs : List α) (n : Nat) (z : α) : List α :=
  xs.take n ++ List.replicate (n - xs.length) z

/-- The point whose bytes are all zero. -/
def zeroPoint (l : PointLayout) : Point :=
  l.attributes.map fun m => (m.definition, List.replicate m.size 0)

/-- Operations that change a buffer. -/
inductive Op where
  | setPoint (i : Nat) (record : Bytes)
  | setPointRange (start stop : Nat) (records : Bytes)
  | setAttribute (d : AttrDef) (i : Nat) (value : Bytes)
  | setAttributeRange (d : AttrDef) (start stop : Nat) (values : Bytes)
  | swap (i j : Nat)
  | pushPoints (records : Bytes)
  | resize (n : Nat)
  | clear

/-- The contract the callers of the (mostly `unsafe`) operations have to meet: byte counts match
    and ranges are not empty. It does not mention the state of the buffer. -/
def Op.wellFormed (l : PointLayout) : Op → Prop
  | setPoint _ r => r.length = l.size
  | setPointRange a b r => a < b ∧ r.length = (b - a) * l.size
  | setAttribute d _ v => v.length = d.size
  | setAttributeRange d a b v => a < b ∧ v.length = (b - a) * d.size
  | swap _ _ => True
  | pushPoints r => r.length % l.size = 0
  | resize _ => True
  | clear => True

/-- When an operation is allowed on a buffer of `n` points: indices in range, attribute present. -/
def Op.allowed (l : PointLayout) (n : Nat) : Op → Prop
  | setPoint i _ => i < n
  | setPointRange _ b _ => b ≤ n
  | setAttribute d i _ => d ∈ l.attributes.map Member.definition ∧ i < n
  | setAttributeRange d _ b _ => d ∈ l.attributes.map Member.definition ∧ b ≤ n
  | swap i j => i < n ∧ j < n
  | pushPoints _ => True
  | resize _ => True
  | clear => True

instance (l : PointLayout) (n : Nat) (op : Op) : Decidable (op.allowed l n) := by
  cases op <;> unfold Op.allowed <;> infer_instance

/-- Effect of an allowed operation on a list of records. -/
def Op.onRecords (l : PointLayout) (rs : List Bytes) : Op → List Bytes
  | setPoint i r => rs.set i r
  | setPointRange a b data => overwrite rs a (recordsOf l.size (b - a) data)
  | setAttribute d i v =>
    match l.attributes.find? (fun m => m.definition = d) with
    | some m => rs.modify i fun r => overwrite r m.offset v
    | none => rs
  | setAttributeRange d a b data =>
    match l.attributes.find? (fun m => m.definition = d) with
    | some m => rs.mapIdx fun i r =>
        if a ≤ i ∧ i < b then overwrite r m.offset (window data ((i - a) * m.size) m.size) else r
    | none => rs
  | swap i j => exchange rs i j
  | pushPoints data => rs ++ recordsOf l.size (data.length / l.size) data
  | resize n => resized rs n (List.replicate l.size 0)
  | clear => []

/-- Effect of an allowed operation on a list of points. -/
def Op.onPoints (l : PointLayout) (ps : List Point) : Op → List Point
  | setPoint i r => ps.set i (pointOf l r)
  | setPointRange a b data => overwrite ps a ((recordsOf l.size (b - a) data).map (pointOf l))
  | setAttribute d i v => ps.modify i fun p => p.set d v
  | setAttributeRange d a b data => ps.mapIdx fun i p =>
      if a ≤ i ∧ i < b then p.set d (window data ((i - a) * d.size) d.size) else p
  | swap i j => exchange ps i j
  | pushPoints data => ps ++ (recordsOf l.size (data.length / l.size) data).map (pointOf l)
  | resize n => resized ps n (zeroPoint l)
  | clear => []

/-- One step of the record machine: the effect if allowed, else a panic. -/
def Op.stepRecords (l : PointLayout) (rs : List Bytes) (op : Op) : Out (List Bytes) :=
  if op.allowed l rs.length then .ok (op.onRecords l rs) else .error .panic

/-- One step of the point machine. -/
def Op.stepPoints (l : PointLayout) (ps : List Point) (op : Op) : Out (List Point) :=
  if op.allowed l ps.length then .ok (op.onPoints l ps) else .error .panic

/-- A history on the record machine; it ends at the first panic. -/
def recordHistory (l : PointLayout) : List Op → List Bytes → Out (List Bytes)
  | [], rs => .ok rs
  | op :: ops, rs => do
    let rs ← op.stepRecords l rs
    recordHistory l ops rs

/-- A history on the point machine. -/
def pointHistory (l : PointLayout) : List Op → List Point → Out (List Point)
  | [], ps => .ok ps
  | op :: ops, ps => do
    let ps ← op.stepPoints l ps
    pointHistory l ops ps

end Pasture.Spec
