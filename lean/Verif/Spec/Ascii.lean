import Verif.Spec.Float
import Verif.Spec.Points
import Verif.Model.Numbers
import Mathlib.Data.Nat.Digits.Defs

/-!
# Specification: point files in ASCII

What the texts mean, independent of how they are parsed and printed.
-/

namespace Pasture.Spec.Ascii

/-! ## Numbers as text -/

/-- Only digits. -/
def IsDigits (s : List Char) : Prop := ∀ c ∈ s, '0' ≤ c ∧ c ≤ '9'

/-- The number with these decimal digits. -/
def digitsNumber (s : List Char) : Nat := Nat.ofDigits 10 (s.reverse.map fun c => c.toNat - 48)

/-- `s` is a text for the integer `z` of type `p`: an optional sign (minus for signed types only), digits, and the
    number is in the range of the type. -/
def IntegerText (p : Prim) (s : List Char) (z : Int) : Prop :=
  ∃ ds, ds ≠ [] ∧ IsDigits ds ∧ p.lo ≤ z ∧ z ≤ p.hi ∧
    ((s = ds ∨ s = '+' :: ds) ∧ z = digitsNumber ds ∨ p.lo < 0 ∧ s = '-' :: ds ∧ z = -(digitsNumber ds : Int))

/-- `s` is the text of an exponent: nothing, or `e` (or `E`), an optional sign, and digits. -/
def ExponentText (s : List Char) (e : Int) : Prop :=
  s = [] ∧ e = 0 ∨
    ∃ c ds, (c = 'e' ∨ c = 'E') ∧ ds ≠ [] ∧ IsDigits ds ∧
      ((s = c :: ds ∨ s = c :: '+' :: ds) ∧ e = digitsNumber ds ∨ s = c :: '-' :: ds ∧ e = -(digitsNumber ds : Int))

/-- `s` is an unsigned decimal number with the value `q`: digits, optionally a point and more digits, optionally an
    exponent; there is at least one digit before or after the point. -/
def UnsignedDecimal (s : List Char) (q : ℚ) : Prop :=
  ∃ int frac tail e, IsDigits int ∧ IsDigits frac ∧ (int ≠ [] ∨ frac ≠ []) ∧ ExponentText tail e ∧
    (s = int ++ '.' :: frac ++ tail ∨ frac = [] ∧ s = int ++ tail) ∧
    q = digitsNumber (int ++ frac) * (10 : ℚ) ^ (e - frac.length)

/-- A text without its sign, and whether there was a minus. -/
def Signed (s : List Char) (negative : Bool) (t : List Char) : Prop :=
  s = '-' :: t ∧ negative = true ∨ s = '+' :: t ∧ negative = false ∨
    s = t ∧ negative = false ∧ t.head? ≠ some '-' ∧ t.head? ≠ some '+'

/-- `s` is a decimal number with the value `q`, `negative` if it starts with a minus. -/
def DecimalText (s : List Char) (negative : Bool) (q : ℚ) : Prop :=
  ∃ t m, Signed s negative t ∧ UnsignedDecimal t m ∧ q = if negative then -m else m

/-- `s` is a text that is read as the float `x`. Texts of infinities and NaN are spelled in any case. -/
def FloatText (s : List Char) (x : F64) : Prop :=
  (∃ q, DecimalText s x.neg q ∧ RoundsTo q x) ∨
  (∃ t, Signed s x.neg t ∧ (t.map Char.toLower = "inf".toList ∨ t.map Char.toLower = "infinity".toList) ∧
    x.isInf = true) ∨
  (∃ t, Signed s x.neg t ∧ t.map Char.toLower = "nan".toList ∧ x.isNaN = true)

/-- `s` is the plain decimal text of `z`: no leading zeros, a minus sign only for negative numbers. -/
def PlainInteger (s : List Char) (z : Int) : Prop :=
  ∃ ds, ds ≠ [] ∧ IsDigits ds ∧ (ds.head? = some '0' → ds = ['0']) ∧
    (s = ds ∧ z = digitsNumber ds ∨ s = '-' :: ds ∧ z = -(digitsNumber ds : Int) ∧ z ≠ 0)

/-- `s` is the text of the float `x` with at most `precision` decimal places (and at least one): the nearest such
    decimal number, without unnecessary zeros at the end. -/
def PlainFloat (precision : Nat) (s : List Char) (x : F64) : Prop :=
  (x.isFinite = true ∧ ∃ int frac, IsDigits int ∧ int ≠ [] ∧ IsDigits frac ∧ frac ≠ [] ∧ frac.length ≤ precision ∧
    (frac.getLast? = some '0' → frac = ['0']) ∧
    s = (if x.neg then ['-'] else []) ++ int ++ '.' :: frac ∧
    |(digitsNumber (int ++ frac) : ℚ) / 10 ^ frac.length - abs (value x)| ≤ 1 / (2 * 10 ^ precision)) ∨
  (x.isInf = true ∧ s = (if x.neg then ['-'] else []) ++ "inf".toList) ∨
  (x.isNaN = true ∧ s = "NaN".toList)

/-! ## Columns and lines -/

/-- `cols` are the pieces of `s` between the occurrences of `d`, found from left to right. -/
inductive Pieces (d : List Char) : List Char → List (List Char) → Prop
  | last (s : List Char) : ¬ d <:+: s → Pieces d s [s]
  /-- No occurrence of `d` starts inside the first piece. -/
  | more (c rest : List Char) (cols : List (List Char)) : ¬ d <:+: c ++ d.dropLast → Pieces d rest cols →
      Pieces d (c ++ d ++ rest) (c :: cols)

/-- The columns of a line. An empty delimiter makes every character a column, between two empty columns. -/
def LineColumns (d s : List Char) (cols : List (List Char)) : Prop :=
  if d = [] then cols = [[]] ++ s.map (fun c => [c]) ++ [[]] else Pieces d s cols

/-- The lines of a text. Lines end with `\n` or `\r\n`; the last one may lack it. -/
inductive Lines : List Char → List (List Char) → Prop
  | none : Lines [] []
  | last (s : List Char) : s ≠ [] → '\n' ∉ s → Lines s [s]
  | lf (s rest : List Char) (ls : List (List Char)) : '\n' ∉ s → s.getLast? ≠ some '\r' → Lines rest ls →
      Lines (s ++ '\n' :: rest) (s :: ls)
  | crlf (s rest : List Char) (ls : List (List Char)) : '\n' ∉ s → Lines rest ls →
      Lines (s ++ '\r' :: '\n' :: rest) (s :: ls)

/-! ## Format strings -/

/-- What a column holds: component `component` of an attribute, as a number of type `type`; a flag can only be 0 or
    1. -/
structure Column where
  attr : AttrDef
  component : Nat
  type : Prim
  flag : Bool

/-- The documented literals; `some none` means that the column is skipped. -/
def meaning : Char → Option (Option Column)
  | 's' => some none
  | 'x' => some (some ⟨⟨"Position3D", .vec3f64⟩, 0, .f64, false⟩)
  | 'y' => some (some ⟨⟨"Position3D", .vec3f64⟩, 1, .f64, false⟩)
  | 'z' => some (some ⟨⟨"Position3D", .vec3f64⟩, 2, .f64, false⟩)
  | 'i' => some (some ⟨⟨"Intensity", .u16⟩, 0, .u16, false⟩)
  | 'r' => some (some ⟨⟨"ReturnNumber", .u8⟩, 0, .u8, false⟩)
  | 'n' => some (some ⟨⟨"NumberOfReturns", .u8⟩, 0, .u8, false⟩)
  | 'c' => some (some ⟨⟨"Classification", .u8⟩, 0, .u8, false⟩)
  | 't' => some (some ⟨⟨"GpsTime", .f64⟩, 0, .f64, false⟩)
  | 'u' => some (some ⟨⟨"UserData", .u8⟩, 0, .u8, false⟩)
  | 'p' => some (some ⟨⟨"PointSourceID", .u16⟩, 0, .u16, false⟩)
  | 'R' => some (some ⟨⟨"ColorRGB", .vec3u16⟩, 0, .u16, false⟩)
  | 'G' => some (some ⟨⟨"ColorRGB", .vec3u16⟩, 1, .u16, false⟩)
  | 'B' => some (some ⟨⟨"ColorRGB", .vec3u16⟩, 2, .u16, false⟩)
  | 'e' => some (some ⟨⟨"EdgeOfFlightLine", .u8⟩, 0, .u8, true⟩)
  | 'd' => some (some ⟨⟨"ScanDirectionFlag", .u8⟩, 0, .u8, true⟩)
  | 'a' => some (some ⟨⟨"ScanAngleRank", .i8⟩, 0, .i8, false⟩)
  | 'I' => some (some ⟨⟨"NIR", .u16⟩, 0, .u16, false⟩)
  | _ => none

/-- All characters are known literals. -/
def ValidFormat (format : List Char) : Prop := ∀ c ∈ format, (meaning c).isSome

/-- The columns a format string describes. -/
def describes (format : List Char) (i : Nat) : Option Column :=
  (format[i]?.bind meaning).bind id

/-- Where the column lies in the bytes of its attribute. -/
def Column.start (c : Column) : Nat := c.component * c.type.size

/-- The part of an attribute value the column holds. -/
def Column.part (c : Column) (v : Bytes) : Bytes := window v c.start c.type.size

/-! ## Reading -/

/-- `s` is a text for the value `n` of the column. -/
def Column.Reads (c : Column) (s : List Char) (n : Num) : Prop :=
  if c.type = .f64 then ∃ x, n = .double x ∧ FloatText s x
  else ∃ z, n = .int z ∧ IntegerText c.type s z ∧ (c.flag = true → z = 0 ∨ z = 1)

/-- The line has a column for every literal, and a readable value in every column that is not skipped. -/
def GoodLine (format : List Char) (cols : List (List Char)) : Prop :=
  format.length ≤ cols.length ∧ ∀ i c s, describes format i = some c → cols[i]? = some s → ∃ n, c.Reads s n

/-- `p` is the point, in layout `l`, a line with the columns `cols` stands for. -/
structure PointOfLine (format : List Char) (cols : List (List Char)) (l : PointLayout) (p : Point) : Prop where
  attributes : p.map Prod.fst = l.attributes.map Member.definition
  sizes : ∀ d v, p.get d = some v → v.length = d.size
  /-- A value of a column is in the attribute of its literal (the last column, if there are several for it). -/
  filled : ∀ i c s v, describes format i = some c → cols[i]? = some s → p.get c.attr = some v →
    (∀ j c', i < j → describes format j = some c' → ¬ (c'.attr = c.attr ∧ c'.component = c.component)) →
    ∃ n, c.Reads s n ∧ c.part v = writeNum c.type n
  /-- What no column describes is zero. -/
  blank : ∀ d v k, p.get d = some v → k < d.size →
    (∀ i c, describes format i = some c → c.attr = d → ¬ (c.start ≤ k ∧ k < c.start + c.type.size)) →
    v[k]? = some 0

/-! ## Writing -/

/-- `s` is the text for the bytes `v` of a column. -/
def Column.Writes (precision : Nat) (c : Column) (v : Bytes) (s : List Char) : Prop :=
  match readNum c.type v with
  | .double x => PlainFloat precision s x
  | .single _ => False
  | .int z => if c.flag then PlainInteger s (if z = 0 then 0 else 1) else PlainInteger s z

/-- `cols` are the columns of the point `p`: the text of the attribute of each literal. Skipped columns are empty. -/
structure ColumnsOfPoint (format : List Char) (precision : Nat) (p : Point) (cols : List (List Char)) : Prop where
  count : cols.length = format.length
  text : ∀ i s, cols[i]? = some s →
    match describes format i with
    | some c => ∃ v, p.get c.attr = some v ∧ c.Writes precision (c.part v) s
    | none => s = []

/-- `s` is the line of the point `p`. -/
def LineOfPoint (format : List Char) (precision : Nat) (delimiter : List Char) (p : Point) (s : List Char) : Prop :=
  ∃ cols, ColumnsOfPoint format precision p cols ∧ s = delimiter.intercalate cols ++ ['\n']

/-- The delimiter cannot be confused with what it separates. -/
def ClearDelimiter (d : List Char) : Prop :=
  ∃ c cs, d = c :: cs ∧ c ∉ "0123456789-.NaNinf".toList ∧ '\n' ∉ d ∧ '\r' ∉ d

/-- What is left of the point `p` after writing and reading: integers are the same, flags are 0 or 1, and floats are
    rounded to `precision` decimal places. -/
def Recovered (format : List Char) (precision : Nat) (p q : Point) : Prop :=
  ∀ i c v w, describes format i = some c → p.get c.attr = some v → q.get c.attr = some w →
    match readNum c.type (c.part v) with
    | .int z => if c.flag then readNum c.type (c.part w) = .int (if z = 0 then 0 else 1) else c.part w = c.part v
    | .double x => ∃ y, readNum c.type (c.part w) = .double y ∧
        (x.isFinite = true → ∃ q : ℚ, |q - value x| ≤ 1 / (2 * 10 ^ precision) ∧ RoundsTo q y) ∧
        (x.isInf = true → y = x) ∧ (x.isNaN = true → y.isNaN = true)
    | .single _ => True

end Pasture.Spec.Ascii
