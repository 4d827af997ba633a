import Verif.Model.LasReader
import Verif.Model.UntypedPoint
import Verif.Model.Bounds

/-!
# Model of the ASCII reader and writer (`pasture-io/src/ascii`)

Text is a list of characters: that a file is valid UTF-8 is assumed (a line that is not makes `read_into` return an
error). The number parsing and formatting of the Rust standard library is modelled from its documentation. After an
error neither the buffer nor the reader or writer is described.
-/

namespace Pasture.Ascii

open BorrowedBuffer BorrowedMutBuffer Las

/-- `PointDataType`, ascii_format_util.rs:4-23. -/
inductive PointDataType where
  | skip | coordinateX | coordinateY | coordinateZ | intensity | returnNumber | numberOfReturns | classification
  | userData | colorR | colorG | colorB | gpsTime | pointSourceID | edgeOfFlightLine | scanDirectionFlag
  | scanAngleRank | nir
  deriving DecidableEq, Repr

/-- The match in `get_parse_layout`, ascii_format_util.rs:54-80. -/
def literal (c : Char) : Out PointDataType :=
  match c with
  | 's' => .ok .skip
  | 'x' => .ok .coordinateX
  | 'y' => .ok .coordinateY
  | 'z' => .ok .coordinateZ
  | 'i' => .ok .intensity
  | 'n' => .ok .numberOfReturns
  | 'r' => .ok .returnNumber
  | 'c' => .ok .classification
  | 't' => .ok .gpsTime
  | 'u' => .ok .userData
  | 'p' => .ok .pointSourceID
  | 'R' => .ok .colorR
  | 'G' => .ok .colorG
  | 'B' => .ok .colorB
  | 'I' => .ok .nir
  | 'a' => .ok .scanAngleRank
  | 'e' => .ok .edgeOfFlightLine
  | 'd' => .ok .scanDirectionFlag
  | _ => .error .err

/-- `get_parse_layout`, ascii_format_util.rs:51-83. -/
def getParseLayout (format : List Char) : Out (List PointDataType) :=
  forLoop format [] fun out c => do
    let t ← literal c
    pure (out ++ [t])

/-! ## Numbers as text -/

/-- `char::to_digit(10)`. -/
def digit (c : Char) : Option Nat :=
  if '0'.toNat ≤ c.toNat ∧ c.toNat ≤ '9'.toNat then some (c.toNat - '0'.toNat) else none

/-- The loop of `from_str_radix` for integers: `checked_mul(10)`, then `checked_add` (`checked_sub` for negative
    numbers) of the digit. -/
def digitsLoop (p : Prim) (neg : Bool) : List Char → Int → Option Int
  | [], acc => some acc
  | c :: cs, acc =>
    match digit c with
    | none => none
    | some d =>
      let product := acc * 10
      let next := if neg then product - d else product + d
      if p.lo ≤ product ∧ product ≤ p.hi ∧ p.lo ≤ next ∧ next ≤ p.hi then digitsLoop p neg cs next else none

/-- Is `p` a signed integer type? -/
def signed (p : Prim) : Bool := decide (p.lo < 0)

/-- `str::parse::<p>` for an integer type `p`: an optional sign (`-` for signed types only) and digits. -/
def parseInt (p : Prim) (s : List Char) : Option Int :=
  match s with
  | [] => none
  | c :: cs =>
    if (c = '+' ∨ c = '-') ∧ cs = [] then none
    else if c = '+' then digitsLoop p false cs 0
    else if c = '-' ∧ signed p then digitsLoop p true cs 0
    else digitsLoop p false s 0

/-- The digits at the beginning of a text, and the rest. -/
def leadingDigits (s : List Char) : List Char × List Char :=
  (s.takeWhile fun c => (digit c).isSome, s.dropWhile fun c => (digit c).isSome)

/-- The number written with these digits. -/
def digitsValue (s : List Char) : Nat := s.foldl (fun acc c => acc * 10 + (digit c).getD 0) 0

/-- An optional sign (is it a minus?) and the rest. -/
def splitSign (s : List Char) : Bool × List Char :=
  match s with
  | '-' :: r => (true, r)
  | '+' :: r => (false, r)
  | r => (false, r)

/-- The exponent part of a number: nothing, or `e`, an optional sign and digits. -/
def parseExponent (s : List Char) : Option Int :=
  match s with
  | [] => some 0
  | c :: cs =>
    if c = 'e' ∨ c = 'E' then
      let (neg, ds) := splitSign cs
      if ds ≠ [] ∧ ds.all (fun c => (digit c).isSome) then
        some (if neg then -(digitsValue ds : Int) else digitsValue ds)
      else none
    else none

/-- `m · 10^e`, rounded to an `f64`. -/
def decimalToF64 (neg : Bool) (m : Nat) (e : Int) : F64 :=
  let num : Nat := m * FloatFormat.f64.one * 10 ^ e.toNat
  Flt.ofUnits .f64 (if neg then -(num : Int) else num) (10 ^ (-e).toNat) neg

/-- A point and the digits behind it, if there are any, and the rest. -/
def fraction (s : List Char) : List Char × List Char :=
  match s with
  | '.' :: r => leadingDigits r
  | r => ([], r)

/-- A decimal number without its sign. -/
def parseDecimal (neg : Bool) (s : List Char) : Option F64 :=
  let (int, t) := leadingDigits s
  let (frac, t) := fraction t
  if int = [] ∧ frac = [] then none
  else
    match parseExponent t with
    | none => none
    | some e => some (decimalToF64 neg (digitsValue (int ++ frac)) (e - frac.length))

/-- `str::parse::<f64>`, by the grammar in the documentation of `f64::from_str`; the result is the correctly rounded
    value. -/
def parseF64 (s : List Char) : Option F64 :=
  let (neg, t) := splitSign s
  let lower := t.map Char.toLower
  if lower = ['n', 'a', 'n'] then some ⟨neg, FloatFormat.f64.nanMag⟩
  else if lower = ['i', 'n', 'f'] ∨ lower = ['i', 'n', 'f', 'i', 'n', 'i', 't', 'y'] then some (Flt.inf .f64 neg)
  else parseDecimal neg t

/-- The character of a digit. -/
def digitChar (d : Nat) : Char := Char.ofNat ('0'.toNat + d)

/-- The last `k` decimal digits of `n`. -/
def fixedDigits : Nat → Nat → List Char
  | 0, _ => []
  | k + 1, n => fixedDigits k (n / 10) ++ [digitChar (n % 10)]

/-- The number of decimal digits of `n`; `fuel` bounds it. -/
def digitCount : Nat → Nat → Nat
  | 0, _ => 1
  | fuel + 1, n => if n < 10 then 1 else digitCount fuel (n / 10) + 1

/-- `u64::to_string`. -/
def natText (n : Nat) : List Char := fixedDigits (digitCount n n) n

/-- `i64::to_string`. -/
def intText (z : Int) : List Char := if z < 0 then '-' :: natText z.natAbs else natText z.natAbs

/-- `format!("{:.1$}", x, precision)`: the exact value is rounded to `precision` decimal places (ties to even). -/
def fixedText (precision : Nat) (x : F64) : List Char :=
  if x.isNaN then ['N', 'a', 'N']
  else
    let sign := if x.neg then ['-'] else []
    if x.isInf then sign ++ ['i', 'n', 'f']
    else
      let n := roundDiv (FloatFormat.f64.units x.mag * 10 ^ precision) FloatFormat.f64.one
      sign ++ natText (n / 10 ^ precision) ++
        (if precision = 0 then [] else '.' :: fixedDigits precision (n % 10 ^ precision))

/-- The loop of `trim_unnecessary_tailing_zeros`, on the reversed text. -/
def trimLoop : List Char → List Char
  | [] => []
  | c :: cs => if c = '0' ∧ cs.head? ≠ some '.' then trimLoop cs else c :: cs

/-- `trim_unnecessary_tailing_zeros`, raw_writer.rs:212-219. -/
def trimZeros (s : List Char) : List Char := (trimLoop s.reverse).reverse

/-! ## Reading -/

/-- The attribute of a literal, raw_reader.rs:45-64. -/
def attributeOf (t : PointDataType) : Out AttrDef :=
  match t with
  | .coordinateX | .coordinateY | .coordinateZ => .ok Las.position3D
  | .intensity => .ok Las.intensity
  | .returnNumber => .ok Las.returnNumber
  | .numberOfReturns => .ok Las.numberOfReturns
  | .classification => .ok Las.classification
  | .userData => .ok Las.userData
  | .colorR | .colorG | .colorB => .ok Las.colorRgb
  | .gpsTime => .ok Las.gpsTime
  | .pointSourceID => .ok Las.pointSourceId
  | .edgeOfFlightLine => .ok Las.edgeOfFlightLine
  | .scanDirectionFlag => .ok Las.scanDirectionFlag
  | .scanAngleRank => .ok Las.scanAngleRank
  | .nir => .ok Las.nir
  | .skip => panicked

/-- `get_point_layout_from_parse_layout`, raw_reader.rs:41-67. `order` is the iteration order of the `HashSet`. -/
def pointLayout (order : List AttrDef → List AttrDef) (ts : List PointDataType) : Out PointLayout := do
  let ds ← (ts.filter fun t => t ≠ .skip).mapM attributeOf
  PointLayout.fromAttributes (order ds.dedup)

/-- `RawAsciiReader`, raw_reader.rs:19-25; `rest` is the text not read yet. -/
structure RawAsciiReader where
  rest : List Char
  delimiter : List Char
  layout : PointLayout
  parseLayout : List PointDataType

/-- `from_read`, raw_reader.rs:27-39 (and `AsciiReader::from_read`, ascii_reader.rs). -/
def RawAsciiReader.fromRead (order : List AttrDef → List AttrDef) (text format delimiter : List Char) :
    Out RawAsciiReader := do
  let ts ← getParseLayout format
  let l ← pointLayout order ts
  pure ⟨text, delimiter, l, ts⟩

/-- `str::split` with a pattern that is not empty; `skip` characters of a match are still to be passed over, `field`
    is the current piece, reversed. -/
def splitLoop (d : List Char) : Nat → List Char → List Char → List (List Char)
  | _, field, [] => [field.reverse]
  | skip + 1, field, _ :: cs => splitLoop d skip field cs
  | 0, field, c :: cs =>
    if d <+: c :: cs then field.reverse :: splitLoop d (d.length - 1) [] cs
    else splitLoop d 0 (c :: field) cs

/-- `str::split`. The empty pattern matches before, between and after all characters. -/
def split (s d : List Char) : List (List Char) :=
  if d = [] then [[]] ++ s.map (fun c => [c]) ++ [[]] else splitLoop d 0 [] s

/-- The next line of `BufRead::lines`, and the rest of the text. -/
def nextLine (s : List Char) : Option (List Char × List Char) :=
  if s = [] then none
  else
    let line := s.takeWhile fun c => c ≠ '\n'
    if line.length = s.length then some (line, [])
    else some (if line.getLast? = some '\r' then line.dropLast else line, s.drop (line.length + 1))

/-- `parse_string::<p>`, raw_reader.rs:265-273. -/
def parseString (p : Prim) (s : List Char) : Out Num :=
  match p with
  | .f64 => (orErr (parseF64 s)).map .double
  | p => (orErr (parseInt p s)).map .int

/-- `Write::write_all` on a `Cursor<&mut [u8]>` at `pos`: an error if the bytes do not fit. -/
def cursorWrite (buffer : Bytes) (pos : Nat) (b : Bytes) : Out Bytes :=
  if pos + b.length ≤ buffer.length then .ok (put buffer pos b) else .error .err

/-- `parse_to_point_i8`, `_u8`, `_u16` and `_f64`, raw_reader.rs:192-206, 226-263. -/
def parseToPoint (p : Prim) (point : UntypedPoint) (d : AttrDef) (offset : Nat) (s : List Char) : Out UntypedPoint := do
  let data ← parseString p s
  match point.layout.offsetOf d with
  | some start => do
    let buffer ← cursorWrite point.buffer (start + offset) (writeNum p data)
    pure { point with buffer := buffer }
  | none => pure point

/-- `parse_to_point_bool`, raw_reader.rs:208-224. -/
def parseToPointBool (point : UntypedPoint) (d : AttrDef) (offset : Nat) (s : List Char) : Out UntypedPoint := do
  let data ← parseString .u8 s
  bailIf (data ≠ .int 0 ∧ data ≠ .int 1)
  match point.layout.offsetOf d with
  | some start => do
    let buffer ← cursorWrite point.buffer (start + offset) (writeNum .u8 data)
    pure { point with buffer := buffer }
  | none => pure point

/-- The match in `parse_point`, raw_reader.rs:77-180. -/
def parseColumn (point : UntypedPoint) (t : PointDataType) (s : List Char) : Out UntypedPoint :=
  match t with
  | .coordinateX => parseToPoint .f64 point Las.position3D 0 s
  | .coordinateY => parseToPoint .f64 point Las.position3D 8 s
  | .coordinateZ => parseToPoint .f64 point Las.position3D 16 s
  | .intensity => parseToPoint .u16 point Las.intensity 0 s
  | .returnNumber => parseToPoint .u8 point Las.returnNumber 0 s
  | .numberOfReturns => parseToPoint .u8 point Las.numberOfReturns 0 s
  | .classification => parseToPoint .u8 point Las.classification 0 s
  | .userData => parseToPoint .u8 point Las.userData 0 s
  | .colorR => parseToPoint .u16 point Las.colorRgb 0 s
  | .colorG => parseToPoint .u16 point Las.colorRgb 2 s
  | .colorB => parseToPoint .u16 point Las.colorRgb 4 s
  | .gpsTime => parseToPoint .f64 point Las.gpsTime 0 s
  | .pointSourceID => parseToPoint .u16 point Las.pointSourceId 0 s
  | .edgeOfFlightLine => parseToPointBool point Las.edgeOfFlightLine 0 s
  | .scanDirectionFlag => parseToPointBool point Las.scanDirectionFlag 0 s
  | .scanAngleRank => parseToPoint .i8 point Las.scanAngleRank 0 s
  | .nir => parseToPoint .u16 point Las.nir 0 s
  | .skip => pure point

/-- The loop of `parse_point` over the columns and literals (`zip_longest`), raw_reader.rs:75-189. -/
def parseColumns : UntypedPoint → List (List Char) → List PointDataType → Out UntypedPoint
  | point, s :: ss, t :: ts => do
    let point ← parseColumn point t s
    parseColumns point ss ts
  | point, _, [] => pure point
  | _, [], _ :: _ => .error .err

/-- `parse_point`, raw_reader.rs:69-190. -/
def parsePoint (point : UntypedPoint) (line delimiter : List Char) (ts : List PointDataType) : Out UntypedPoint :=
  parseColumns point (split line delimiter) ts

namespace RawAsciiReader

/-- The loop of `read_into`, raw_reader.rs:304-314: `count` lines still to be read, the next one is line `index`. -/
def readLoop {β : Type} [BorrowedMutBuffer β] (delimiter : List Char) (ts : List PointDataType) :
    Nat → Nat → UntypedPoint → List Char → β → Out (List Char × β)
  | 0, _, _, text, b => pure (text, b)
  | count + 1, index, point, text, b =>
    match nextLine text with
    | none => pure ([], b)
    | some (line, text) => do
      let point ← parsePoint point line delimiter ts
      let b ← setPoint b index point.buffer
      readLoop delimiter ts count (index + 1) point text b

end RawAsciiReader

/-- `read_into`, raw_reader.rs:293-316. -/
instance asciiReader : PointReader RawAsciiReader where
  readInto r b count := do
    let (rest, b) ← RawAsciiReader.readLoop r.delimiter r.parseLayout count 0 (UntypedPoint.new (layout b)) r.rest b
    pure (count, b, { r with rest := rest })
  defaultLayout r := r.layout

/-! ## Writing -/

/-- `RawAsciiWriter`, raw_writer.rs:13-19; `text` is what was written so far. -/
structure RawAsciiWriter where
  text : List Char
  delimiter : List Char
  precision : Nat
  parseLayout : List PointDataType
  deriving DecidableEq, Repr

/-- `from_write`, raw_writer.rs:22-30. -/
def RawAsciiWriter.fromWrite (format : List Char) : Out RawAsciiWriter := do
  let ts ← getParseLayout format
  pure ⟨[], [',', ' '], 5, ts⟩

/-- A coordinate of `get_attribute::<Vector3<f64>>(&POSITION_3D)?` as text, raw_writer.rs:76-108. -/
def coordinateText (precision : Nat) (point : UntypedPoint) (axis : P3 F64 → F64) : Out (List Char) := do
  let v ← point.getAttribute Las.position3D .vec3f64
  pure (trimZeros (fixedText precision (axis (readVec3F64 v))))

/-- `get_attribute::<u64>(..)?.to_string()`. -/
def unsignedText (point : UntypedPoint) (d : AttrDef) : Out (List Char) := do
  let v ← point.getAttribute d .u64
  pure (intText (intOfBits .u64 (leNat v)))

/-- A channel of `get_attribute::<Vector3<u16>>(&COLOR_RGB)?` as text, raw_writer.rs:137-151. -/
def colorText (point : UntypedPoint) (channel : Nat) : Out (List Char) := do
  let v ← point.getAttribute Las.colorRgb .vec3u16
  pure (intText (intOfBits .u16 (leNat (Converter.component 2 channel v))))

/-- `if get_attribute::<u8>(..)? > 0 { "1" } else { "0" }`, raw_writer.rs:167-180. -/
def flagText (point : UntypedPoint) (d : AttrDef) : Out (List Char) := do
  let v ← point.getAttribute d .u8
  pure (if leNat v > 0 then ['1'] else ['0'])

/-- The match in `write`, raw_writer.rs:74-190. -/
def columnText (precision : Nat) (point : UntypedPoint) (t : PointDataType) : Out (List Char) :=
  match t with
  | .skip => pure []
  | .coordinateX => coordinateText precision point P3.x
  | .coordinateY => coordinateText precision point P3.y
  | .coordinateZ => coordinateText precision point P3.z
  | .intensity => unsignedText point Las.intensity
  | .returnNumber => unsignedText point Las.returnNumber
  | .numberOfReturns => unsignedText point Las.numberOfReturns
  | .classification => unsignedText point Las.returnNumber
  | .userData => unsignedText point Las.returnNumber
  | .colorR => colorText point 0
  | .colorG => colorText point 1
  | .colorB => colorText point 2
  | .gpsTime => do
    let v ← point.getAttribute Las.gpsTime .f64
    pure (trimZeros (fixedText precision (Flt.ofBits .f64 (leNat v))))
  | .pointSourceID => unsignedText point Las.pointSourceId
  | .edgeOfFlightLine => flagText point Las.edgeOfFlightLine
  | .scanDirectionFlag => flagText point Las.scanDirectionFlag
  | .scanAngleRank => do
    let v ← point.getAttribute Las.scanAngleRank .i64
    pure (intText (intOfBits .i64 (leNat v)))
  | .nir => unsignedText point Las.nir

namespace RawAsciiWriter

/-- `set_delimiter`, raw_writer.rs:34-36. -/
def setDelimiter (w : RawAsciiWriter) (d : List Char) : RawAsciiWriter := { w with delimiter := d }

/-- `set_precision`, raw_writer.rs:37-39. -/
def setPrecision (w : RawAsciiWriter) (p : Nat) : RawAsciiWriter := { w with precision := p }

/-- The loop over the literals for one point, raw_writer.rs:73-194. -/
def writePoint (w : RawAsciiWriter) (point : UntypedPoint) (text : List Char) : Out (List Char) := do
  let text ← forLoop w.parseLayout.zipIdx text fun text (t, index) => do
    let s ← columnText w.precision point t
    pure (text ++ s ++ if index ≠ w.parseLayout.length - 1 then w.delimiter else [])
  pure (text ++ ['\n'])

/-- `num_points_in_chunk`, raw_writer.rs:52. -/
def chunkSize : Nat := 50000

/-- Body of the loop over the chunks, raw_writer.rs:56-196; the state is the text and the chunk buffer. -/
def writeChunk {β : Type} [BorrowedBuffer β] (w : RawAsciiWriter) (b : β) (st : List Char × Bytes) (k : Nat) :
    Out (List Char × Bytes) := do
  let size := (layout b).size
  let n := min chunkSize (len b - k * chunkSize)
  let first := k * chunkSize
  let slice ← sliceGet st.2 0 (n * size)
  let slice ← getPointRange b ⟨first, first + n⟩ slice
  let chunk := put st.2 0 slice
  let text ← forLoop (List.range n) st.1 fun text i => do
    let record ← sliceGet chunk (i * size) (i * size + size)
    w.writePoint (UntypedPoint.newSlice (layout b) record) text
  pure (text, chunk)

/-- `write`, raw_writer.rs:44-201. -/
def write {β : Type} [BorrowedBuffer β] (w : RawAsciiWriter) (b : β) : Out RawAsciiWriter := do
  let size := (layout b).size
  let numChunks := (len b + (chunkSize - 1)) / chunkSize
  let st ← forLoop (List.range numChunks) (w.text, zeros (chunkSize * size)) (w.writeChunk b)
  pure { w with text := st.1 }

end RawAsciiWriter

end Pasture.Ascii
