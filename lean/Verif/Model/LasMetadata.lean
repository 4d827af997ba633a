import Verif.Model.Las
import Verif.Model.UntypedPoint

/-!
# Model of the LAS metadata of pasture-io

`pasture-io/src/las/las_metadata.rs` (extra bytes VLRs), the text helpers of `write_helpers.rs` and
`read_helpers.rs`, and `point_layout_from_las_metadata` of `las_layout.rs`. Arrays `[u8; N]` are byte
lists; that they have `N` elements is a hypothesis of the theorems. `f64` fields that are only stored are
their 64 bits.
-/

namespace Pasture.Las

/-! ## Text -/

/-- `str::as_bytes`. -/
def utf8 (s : String) : Bytes := s.toByteArray.data.toList.map UInt8.toBitVec

/-- `std::str::from_utf8`. -/
def fromUtf8 (b : Bytes) : Option String := String.fromUTF8? ⟨(b.map UInt8.ofBitVec).toArray⟩

/-- `write_rust_string_into_las_ascii_array`, write_helpers.rs:56-67. -/
def writeRustString (s : String) (array : Bytes) : Out Bytes :=
  if (utf8 s).length ≥ array.length then do
    let dst ← sliceGet (utf8 s) 0 array.length
    copyFromSlice array dst
  else slicePut array 0 (utf8 s).length (utf8 s)

/-- `las_string_to_rust_string`, read_helpers.rs:494-504. -/
def lasStringToRustString (array : Bytes) : Out String :=
  match array.findIdx? (· = 0) with
  | some i => do
    let text ← sliceGet array 0 i
    orErr (fromUtf8 text)
  | none => orErr (fromUtf8 array)

/-! ## Extra bytes -/

/-- `ExtraBytesDataType`, las_metadata.rs:197-212. -/
inductive ExtraType where
  | undocumented
  | u8 | i8 | u16 | i16 | u32 | i32 | u64 | i64 | f32 | f64
  | deprecated (code : BitVec 8)
  | reserved (code : BitVec 8)
  deriving DecidableEq, Repr

namespace ExtraType

/-- `ExtraBytesDataType::size`, las_metadata.rs:217-233. -/
def size : ExtraType → Option Nat
  | u8 => some 1
  | i8 => some 1
  | u16 => some 2
  | i16 => some 2
  | u32 => some 4
  | i32 => some 4
  | u64 => some 8
  | i64 => some 8
  | f32 => some 4
  | f64 => some 8
  | undocumented | deprecated _ | reserved _ => none

/-- `is_unsigned`, las_metadata.rs:235-237. -/
def isUnsigned : ExtraType → Bool
  | u8 | u16 | u32 | u64 => true
  | _ => false

/-- `is_signed`, las_metadata.rs:240-242. -/
def isSigned : ExtraType → Bool
  | i8 | i16 | i32 | i64 => true
  | _ => false

/-- `is_floating_point`, las_metadata.rs:245-247. -/
def isFloatingPoint : ExtraType → Bool
  | f32 | f64 => true
  | _ => false

/-- `From<u8>`, las_metadata.rs:250-268. -/
def ofU8 (value : BitVec 8) : ExtraType :=
  match value.toNat with
  | 0 => undocumented
  | 1 => u8
  | 2 => i8
  | 3 => u16
  | 4 => i16
  | 5 => u32
  | 6 => i32
  | 7 => u64
  | 8 => i64
  | 9 => f32
  | 10 => f64
  | n => if n ≤ 30 then deprecated value else reserved value

/-- `From<ExtraBytesDataType> for u8`, las_metadata.rs:270-288. -/
def toU8 : ExtraType → BitVec 8
  | undocumented => 0
  | u8 => 1
  | i8 => 2
  | u16 => 3
  | i16 => 4
  | u32 => 5
  | i32 => 6
  | u64 => 7
  | i64 => 8
  | f32 => 9
  | f64 => 10
  | deprecated v => v
  | reserved v => v

/-- `TryFrom<ExtraBytesDataType> for PointAttributeDataType`, las_metadata.rs:290-315. -/
def toDatatype : ExtraType → Out DataType
  | u8 => .ok .u8
  | i8 => .ok .i8
  | u16 => .ok .u16
  | i16 => .ok .i16
  | u32 => .ok .u32
  | i32 => .ok .i32
  | u64 => .ok .u64
  | i64 => .ok .i64
  | f32 => .ok .f32
  | f64 => .ok .f64
  | undocumented | deprecated _ | reserved _ => .error .err

end ExtraType

/-- `RawExtraBytesEntry`, las_metadata.rs:335-354: `#[repr(C)]`, so the fields follow each other in
    this order; every field is aligned as it is and there is no padding (las_metadata.rs:355-359). -/
structure RawEntry where
  reserved : Bytes
  dataType : BitVec 8
  options : BitVec 8
  name : Bytes
  unused : Bytes
  noData : Bytes
  deprecated1 : Bytes
  min : Bytes
  deprecated2 : Bytes
  max : Bytes
  deprecated3 : Bytes
  scale : BitVec 64
  deprecated4 : Bytes
  offset : BitVec 64
  deprecated5 : Bytes
  description : Bytes
  deriving DecidableEq, Repr

/-- `RawExtraBytesEntry::default()`, las_metadata.rs:334. -/
def RawEntry.default : RawEntry where
  reserved := zeros 2
  dataType := 0
  options := 0
  name := zeros 32
  unused := zeros 4
  noData := zeros 8
  deprecated1 := zeros 16
  min := zeros 8
  deprecated2 := zeros 16
  max := zeros 8
  deprecated3 := zeros 16
  scale := 0
  deprecated4 := zeros 16
  offset := 0
  deprecated5 := zeros 16
  description := zeros 32

/-- `RAW_EXTRA_BYTES_ENTRY_SIZE`, las_metadata.rs:355. -/
def rawEntrySize : Nat := 192

/-- `bytemuck::bytes_of(&raw_entry)`, las_metadata.rs:733. -/
def RawEntry.bytes (r : RawEntry) : Bytes :=
  r.reserved ++ [r.dataType] ++ [r.options] ++ r.name ++ r.unused ++ r.noData ++ r.deprecated1 ++ r.min
    ++ r.deprecated2 ++ r.max ++ r.deprecated3 ++ natLE 8 r.scale.toNat ++ r.deprecated4
    ++ natLE 8 r.offset.toNat ++ r.deprecated5 ++ r.description

/-- One element of `bytemuck::cast_slice::<u8, RawExtraBytesEntry>`, las_metadata.rs:714. -/
def RawEntry.ofBytes (b : Bytes) : RawEntry where
  reserved := (b.drop 0).take 2
  dataType := BitVec.ofNat 8 (leNat ((b.drop 2).take 1))
  options := BitVec.ofNat 8 (leNat ((b.drop 3).take 1))
  name := (b.drop 4).take 32
  unused := (b.drop 36).take 4
  noData := (b.drop 40).take 8
  deprecated1 := (b.drop 48).take 16
  min := (b.drop 64).take 8
  deprecated2 := (b.drop 72).take 16
  max := (b.drop 88).take 8
  deprecated3 := (b.drop 96).take 16
  scale := BitVec.ofNat 64 (leNat ((b.drop 112).take 8))
  deprecated4 := (b.drop 120).take 16
  offset := BitVec.ofNat 64 (leNat ((b.drop 136).take 8))
  deprecated5 := (b.drop 144).take 16
  description := (b.drop 160).take 32

/-- `ExtraBytesEntry`, las_metadata.rs:362-373; `options` is the bit field of las_metadata.rs:323-332. -/
structure ExtraEntry where
  dataType : ExtraType
  options : BitVec 8
  name : String
  scale : BitVec 64
  offset : BitVec 64
  description : String
  minValue : Bytes
  maxValue : Bytes
  noDataValue : Bytes
  deriving DecidableEq, Repr

/-- `no_data_is_relevant` and the other bits, las_metadata.rs:327-331. -/
def noDataBit : Nat := 0
/-- las_metadata.rs:328. -/
def minBit : Nat := 1
/-- las_metadata.rs:329. -/
def maxBit : Nat := 2
/-- las_metadata.rs:330. -/
def scaleBit : Nat := 3
/-- las_metadata.rs:331. -/
def offsetBit : Nat := 4

/-- A bit of the bit field, las_metadata.rs:323. -/
def optionSet (options : BitVec 8) (bit : Nat) : Bool := options.getLsbD bit

/-- Setting a bit of the bit field, las_metadata.rs:323. -/
def setOption (options : BitVec 8) (bit : Nat) : BitVec 8 := options ||| (1#8 <<< bit)

namespace ExtraEntry

/-- `ExtraBytesEntry::scale`, las_metadata.rs:397-403. -/
def scale? (e : ExtraEntry) : Option (BitVec 64) := if optionSet e.options scaleBit then some e.scale else none

/-- `ExtraBytesEntry::offset`, las_metadata.rs:406-412. -/
def offset? (e : ExtraEntry) : Option (BitVec 64) :=
  if optionSet e.options offsetBit then some e.offset else none

/-- `u64::from_le_bytes`; the signed and float accessors reinterpret the same 64 bits. -/
def bits64 (b : Bytes) : BitVec 64 := BitVec.ofNat 64 (leNat b)

/-- `min_as_unsigned`, las_metadata.rs:418-425. -/
def minAsUnsigned (e : ExtraEntry) : Out (BitVec 64) := do
  bailIf (!e.dataType.isUnsigned)
  pure (bits64 e.minValue)

/-- `min_as_signed`, las_metadata.rs:427-434. -/
def minAsSigned (e : ExtraEntry) : Out (BitVec 64) := do
  bailIf (!e.dataType.isSigned)
  pure (bits64 e.minValue)

/-- `min_as_float`, las_metadata.rs:436-443. -/
def minAsFloat (e : ExtraEntry) : Out (BitVec 64) := do
  bailIf (!e.dataType.isUnsigned)
  pure (bits64 e.minValue)

/-- `max_as_unsigned`, las_metadata.rs:449-456. -/
def maxAsUnsigned (e : ExtraEntry) : Out (BitVec 64) := do
  bailIf (!e.dataType.isUnsigned)
  pure (bits64 e.maxValue)

/-- `max_as_signed`, las_metadata.rs:458-465. -/
def maxAsSigned (e : ExtraEntry) : Out (BitVec 64) := do
  bailIf (!e.dataType.isSigned)
  pure (bits64 e.maxValue)

/-- `max_as_float`, las_metadata.rs:467-474. -/
def maxAsFloat (e : ExtraEntry) : Out (BitVec 64) := do
  bailIf (!e.dataType.isUnsigned)
  pure (bits64 e.maxValue)

/-- `no_data_value_as_unsigned`, las_metadata.rs:480-487. -/
def noDataAsUnsigned (e : ExtraEntry) : Out (BitVec 64) := do
  bailIf (!e.dataType.isUnsigned)
  pure (bits64 e.noDataValue)

/-- `no_data_value_as_signed`, las_metadata.rs:489-496. -/
def noDataAsSigned (e : ExtraEntry) : Out (BitVec 64) := do
  bailIf (!e.dataType.isSigned)
  pure (bits64 e.noDataValue)

/-- `no_data_value_as_float`, las_metadata.rs:498-505. -/
def noDataAsFloat (e : ExtraEntry) : Out (BitVec 64) := do
  bailIf (!e.dataType.isUnsigned)
  pure (bits64 e.noDataValue)

/-- `get_point_attribute`, las_metadata.rs:508-515. -/
def getPointAttribute (e : ExtraEntry) : Out AttrDef := do
  let t ← e.dataType.toDatatype
  pure ⟨e.name, t⟩

end ExtraEntry

/-- What `Display` prints for one of the three values, las_metadata.rs:522-572: the number with its
    interpretation, or the raw bytes. -/
inductive Shown where
  | float (bits : BitVec 64)
  | signed (bits : BitVec 64)
  | unsigned (bits : BitVec 64)
  | raw (bytes : Bytes)
  deriving DecidableEq, Repr

/-- `Result::unwrap`. -/
def unwrap {α : Type} : Out α → Out α
  | .ok a => .ok a
  | .error _ => panicked

/-- One of the three `if .. else if ..` chains of `Display for ExtraBytesEntry`, e.g.
    las_metadata.rs:522-532. -/
def showValue (relevant : Bool) (t : ExtraType) (float signed unsigned : Out (BitVec 64)) (raw : Bytes) :
    Out (Option Shown) :=
  if !relevant then pure none
  else if t.isFloatingPoint then do return some (.float (← unwrap float))
  else if t.isSigned then do return some (.signed (← unwrap signed))
  else if t.isUnsigned then do return some (.unsigned (← unwrap unsigned))
  else pure (some (.raw raw))

/-- `Display for ExtraBytesEntry`, las_metadata.rs:518-574: the minimum, maximum and no-data value that
    are printed, in this order. The text around them is left out. -/
def displayEntry (e : ExtraEntry) : Out (Option Shown × Option Shown × Option Shown) := do
  let min ← showValue (optionSet e.options minBit) e.dataType e.minAsFloat e.minAsSigned e.minAsUnsigned
    e.minValue
  let max ← showValue (optionSet e.options maxBit) e.dataType e.maxAsFloat e.maxAsSigned e.maxAsUnsigned
    e.maxValue
  let noData ← showValue (optionSet e.options noDataBit) e.dataType e.noDataAsFloat e.noDataAsSigned
    e.noDataAsUnsigned e.minValue
  pure (min, max, noData)

/-- `TryFrom<&RawExtraBytesEntry> for ExtraBytesEntry`, las_metadata.rs:576-592. -/
def entryOfRaw (r : RawEntry) : Out ExtraEntry := do
  let description ← lasStringToRustString r.description
  let name ← lasStringToRustString r.name
  pure {
    dataType := .ofU8 r.dataType
    description := description
    name := name
    offset := r.offset
    maxValue := r.max
    minValue := r.min
    noDataValue := r.noData
    options := r.options
    scale := r.scale }

/-- `From<&ExtraBytesEntry> for RawExtraBytesEntry`, las_metadata.rs:594-610. -/
def rawOfEntry (e : ExtraEntry) : Out RawEntry := do
  let r : RawEntry := { RawEntry.default with
    dataType := e.dataType.toU8
    options := e.options
    noData := e.noDataValue
    min := e.minValue
    max := e.maxValue
    scale := e.scale
    offset := e.offset }
  let name ← writeRustString e.name r.name
  let r := { r with name := name }
  let description ← writeRustString e.description r.description
  pure { r with description := description }

/-! ### The builder, las_metadata.rs:612-668 -/

/-- `ExtraBytesEntryBuilder::new(..)`, las_metadata.rs:619-633. -/
def buildEntry (t : ExtraType) (name description : String) : ExtraEntry where
  dataType := t
  name := name
  description := description
  maxValue := zeros 8
  minValue := zeros 8
  noDataValue := zeros 8
  offset := 0
  options := 0
  scale := 0

/-- `with_offset`, las_metadata.rs:635-639. -/
def withOffset (e : ExtraEntry) (v : BitVec 64) : ExtraEntry :=
  { e with offset := v, options := setOption e.options offsetBit }

/-- `with_scale`, las_metadata.rs:641-645. -/
def withScale (e : ExtraEntry) (v : BitVec 64) : ExtraEntry :=
  { e with scale := v, options := setOption e.options scaleBit }

/-- `min_data_value`, las_metadata.rs:647-651. -/
def withMin (e : ExtraEntry) (v : Bytes) : ExtraEntry :=
  { e with minValue := v, options := setOption e.options minBit }

/-- `max_data_value`, las_metadata.rs:653-657. -/
def withMax (e : ExtraEntry) (v : Bytes) : ExtraEntry :=
  { e with maxValue := v, options := setOption e.options maxBit }

/-- `no_data_value`, las_metadata.rs:659-663. -/
def withNoData (e : ExtraEntry) (v : Bytes) : ExtraEntry :=
  { e with noDataValue := v, options := setOption e.options noDataBit }

/-! ### VLRs -/

/-- `las::Vlr` (crate `las`): the fields the code uses, and the address of the first byte of `data`,
    which `bytemuck::cast_slice` looks at. -/
structure Vlr where
  userId : String
  recordId : BitVec 16
  data : Bytes
  dataAddr : Nat
  deriving DecidableEq, Repr

/-- `KNOWN_VLR_USER_ID`, las_metadata.rs:77. -/
def knownVlrUserId : String := "LASF_Spec"

/-- `ExtraBytesVlr::RECORD_ID`, las_metadata.rs:677. -/
def extraBytesRecordId : BitVec 16 := 4

/-- `bytemuck::cast_slice::<u8, RawExtraBytesEntry>`, las_metadata.rs:714: panics when the address is not
    a multiple of the alignment of `RawExtraBytesEntry` (8, because of the `f64` fields), even for an
    empty slice, and when the length is not a multiple of the size. -/
def castEntries (data : Bytes) (addr : Nat) : Out (List RawEntry) :=
  if addr % 8 ≠ 0 then panicked
  else if data.length % rawEntrySize ≠ 0 then panicked
  else .ok ((List.range (data.length / rawEntrySize)).map fun i =>
    RawEntry.ofBytes ((data.drop (i * rawEntrySize)).take rawEntrySize))

/-- `TryFrom<&Vlr> for ExtraBytesVlr`, las_metadata.rs:692-722. -/
def extraBytesOfVlr (v : Vlr) : Out (List ExtraEntry) := do
  bailIf (decide (v.userId ≠ knownVlrUserId))
  bailIf (decide (v.recordId ≠ extraBytesRecordId))
  bailIf (decide (v.data.length % rawEntrySize ≠ 0))
  let raw ← castEntries v.data v.dataAddr
  raw.mapM entryOfRaw

/-- The address of the bytes of a `Vec<u8>`: `heap` is the one the allocator returned; a vector without
    capacity has none and its pointer is the dangling address 1 (the alignment of `u8`). -/
def vecAddr (data : Bytes) (heap : Nat) : Nat := if data = [] then 1 else heap

/-- `TryInto<Vlr> for &ExtraBytesVlr`, las_metadata.rs:724-751. `Vlr::new` (crate `las`) takes the user
    id up to the first NUL, like `las_string_to_rust_string`. -/
def vlrOfExtraBytes (entries : List ExtraEntry) (heap : Nat) : Out Vlr := do
  let raw ← entries.mapM rawOfEntry
  let data := raw.flatMap RawEntry.bytes
  assertThat (decide (data.length % rawEntrySize = 0))
  let userId ← writeRustString "LASF_Spec" (zeros 16)
  bailIf (decide (data.length ≥ 2 ^ 16))
  let userId ← lasStringToRustString userId
  pure ⟨userId, extraBytesRecordId, data, vecAddr data heap⟩

/-! ## Layouts of files with extra bytes -/

/-- The parts of `LASMetadata` (las_metadata.rs:779-788) that determine the layout. -/
structure LasMetadata where
  format : Format
  extraBytesVlr : Option (List ExtraEntry)

/-- `extra_byte_attributes`, las_layout.rs:144-153. -/
def extraByteAttributes : Option (List ExtraEntry) → Out (List AttrDef)
  | some entries => entries.mapM ExtraEntry.getPointAttribute
  | none => pure []

/-- `point_layout_from_las_metadata`, las_layout.rs:134-184. The subtraction of `usize` values at line
    171 panics on underflow (as with overflow checks on). -/
def pointLayoutFromMetadata (m : LasMetadata) (exact : Bool) : Out PointLayout := do
  let base ← pointLayoutFromFormat m.format exact
  if m.format.extraBytes = 0 then pure base
  else do
    let attributes ← extraByteAttributes m.extraBytesVlr
    let described := (attributes.map AttrDef.size).sum
    let base ← addPacked base attributes
    if m.format.extraBytes < described then panicked
    else if m.format.extraBytes - described > 0 then
      base.addAttribute ⟨"UndescribedExtraBytes", .byteArray described⟩ (.packed 1)
    else pure base

end Pasture.Las
