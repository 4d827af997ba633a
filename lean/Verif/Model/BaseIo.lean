import Verif.Model.LasReader

/-!
# Model of the file factory and of `read_all` / `read_all_into` (`pasture-io/src/base`)

A file name is the last component of a path, as a list of characters (names that are no Unicode text are left
out). Opening the file itself is not modelled: the functions start from the reader.
-/

namespace Pasture.BaseIo

open Las

/-- `std::path::Path::extension` on the last component of a path: the part after the last dot, if there is a
    dot that is not the first character; `..` has none. -/
def extension (name : List Char) : Option (List Char) :=
  if name = ['.', '.'] then none
  else
    let after := (name.reverse.takeWhile (fun c => c ≠ '.')).reverse
    if after.length = name.length then none
    else if name.length - after.length - 1 = 0 then none
    else some after

/-- `SupportedFileExtensions`, base/io_factory.rs:21-25. -/
inductive FileFormat where
  | las
  | tiles3d
  deriving DecidableEq, Repr

/-- `str::to_lowercase`. Only ASCII letters are converted: the lower case of no other character contains one of
    the letters of `las`, `laz` and `pnts`, so the comparisons come out the same. -/
def toLowercase (s : List Char) : List Char := s.map Char.toLower

/-- `get_extension_lookup`, base/io_factory.rs:28-46. -/
def getExtensionLookup (name : List Char) : Out FileFormat := do
  let ext ← orErr (extension name)
  let lower := toLowercase ext
  if lower = "las".toList ∨ lower = "laz".toList then pure .las
  else if lower = "pnts".toList then pure .tiles3d
  else .error .err

/-- `path_is_compressed_las_file`, las/las_metadata.rs:67-75. -/
def pathIsCompressedLasFile (name : List Char) : Out Bool :=
  match extension name with
  | some ext => pure (decide (ext = "laz".toList))
  | none => .error .err

/-- The reader (or writer) made for a file. -/
inductive Flavor where
  | las
  | laz
  | pnts
  deriving DecidableEq, Repr

/-- Which reader `GenericPointReader::open_file` makes, base/io_factory.rs:54-66 with las_reader.rs:85-95 and
    116-128; `GenericPointWriter::open_file`, 125-145 with las_writer.rs:58-70 and 88-96, makes the same
    choice. -/
def openFile (name : List Char) : Out Flavor := do
  match ← getExtensionLookup name with
  | .las => do
    let compressed ← pathIsCompressedLasFile name
    pure (if compressed then .laz else .las)
  | .tiles3d => pure .pnts

/-- `read_all`, base/mod.rs:24-37, after opening; `count` is the point count of the metadata, `max` is
    `usize::MAX`. -/
def readAll {ρ : Type} [PointReader ρ] (β : Type) [OwningBuffer β] [AsMemoryMut β] [MakeBufferFromLayout β]
    (max : Nat) (r : ρ) (count : Option Nat) : Out (β × ρ) :=
  readPoints β r (count.getD max)

/-- `read_all_into`, base/mod.rs:40-54, after opening. -/
def readAllInto {ρ : Type} [PointReader ρ] {β : Type} [BorrowedMutBuffer β] [AsMemoryMut β] (b : β) (r : ρ)
    (count : Option Nat) : Out (Nat × β × ρ) := do
  let n ← orErr count
  PointReader.readInto r b n

end Pasture.BaseIo
