# Formal model of Mortano/pasture in Lean 4 — design

The properties are in `properties.jsonl` (C01, C02, ...). The claims and their
theorem names are in `MANIFEST.json`. The Lean project is `lean/`.

## 1. How the code is modelled

* One Lean module per Rust module or cluster, under `lean/Verif/`.
  `Verif/Model/*` holds executable definitions (total functions), each with a
  comment citing the file and lines in `/repo`. `Verif/Spec/*` holds small,
  independent specifications. `Verif/Lemmas/*` holds helper proofs.
  `Verif/Props/*` holds the property theorems and, next to each one, an
  `example` showing that a non-trivial case meets its hypotheses.
* `&mut self` becomes "return the new value".
* A Rust panic is `Except.error Fault.panic`, a returned `Err` is
  `Except.error Fault.err` (`abbrev Out α := Except Fault α`). `Option` stays data.
* Bytes are `BitVec 8`, memory is `List Byte`. `&data[a..b]` is `sliceGet`, which
  panics when `a > b` or `b > len`; `copy_from_slice` also panics on a length
  mismatch. No read is totalised with a default value.
* `usize`/`u64` sizes and offsets are `Nat` unless a property is about wrapping.
  Where the code's behaviour at the machine-integer limit matters (C25, C33,
  C35, C39, C43) `BitVec`/explicit bounds are used.
* Floating point: Lean's `Float` is opaque to the kernel, so `Model/Float.lean` is an
  executable IEEE 754 binary32/binary64 model (signed zero, subnormals, infinities,
  NaN) whose operations are proved to be the correctly rounded (nearest, ties to
  even) exact results. Algorithms whose property does not depend on rounding may
  instead be modelled over an ordered field; the definition then says so and the
  claim is labelled partial where it matters.
* `HashMap` is an association list; the modelled code never depends on its
  iteration order unless the definition says so.
* External crates (`las`, `laz`, `serde_json`, `rayon`, `proj`, `kd_tree`) are
  parameters or abstract byte streams; what is assumed of them is in section 4.

## 2. Plan per property

| Property | Modelled | Proof |
|---|---|---|
| C01 | `align_to`, `DataType::{size,min_alignment}`, `add_attribute`, `from_attributes` | refinement to an independent "least aligned offset" specification, induction on the attribute list |
| C02 | the same, with mixed field alignments | invariant by induction over `add_attribute` calls |
| C03 | `from_members_and_alignment` (stable sort, neighbour check, max) | iff-characterisation; sorted neighbours disjoint implies pairwise disjoint |
| C04 | `add_attribute` on a layout from C03 | expected false: witness; `_partial` for layouts whose last listed member is the highest |
| C05 | `from_attributes_packed` | expected false for N > 1: witness; `_partial` for N = 1 and for the offsets for all N |
| C06 | lookups, `compare_without_offsets` | list lemmas; equivalence via set of pairs |
| C07 | `calculate_offsets_and_alignment` | refinement to the C01/C05 specification plus C03 |
| C08 | `VectorBuffer` | refinement to `List Bytes`, induction over operations |
| C09 | `HashMapBuffer` | refinement to `List (attribute ↦ bytes)`, induction over operations |
| C10 | both | corollary of C08 and C09 through one abstract machine |
| C11, C12, C13, C14 | both plus `ExternalMemoryBuffer` | corollaries / direct frame lemmas |
| C15 | `FromIterator` with an explicit size hint | expected false for `VectorBuffer`: witness; `_partial` for exact hints |
| C16 | `filter`, `filter_into` | equality with `List.filter` on indices |
| C17, C18, C19 | `BufferSlice`, `BufferSliceMut` over an abstract buffer | index translation; C18 and C19 expected false: witnesses and `_partial`s |
| C20 | `ExternalMemoryBuffer` | iff and frame |
| C21 | iterator state machines | induction over call sequences; `nth` past the end expected false |
| C22 | `sort_by` as core merge sort (std contract) | permutation, sortedness, stability |
| C23 | attribute pusher | invariant; double push expected false |
| C24 | `RawAttributeView` address arithmetic | equality with `get_attribute` |
| C25, C26 | conversion table; integer `as` on `BitVec` | table completeness by case analysis; wrap/widen lemmas; C26 expected false |
| C27, C28 | mappings and the four loops | each loop refines one point-wise specification |
| C29 | `RawPointConverter` | expected false: witness; `_partial` |
| C30 | untyped points | get/set frame |
| C31 | `align_to` | arithmetic |
| C32 | AABB over a linear order | lattice laws |
| C33 | `expand_bits_by_3`, `reverse_bits` on `BitVec 64` | per-bit characterisation |
| C34 | folds | tightness by induction |
| C35 | bit packing on `BitVec` | per-bit |
| C36, C43 | LAS layouts | evaluation over the finite format table; symbolic extra bytes |
| C37 | quantisation | exact rationals for the bound, an executable binary64 rounding model for a drift witness |
| C38, C39 | reader state machine over a list of records | induction over call sequences |
| C40, C41, C42 | writer state machine | invariant over write sequences; record round trip |
| C44, C45, C46 | VLR codec, accessors, text fields | round trips; C45 expected false |
| C47 | flush state machines (LAS, PNTS) | interleavings; PNTS expected false |
| C48, C52 | `PointReader::read`, `read_all_into`, ASCII reader | C48 second half and C52 expected false |
| C49 | extension lookup | case analysis; second half expected false |
| C50, C51, C53 | ASCII parse / print | C51 and C53 expected false in part |
| C54, C55, C56 | PNTS writer/reader byte layout | arithmetic and round trip; C56 expected false |
| C57, C58 | voxel grid | the markers are the computed sums; the map of voxels by an invariant of the insertion loop; C58 expected false |
| C59 | RANSAC selection | max over any reduction tree |
| C60 | convex hull index bookkeeping | invariant over iterations; empty buffer expected false |
| C62 | `PointView`, `AttributeView` | views read and write what the buffer's own accessors do |
| C63 | `as` between floats and integers | statements about the exact value of the result |
| C64 | `AttributeViewConverting` and its iterator | value at each index; iterator by the contract of C21 |
| C67 | extra bytes builder | induction over call sequences |
| C66 | `las_point_format_from_point_layout` | expected false: witness; `_partial` for the attribute sets of the standard |
| C65 | `transform_attribute` | loop over points refines a pointwise update |
| C68, C69 | averages and most common values of the voxel grid | sums are exact below 2^53 and rounding does not cross floats; ties expected to depend on the hash order |
| C70 | the distance formulas of RANSAC | the model's formulas are generic in the arithmetic: with reals they are minima over the line and the plane |
| C71 | the convex hull as a geometric statement: closed surface, every point inside, the returned points are the extreme points | the side tests are abstracted as a relation between computed and real numbers; induction over iterations (horizon edges form the border of the visible triangles), Hahn-Banach for the convex combinations; instantiated with reals and with `f64` for whole coordinates up to 1000; expected false for coplanar points |
| C61 | `transform_bounds` | expected false: witness; `_partial` for axis-wise monotone maps |
| C72 | `reproject_point_cloud_within`, `reproject_point_cloud_between` | PROJ is an arbitrary function on positions; loops over points refine a pointwise update |
| C73 | `compute_centroid` | folds of rounded sums with an error bound by induction; exact for whole numbers |
| C74 | `compute_normals` and what it calls | the formulas are generic in the arithmetic: with reals, the covariance matrix is the quadratic form of squared distances, the cubic formula finds its eigenvalues; the normal is expected not to be the best (the shift of the diagonal is lost): witness, and a bound on how far it is from the best; panics with `f64` |
| C75 | batch and feature tables of 3D Tiles | write then read for any faithful JSON codec; arithmetic of the padding; expected false for single values that look like other entries |
| C76 | `serde` of tilesets | induction over the tree; the parser's recursion limit bounds the depth; violations for deeper trees and numbers JSON has no text for |
| C77 | `BoundingBox::from(&AABB)` | rounding error analysis; witness for a corner outside |
| C78 | `TilesetBuilder` | induction over the calls |
| C79 | `contains_approx`, `as_cubic` | rounding is monotone, so the rounded difference decides up to half a unit; witnesses for NaN and for a cube that is too small |
| C80 | `analyze_file` of the `info` tool | expected false: the readers want a buffer with points in it, and the buffer is empty |
| C81 | `point_layout_from_las_metadata` with entries, the readers on it | the layout is the one without extra bytes with members appended; the default converter ignores names it does not know, so reading a record splits into reading its first part and copying the rest |
| C82 | `RawLASWriter` for headers with extra bytes | count the bytes of each record, for all layouts, by induction over points, chunks and calls; expected false with extra bytes |
| C83 | readers and writers of LAS files combined | bits of the record item by item, positions by C37, then C38 and C47 for the files; induction over copies |
| C84 | `write_all`, `read_all` and the choice of point format and header | C66 for the format, C85/C37 for positions, then C41 (LAS) and C42/C38 (LAZ) for the files |
| C85 | the writers of C40 to C42 | invariants of the loops until the first point without a record, which panics |
| C86 | `LASMetadata` from a header: class names, text, extra bytes, named fields | first record of each kind in the list; slices of the table; UTF-8 from C46 |
| C87 | world positions read as `Vec3f64` or `Vec3f32` | the rule of the position attribute in the converter; nearest single precision number of an integer is an integer at most 64 away |
| C88 | `start_of_first_evlr` of the header and the place of the extended records in the file | invariant of the writer over calls; the field is never updated |
| C89 | the six `From<las::Point>` conversions and the memory of the packed types | a packed record shows its fields (induction over the fields); format by format |
| C90 | the functions of the derive macro from syntax trees to field descriptions | inversion of the functions; the table of builtin names by evaluation |
| C91 | memory as address and bytes: buffers, slices, `from_bytes`, `cast_slice`, the views by reference; the address of a `Vec` over its history | where the values lie, by refinement to a list of records; divisibility; induction on the calls |
| C92 | opening and reading `.pnts` files with `u64` arithmetic and stream positions; all the parsing functions of tables and tilesets | every parsing function returns, by structure of the code; what an opened file looks like is derived from the bytes alone, without the assumption that it was written by anyone |
| C93 | the readers on a stream that was cut off (`Truncates`) | a simulation: every step on the cut stream does what it does on the whole one if it ends before the cut, and fails if it goes behind it; loops and calls are composed of such steps. With C38 for what the whole file gives |
| C94 | `from_read` of both readers from the header of the `las` crate on: metadata, then two layouts | the outcome of each step by cases; the records of the extra bytes VLR are related byte by byte to what table 24 of the LAS specification says |
| C95 | the code `serde` derives for data types, definitions, members, layouts and boxes, as functions to and from JSON values; UUIDs as text | a relation between documents and values (`Spec/Serde.lean`), and one equivalence per type; round trips follow from it |
| C96 | `PntsMetadata` and its named fields; `from_read` as modelled for C92 | a description of the entries of a feature table (`Spec/PntsMeta.lean`), one equivalence per entry, and one for opening |
| C97 | `flush` of the PNTS writer over a destination whose `write` takes some of the bytes (`Model/ShortWrites.lean`) | simulation of the writer over a plain stream |
| C98 | `read_into` of all readers, with the reader a failing call leaves behind (`Model/FailedReads.lean`) | the functions agree with those without that reader; invariant over all steps; case analysis on the first step that fails |
| C99 | `write` of all writers, with the writer a failing call leaves behind (`Model/FailedWrites.lean`) | the functions agree with those without that writer; induction over the calls with an invariant that separates points stored, counted and seen by the bounds |
| C100 | buffers of points of size zero (no new model) | such buffers are determined by their count; each operation computed on it |
| C101 | models of C59, IEEE 754 arithmetic of Model/Float.lean | exact cancellation of floats: `x - x`, `u × -u`; zeros and NaNs are closed under the formulas; concrete witnesses for rounding |
| C102 | models of C74, IEEE 754 arithmetic of Model/Float.lean | a bound on the size of every intermediate result (no overflow, so no NaN); the largest entry of the matrix is positive if two neighbors are apart, since sums of squares do not decrease; no entry is much larger than the trace, so the curvature is finite |
| C103 | models of C60 | invariant: each edge belongs to an even number of triangles; adding an edge to the outer edges toggles its parity, so kept triangles and outer edges together keep the parity of every set of edges; the outer edges have an even degree at each vertex |
| C104 | models of C40 and C47 | the bytes of the file are cut into records and read by the tables of LAS 1.4; C40 and C47 give header and records, a computation with the bit fields the return numbers, C37 the distance of a stored coordinate; a tightest box has a point on each face |
| C105 | models of C25 to C28 | integers: the two conversions are reductions modulo powers of two of which the smaller divides the larger; floats: C63; a lookup by name finds the partner in either direction; the converse by a table of one lost number for each pair of number types, put into a record of zeros |
| C106 | models of C28, C36 to C38 | attribute by attribute: the conversion from the records is the conversion from the default layout after the one from the records to the default layout; for packed flags both extract the same bits and then convert the byte (or u16); a target attribute has a conversion for the one way exactly if it has one for the other; points with C28 and C38 |
| C107 | models of C40 to C42, C47, C51, C54 | the state of each writer is determined by the points written so far: the invariants of C40, C42 and C54 for both sequences, and for text a loop over all points; refused points by C85 |
| C108 | models of C32 and C34 | the corners of a box by the ranks of the coordinates that are not NaN: folds of minimum and maximum over integers; ranges from the characterisation in C34 |
| C109 | models of C25, C27 and C28 | one table of triples of number types; integers by residues, integers through floats by exactness, `f32` through `f64` by exactness of the cast; the other triples by one witness each |
| C110 | models of C50, with the iteration order of the hash set as a parameter that ranges over all permutations | the attributes of the layout are a permutation of those of the format; conversions between such layouts by C27 |
| C111 | models of C13, C16, C17 and C27 | a conversion shows the image of every point under one function; appending, filtering and slicing commute with that |
| C112 | models of C27 and C40 | conversion to the default layout keeps every value a record is made of; a record and the box depend on these values only |
| C113 | models of C27 and C51 | a line is a function of the values of the described attributes; conversion keeps the values of attributes with the same definition |
| C114 | models of C27, C54 and C55 | what is stored of a converted point is what is stored of the point: conversion to the same type is the identity; the contents of the files follow from C54, the points read from C55 |
| C115 | models of C54 and C55 | the points read are those stored (C55), in a layout with the types of the file; what is stored of them is the same (C114) |
| C116 | models of C27 and C56 | both reads as functions of the stored points; conversion and displacement commute if the type of the positions is kept |
| C117 | models of C27 and C50 | the bytes that are read for an attribute do not depend on the layout; the others are 0 both ways |
| C118 | models of C50, C51 and C53 | the parsed double is nearest to the printed decimal, so it is at most as far away as the original one, and ties go to the even decimal both times |

## 3. Properties the code violates

See section 5: each has a theorem proving the negation from a concrete witness and a
`_partial` theorem for the part that holds.

## 4. Trusted base

* Lean's kernel. Axioms: at most `propext`, `Classical.choice`, `Quot.sound` (vcheck
  prints them per theorem; nothing else is used).
* The reading of `/repo` that produced the model (cited line by line).
* The Rust semantics of the constructs used: slices and their panics,
  `copy_from_slice`, `chunks_exact`, `Vec::resize`, integer and float `as`. The
  stable `sort_by` is core Lean's `List.mergeSort`.
* A little-endian host (native-endian byte representation of primitive types).
* IEEE 754 arithmetic with round-to-nearest-even; all NaNs are one value, and a NaN
  result has one fixed bit pattern.
* Of the `las` crate (0.8): `point::Format` (the meaning of the format numbers 0 to 10
  and the record lengths), transcribed in `Model/Las.lean`, and `Vlr::new`, which takes
  the user id up to the first NUL. Of `bytemuck::cast_slice` in `ExtraBytesVlr`: it
  panics for an address that is not a multiple of 8; the address of an empty `Vec<u8>`
  is 1 (the dangling pointer of its alignment).
  The writers take the `las` crate's `raw::Header::write_to` as an arbitrary function from headers to byte strings
  of one fixed length, and the VLRs as given byte strings. Of `laz`: `compress_many` takes the bytes handed to it in order.
  Of `las` header parsing (`raw::Header`, `Builder`, VLRs): its results (point count,
  transforms, record length, offset to the points) are given. Of the `laz` crate: the
  decompressor delivers the records of the file in order and can seek to a record.
* `Path::extension` and `str::to_lowercase` (section on C49 in `Model/BaseIo.lean`).
* The standard library's number parsing (`str::parse` for integers and `f64`), number formatting (`{:.n}`, `to_string`),
  `str::split` and `BufRead::lines`, modelled in `Model/Ascii.lean` from their documentation; files are valid UTF-8. The
  iteration order of the `HashSet` of attributes is an arbitrary permutation.
* `serde_json` is an arbitrary text codec that is faithful on the tables the writer makes (`Faithful` in `Spec/Pnts.lean`;
  one codec is shown to be so in `Lemmas/PntsCodec.lean`), with an arbitrary rounding of finite floats. `bincode` writes
  the header fields as little-endian numbers. `Write::write` writes everything it is given. The iteration order of the
  `HashMap` of converters is an arbitrary permutation.
* Of the voxel grid: the loops placing the markers have a bound on their steps, a parameter of the model that the theorems
  quantify over (`none` means: still running); `slice::binary_search_by` is modelled as a bisection; the map counting the
  most common value has numbers as keys, where the code has their decimal text, and its iteration order is an arbitrary
  permutation.
* Of RANSAC: the values of the random number generator are parameters (lists of numbers, reduced modulo the length of the
  buffer), and so is the tree along which rayon joins the results. Of nalgebra 0.32: the order of the operations in `cross`,
  `dot` and `norm` (`Model/Vec3.lean`); `f64::sqrt` is correctly rounded (`sqrt_nearest` shows that the model is).
* Of the convex hull: the iteration order of the hash sets is an arbitrary permutation. Of reprojection: PROJ
  (`proj_create_crs_to_crs`, `proj_trans`) is an arbitrary function from two names and a position to a position.
* `serde`'s derived code for the types of 3D Tiles (`Model/Tileset.lean`) and for layouts and boxes (`Model/Serde.lean`, with
  `serde_json::Value` as the format and the text forms the crate `uuid` knows) is modelled from their attributes; nalgebra writes a
  matrix as the array of its entries, column by column. The parser of `serde_json` refuses exactly what is nested more than
  127 levels deep (`Faithful` and `Serde` in `Spec/Pnts.lean`, `Spec/Tileset.lean`). `float-ord` compares the bits of floats,
  with those of negative numbers inverted.
* Of the estimation of normals: `atan2`, `sin` and `cos` on `f64` are arbitrary functions, and the k-d tree is an arbitrary
  function from a list of points, a position and a number to a list of points. nalgebra's `DMatrix::diagonal` returns a copy,
  and `max` of a matrix goes column by column. A `sort_by` of three numbers compares each of them.
* Closures passed to the API (predicates, comparators, transformations) are pure and
  do not panic.

Alignment of addresses (the alignment panics of bytemuck's `cast_slice`/`from_bytes`) is modelled for
`ExtraBytesVlr` and, for the views by reference, in `Model/ViewAddress.lean` (C91); the other theorems about
these views (C21, C22, C62) are about memory that is aligned for `T`. The pointer of a `Vec<u8>` without
capacity is the address 1.

Not modelled: allocation failure, `usize` overflow of sizes (sizes are
natural numbers), IO errors of the underlying stream, the external crates' own
behaviour, `Debug`/`Display` output unless a property names it. Conversion targets are
`VectorBuffer`, `ExternalMemoryBuffer`, `HashMapBuffer` and the slices these hand out.

## 5. Disagreements found

Each line is a statement the code violates (from its documentation or from the
property list), with the theorem that proves the violation.

| Property | What happens | Theorem |
|---|---|---|
| C04 | `add_attribute` after `from_members_and_alignment` with out-of-order members places the new attribute on top of an existing one | `C04_violated` |
| C05 | `from_attributes_packed(N)` with N > 1 differs from `repr(C, packed(N))` in the point size | `C05_violated` |
| C07 | the derive macro ignores `align(N)` and a second `repr`, and accepts `repr(packed)` without `C`, which leaves the order of the fields to the compiler | `C07_derive_ignores_align`, `C07_derive_reads_first_repr_only`, `C07_packed_alone_violated` |
| C14 | with zero-size points reads at any index succeed; columnar `get_point`/`set_point` accept over-long slices | `C14_zero_size_points_violated`, `C14_columnar_accepts_long_slices` |
| C15 | `VectorBuffer::from_iter` sizes the buffer by the upper bound of the size hint, leaving zero points at the end | `C15_violated`, `C15_violated_for_loose_bounds`, `C15_too_small_bound_panics` |
| C16 | `filter_into` trusts `num_matches_hint`: a wrong hint panics | `C16_wrong_hint_panics` |
| C18 | a mutable slice checks indices against the end of its range, so it reaches past its own length | `C18_violated`, `C18_violated_everywhere` |
| C19 | slicing a slice over its whole range panics (`end < len` is asserted); `BufferSlice::new` is unchecked | `C19_violated` |
| C21 | `nth(n)` beyond the end panics, or returns a reference outside the buffer (reachable from safe code) | `C21_violated_*` |
| C23 | pushing an attribute range twice is accepted and shifts the column | `C23_double_push_violated` |
| C26 | asking for a converter between incompatible types panics instead of `None` | `C26_violated` |
| C27 | `BufferLayoutConverter` panics for a generic `BufferSlice` as source and a generic `BufferSliceMut` as target; `convert_into` documents a panic for different lengths but accepts longer targets | `C27_generic_slice_panics`, `C27_generic_target_panics`, `C27_into_interleaved`, `C27_into_columnar` |
| C29 | `RawPointConverter` skips attributes whose type is the same in both layouts: they are not copied | `C29_violated` |
| C30 | untyped points panic on a value of the wrong length although they return a `Result` | `C30_violated_wrong_size` |
| C64 | `view_attribute_with_conversion` panics for inconvertible types although it returns a `Result` | `C64_rejects` |
| C32 | `AABB::from_iter` starts from `f64::MAX`/`f64::MIN`: infinite coordinates give a box that is too large; no points panic | `C32_from_iter_violated`, `C32_from_iter_empty` |
| C34 | `calculate_bounds` has the same start values, and panics for a position type without conversion; the conversion branch of `minmax_attribute` always panics | `C34_violated_*`, `C34_minmax_rejects` |
| C37 | positions are truncated, not rounded: 2.8 with scale and offset 0.7 is stored one full step too low; 29 with scale 0.01 is read and written back as 28; NaN is stored as 0 | `C37_error_violated`, `C37_same_integers_violated`, `C37_nan_violated` |
| C66 | a layout with the extended scan angle but no GPS time (and similar combinations) gives a format that does not exist, from which no layout can be made | `C66_violated` |
| C43 | `UndescribedExtraBytes` gets the number of described bytes instead of the remaining ones; more described than extra bytes underflow | `C43_violated`, `C43_violated_unless`, `C43_underflow_violated` |
| C44 | an extra bytes VLR without entries, or with data that is not 8-byte aligned, panics when it is read | `C44_empty_violated`, `C44_unaligned_violated` |
| C45 | `*_as_float` fail for float types and succeed for unsigned integers; printing a float entry with a minimum, maximum or no-data value panics; the option bits are ignored; the raw no-data value printed is the minimum | `C45_*_violated` |
| C46 | a text cut inside a UTF-8 character cannot be read back | `C46_cut_violated` |
| C38 | with undescribed extra bytes the record layout is shorter than a record, and reading two points into an interleaved buffer reads contiguous bytes across the record boundary | `C38_undescribed_violated` |
| C39 | `seek_point` to 2^63 or more panics instead of going to the end | `C39_large_panics` |
| C48 | `read_all_into` overwrites the first points of the buffer, or panics when it is too short; it never appends | `C48_read_all_into_violated` |
| C49 | `.LAZ` (or any spelling but lower case) is opened as uncompressed LAS | `C49_violated` |
| C40 | points written in another layout than the default one of the file are not counted by return number (LAS and LAZ); legacy counts filled by an early flush stay when the count outgrows them | `C40_by_return_violated`, `C40_legacy_violated` |
| C41 | bit fields that do not fit (return number 9 in formats 0 to 5) are cut silently | `C41_bits_violated` |
| C42 | writing points in another layout to a LAZ file hands 50,000 records per chunk to the compressor, however many points there are | `C42_custom`, `C42_violated` |
| C50 | a value for an attribute that has another datatype in the buffer is dropped, although `read_into` documents a conversion or an error | `C50_datatype_violated` |
| C51 | the literals `c` and `u` write the return number (or fail when there is none) | `C51_written`, `C51_violated`, `C51_user_data_violated` |
| C52 | `read_into` returns the number of points asked for, so `read` appends points that are not in the file | `C52_surplus`, `C52_violated` |
| C53 | with precision 0, ten is written as `1` and zero as nothing; in general all factors of ten are lost | `C53_violated`, `C53_whole_partial` |
| C39 | the same for `.pnts` files, for targets seen from the end or the current point | `C39_pnts_large_panics` |
| C47 | the `.pnts` writer stores only what is written before the first flush | `C47_pnts_lost`, `C47_pnts_violated` |
| C47 | the LAZ writer appends the extended records again on every flush, and `into_inner` flushes: a file that was flushed has them twice | `C47_laz_longer`, `C47_laz_violated` |
| C54 | on a stream that does not begin at a multiple of 8 the header's length and the alignment are wrong | `C54_position_violated` |
| C55 | reading at the end of a `.pnts` file is an error instead of 0 points; a center that is not finite makes the file unreadable | `C55_end_violated`, `C55_center_violated` |
| C56 | the center is added to every point of the buffer, read or not; a position type other than `Vec3f32`/`Vec3f64` is an error after the points are already read | `C56_violated`, `C56_types` |
| C57 | the filter does not return for a leaf size that is not positive (or too small to move a marker), panics for an empty buffer, and puts a point into a voxel that is not nearest when distances are rounded | `C57_diverges`, `C57_empty_panics`, `C57_nearest_violated` |
| C58 | the greatest of negative values is 0; ids above 2^53 are rounded | `C58_violated_negative`, `C58_violated_large` |
| C68 | in voxels of 2^54 points, the sum of an averaged attribute no longer grows: points with the intensity 1 give a point with the intensity 0 | `C68_violated` |
| C69 | two equally common values: the result depends on the iteration order of a hash map, which Rust randomises per run | `C69_violated` |
| C59 | RANSAC with zero iterations panics, which is not documented | `C59_panics` |
| C60 | `convex_hull_as_points` panics for an empty buffer | `C60_violated_empty` |
| C60 | `convex_hull_as_points` panics for non-empty buffers: a rounding error makes points on a line look independent, the triangle has no area, and later no triangle is left | `C60_violated_rounding` |
| C60 | both functions of the convex hull panic from three points on if the positions are not `Vec3f64`, although the first loop converts them | `C60_violated_datatype` |
| C71 | if four of the points are in a plane, the returned hull can miss a point of the buffer, with exactly representable small coordinates (`(2,0,0) (0,0,0) (1,1,0) (2,0,1) (0,2,0) (1,0,0)`: the second point is outside) | `C71_violated` |
| C61 | `transform_bounds` transforms two corners only; for a turn by 45 degrees the returned box of the unit cube has no extent along x and misses the other corners | `C61_violated` |
| C73 | the check for points to skip looks for NaNs only: an infinite coordinate gives an infinite centroid, unless another point has a NaN; the documentation ("same distance to all other points") does not describe the mean | `C73_infinite_violated`, `C73_documented_violated` |
| C74 | `eigen_3x3` subtracts the eigenvalue from `diagonal()`, which is a copy: the normal is the longest cross product of two rows of the covariance matrix, not the eigenvector of the least eigenvalue | `C74_normal_violated` |
| C74 | the eigenvalue of the unscaled matrix is multiplied by the scale: the curvature grows with the square of the size of the cloud | `C74_curvature_violated` |
| C74 | the determinant of the unscaled matrix is compared with `f64::EPSILON`: small clouds have curvature 0 | `C74_small_violated` |
| C74 | undocumented panics: fewer than three finite neighbors; an infinite coordinate (`partial_cmp().unwrap()` on NaNs) | `C74_few_panics`, `C74_infinite_panics` |
| C75 | a feature table entry with a single value that is an array (or an object with a `byteOffset`) is read back as another kind of entry | `C75_features_violated` |
| C76 | tilesets with more than 61 levels below the root can be written and not read (recursion limit of the parser) | `C76_deep_violated` |
| C76 | a geometric error that is NaN or infinite passes the builder's check and is written as `null`, which cannot be read | `C76_nonfinite_violated` |
| C77 | center and half axes are rounded: the box made from the bounds 0.1 to 0.2 does not contain the corner of the bounds; for huge bounds the axes of the box are infinite | `C77_violated`, `C77_overflow_violated` |
| C79 | `contains_approx` negates comparisons that are false for NaN: a point with NaN coordinates is in every box | `C79_nan_violated` |
| C79 | `as_cubic` of the bounds 0.1 to 0.2 does not contain their corner | `C79_cubic_violated` |
| C80 | the `info` tool reads each chunk into a buffer it has just cleared, and every reader panics if the buffer is too short: the detailed analysis panics for every file with points | `C80_las_violated`, `C80_laz_violated`, `C80_pnts_violated` |
| C81 | an extra bytes entry whose name is used by the point format or another entry makes opening the file panic (`add_attribute` on a duplicate name) instead of returning an error | `C81_clash_violated` |
| C81 | in formats 6 to 10 an extra byte named `LASBasicFlags` is taken for the bit flags of the record: return numbers are read from it | `C81_flags_violated` |
| C82 | `RawLASWriter` never writes extra bytes but leaves the record length in the header as it is: every file with extra bytes and points is too short and reading it fails | `C82_short_violated`, `C82_unreadable_violated` |
| C82 | `write_points_default_layout` does not skip the extra bytes of a point in the buffer: from the second point on, all values come from wrong bytes | `C82_shifted_violated`, `C82_value_violated` |
| C82 | `RawLAZWriter` panics for every header with extra bytes | `C82_laz_violated` |
| C83 | writing truncates coordinates, so that copying a file with the default scale 0.001 changes the stored coordinate 2001 to 2000; the error adds up over copies of copies | `C83_violated`, `C83_drift_violated` |
| C84 | layouts with scan angles but no GPS times are refused, although a format with scan angles exists | `C84_no_format_violated` |
| C84 | layouts with scan angle ranks and, e.g., scanner channels get a format without scan angle ranks; these are dropped silently | `C84_rank_violated` |
| C84 | the fixed scale 0.001 and offset 0 make `write_all` panic for coordinates from 2147484 m on | `C84_range_violated` |
| C84 | LAZ files of the formats 9 and 10 are written but cannot be read | `C84_laz_unreadable_violated` |
| C84 | a buffer without points is written to a `.pnts` file that `read_all` refuses | `C84_pnts_empty_violated` |
| C84 | `write_all` to a `.pnts` file sets no center: a coordinate of 5500000.25 m comes back as 5500000 m | `C84_pnts_precision_violated` |
| C85 | points with NaN coordinates are accepted and stored at the offset | `C85_nan_violated` |
| C86 | class names of less than 15 bytes end with NUL characters, records in EVLRs are ignored, years outside of `u16` panic | `C86_names_violated`, `C86_extended_violated`, `C86_year_violated` |
| C87 | positions read as `Vec3f32` convert the integers to `f32` before scaling: 16777217 with scale 0.001 and offset -16777 is read as 0.216 instead of 0.217 | `C87_single_violated` |
| C88 | the LAS writer never updates the start of the extended records in the header: a header without points, with extended records, gives a file whose header says they start at the first point | `C88_violated` |
| C90 | a documentation comment on a field, or `nalgebra::Vector3<f64>` as its type, makes `derive(PointType)` fail; a field without `#[pasture]` is accepted if another macro's attribute reads like it | `C90_comment_violated`, `C90_path_violated`, `C90_other_macro_violated` |
| C91 | `view.iter()`, `iter_mut()` and `sort_by()` panic on a new buffer without points for every type of alignment greater than 1: the empty `Vec<u8>` has address 1 | `C91_empty_violated`, `C91_empty_columns_violated`, `C91_external_violated` |
| C92 | `PntsReader::from_read` panics on a file with a byte offset near 2⁶⁴, and on every stream that does not stand at position 0; reading far into a file that claims 2⁶³ points panics (builds with overflow checks; otherwise the sums wrap around) | `C92_offset_violated`, `C92_position_violated`, `C92_index_violated` |
| C94 | opening a LAS file panics if the extra bytes VLR is not aligned in memory, if its names clash, or if it describes more bytes than the records have | `C94_las`, `C94_address_violated` |
| C95 | deserialised layouts are not checked: clashing names, overlapping attributes, attributes outside the point (a buffer then panics), sizes other than that of the type | `C95_unchecked_violated`, `C95_unchecked_panics_violated` |
| C95 | deserialised boxes may have a minimum above the maximum; a box with an infinite coordinate cannot be read back from JSON | `C95_bounds_violated` |
| C96 | `get_named_field("BATCH_LENGTH")` returns a value for files without it | `C96_batch_length_violated` |
| C96 | files that store `RTC_CENTER` in the binary part, as the format allows, are refused | `C96_center_violated` |
| C96 | files with `POSITION_QUANTIZED` are opened, but their points have no positions | `C96_quantized_violated` |
| C97 | the JSON headers of a PNTS file are written with `write` instead of `write_all`: on a destination that takes fewer bytes at once the rest is lost without an error | `C97_violated` |
| C98 | a failing `read_into` moves the reader: a LAS stream that ends too early stays at its end, and seeking to the reported index does not move it; LAZ readers refuse a layout after reading the points; PNTS readers add the center after moving on; text readers drop the lines before an unreadable one | `C98_truncated`, `C98_violated`, `C98_laz_violated`, `C98_pnts_violated`, `C98_ascii_violated` |
| C99 | a failing `write` leaves traces: points before the refused one are in the bounds (LAS, LAZ), in the file or the compressor (LAS; LAZ in chunks of 50000), but not in the counts, and a LAS writer is not marked as unflushed, so they may overwrite the extended records; text writers leave a line that has begun | `C99_las_violated`, `C99_las_evlrs_violated`, `C99_laz_violated`, `C99_ascii_violated` |
| C13, C100 | points that take no memory are lost by `append_interleaved` and by collecting without a size hint in a `VectorBuffer`, and make a `HashMapBuffer` panic; raw views of columns of size zero and the attribute pusher divide by zero or reject all points | `C100_append_interleaved_violated`, `C100_collect_violated`, `C100_raw_view_violated`, `C100_pusher_violated` |
| C101 | RANSAC on points at the same position (or, for planes, on a line) divides zero by zero, so the model has no inliers at all, not even its own points; rounding can exclude two of the three points of a plane | `C101_duplicates_violated`, `C101_collinear_violated`, `C101_rounding_violated` |
| C102 | `compute_normals` gives a normal of NaNs if all neighbors of a point are at the same position, and panics for very large finite coordinates | `C102_coincident_violated`, `C102_large_violated` |
| C103 | `convex_hull_as_triangle_mesh` returns meshes with edges that belong to four triangles or to a single one if points are in a plane or equal, and edges with four triangles for points in general position because of rounding errors | `C103_planar_violated`, `C103_hole_violated`, `C103_rounding_violated` |
| C104 | `RawLASWriter::write` counts points by the return number before it is reduced to three or four bits, and computes the bounds of positions before they are reduced to the grid, so the header may contradict the records | `C104_return_violated`, `C104_bounds_violated` |
| C106 | a LAS file read into f32 positions differs from the same file read in the default layout and converted, because the integers are rounded to f32 before scale and offset are applied (0.216 instead of 0.217 at the integer 2^24 + 1); i32 positions, which the conversion gives, cannot be read directly | `C106_single_violated`, `C106_whole_violated` |
| C107 | points in another layout than the default one that are written to a LAZ file in two calls instead of one give 50000 more records | `C107_laz_violated` |
| C108 | with NaN among the values, the result of `minmax_attribute` and of collecting points into an `AABB` depends on the order of the points | `C108_minmax_violated`, `C108_from_iter_violated` |
| C110 | the default layout of an ASCII reader lists the attributes in the random order of a `HashSet`: buffers read with the same format can have different layouts, and appending one to the other panics | `C110_violated` |
| C112 | points with return numbers that are written in another layout are counted by return only if the user converts them to the default layout first | `C112_violated` |
| C113 | with the format `c`, the text of a point depends on its return number and not on its classification | `C113_violated` |
| C116 | absolute positions read into a layout with double precision differ from those that are read in the layout of the file and converted | `C116_violated` |
| C116 | positions that the file does not have are set to the center by a direct read and to 0 by the detour | `C116_none_violated` |
| C117 | values of attributes with another type are dropped if they are read directly, and converted by the detour | `C117_violated` |
| C118 | a second copy of a file with the column `c` but without `r` has other numbers (it is written as return numbers and read as classes), and a file without decimal places can have lines that cannot be read | `C118_violated`, `C118_precision_violated` |
