{"id": "C01", "title": "Default-aligned layouts follow the repr(C) rule", "statement": "PointLayout::from_attributes places attribute k at the smallest multiple of its alignment that is not below the end of attribute k-1 (0 for the first), reports as alignment the largest attribute alignment (at least 1), and as point size the smallest multiple of that alignment not below the end of the last attribute, exactly like a Rust repr(C) struct with the same fields; it panics iff two names coincide, an alignment is not a power of two, or the size does not fit Layout.", "quantifier": "every finite sequence of attribute definitions whose datatypes have a power-of-two alignment (all built-in datatypes, ByteArray(n), and Custom with such an alignment)", "why_tests_cant": "offset/padding arithmetic interacts across arbitrarily long attribute sequences and unbounded ByteArray/Custom sizes", "anchors": ["pasture-core/src/layout/point_layout.rs: PointLayout::from_attributes, add_attribute, packed_offset_of_next_field", "pasture-core/src/math/arithmetic.rs: Alignable::align_to"]}
{"id": "C02", "title": "Attributes never overlap in layouts built by add_attribute", "statement": "In any layout obtained from PointLayout::default() by any sequence of successful add_attribute calls, with any mix of Default and Packed(n) alignments, attribute names are unique, the byte ranges of any two attributes are disjoint and ordered like the insertion order, and every byte range lies inside size_of_point_entry().", "quantifier": "all finite sequences of add_attribute calls, all datatypes, all field alignments", "why_tests_cant": "the claim is an invariant over unbounded call histories", "anchors": ["pasture-core/src/layout/point_layout.rs: PointLayout::default, add_attribute, size_of_point_entry, byte_range_within_point"]}
{"id": "C03", "title": "from_members_and_alignment accepts exactly the valid member lists", "statement": "from_members_and_alignment returns a layout if and only if the names are pairwise distinct, no two members overlap and the alignment/size form a valid memory layout; then the layout holds exactly the given members, each inside the point, and the point size is the least multiple of the alignment covering every member. Otherwise it panics.", "quantifier": "all finite member lists in any order, all offsets and sizes, all alignments", "why_tests_cant": "the overlap check looks only at neighbours after sorting; that this rules out every overlapping pair for every ordering needs a proof", "anchors": ["pasture-core/src/layout/point_layout.rs: PointLayout::from_members_and_alignment"]}
{"id": "C04", "title": "Adding an attribute to any layout never overlaps existing attributes", "statement": "For any layout the API can produce, including one created by from_members_and_alignment with members listed out of offset order, a successful add_attribute yields a layout whose attributes are still pairwise disjoint.", "quantifier": "all layouts reachable through the public constructors, all new attributes and field alignments", "why_tests_cant": "requires considering layouts whose listing order differs from the memory order", "anchors": ["pasture-core/src/layout/point_layout.rs: add_attribute, packed_offset_of_next_field, from_members_and_alignment"]}
{"id": "C05", "title": "Packed layouts follow the repr(packed(N)) rule", "statement": "PointLayout::from_attributes_packed(attrs, N) yields the offsets, alignment and size of a Rust repr(C, packed(N)) struct with the same fields.", "quantifier": "all attribute sequences and all packing values N", "why_tests_cant": "depends on the combination of every datatype alignment with every N over unbounded sequences", "anchors": ["pasture-core/src/layout/point_layout.rs: PointLayout::from_attributes_packed, add_attribute"]}
{"id": "C06", "title": "Attribute lookups on a layout agree with each other", "statement": "has_attribute, get_attribute, index_of, at, offset_of, has_attribute_with_name and get_attribute_by_name always describe the same member: has_attribute(a) iff get_attribute(a) is Some(m) iff index_of(a)=Some(i) with at(i)=m iff offset_of(a)=Some(m.offset()); for layouts with unique names, lookups by name and by definition agree when the datatypes agree; compare_without_offsets is an equivalence relation that holds exactly when the two layouts have the same set of (name, datatype) pairs.", "quantifier": "all layouts with unique names and all attribute definitions", "why_tests_cant": "the equivalence ranges over all pairs of layouts and all permutations of attributes", "anchors": ["pasture-core/src/layout/point_layout.rs: has_attribute, has_attribute_with_name, get_attribute, get_attribute_by_name, index_of, offset_of, at, compare_without_offsets"]}
{"id": "C07", "title": "derive(PointType) layouts are valid and match the struct's memory layout", "statement": "For every struct with distinct attribute names and one repr attribute, which says C, possibly packed or packed(N), and no align(N), the generated PointType::layout() does not panic and reports the offsets, alignment and size that Rust's repr(C) or repr(C, packed(N)) rules assign to the fields.", "quantifier": "all finite field sequences of Pasture primitive types, repr(C) and packed(N) for every power of two N", "why_tests_cant": "unbounded number of field sequences; the macro recomputes the layout rules by hand", "anchors": ["pasture-derive/src/lib.rs: calculate_offsets_and_alignment, derive_point_type", "pasture-derive/src/layout.rs: get_struct_member_layout", "pasture-core/src/layout/point_layout.rs: from_members_and_alignment"]}
{"id": "C08", "title": "VectorBuffer behaves like a list of points", "statement": "Starting from an empty VectorBuffer, after any sequence of push_points, resize, clear, set_point, set_point_range, set_attribute, set_attribute_range, swap and append operations that did not panic, len(), get_point, get_point_range and get_attribute return what the same operations on a plain list of fixed-size point records would give; new points made by resize are zero.", "quantifier": "all point layouts whose attributes lie inside the point (including zero-size points), all operation histories, all indices and byte contents", "why_tests_cant": "claims equivalence for unbounded histories and arbitrary layouts", "anchors": ["pasture-core/src/containers/point_buffer.rs: VectorBuffer (BorrowedBuffer, BorrowedMutBuffer, OwningBuffer impls)"]}
{"id": "C09", "title": "HashMapBuffer behaves like a list of attribute tuples", "statement": "Starting from an empty HashMapBuffer, after any such operation sequence that did not panic, len() and get_attribute/get_point return what the same operations on a plain list of per-point attribute values would give, and every column stays exactly len() * attribute size bytes long.", "quantifier": "all valid layouts (unique names, attributes inside the point), all operation histories", "why_tests_cant": "claims equivalence for unbounded histories; columns are updated independently and must stay in step", "anchors": ["pasture-core/src/containers/point_buffer.rs: HashMapBuffer (BorrowedBuffer, BorrowedMutBuffer, OwningBuffer impls)"]}
{"id": "C10", "title": "Interleaved and columnar storage are observationally equivalent", "statement": "Running the same sequence of operations on a VectorBuffer and on a HashMapBuffer with the same layout gives equal len() and equal values for every attribute of every point.", "quantifier": "all valid layouts and all operation histories in which neither buffer panics", "why_tests_cant": "cross-representation equivalence over unbounded histories", "anchors": ["pasture-core/src/containers/point_buffer.rs: VectorBuffer, HashMapBuffer"]}
{"id": "C11", "title": "Writing one attribute changes nothing else", "statement": "After set_attribute(a, i, data) on an owning buffer, reading attribute a of point i returns data, and reading any other attribute or any other point returns what it returned before.", "quantifier": "all valid layouts, buffers, attributes, indices and data", "why_tests_cant": "frame property over all other attributes and points", "anchors": ["pasture-core/src/containers/point_buffer.rs: set_attribute, get_attribute for VectorBuffer, HashMapBuffer, ExternalMemoryBuffer"]}
{"id": "C12", "title": "set_point / get_point round-trip", "statement": "After set_point(i, bytes), get_point(i) returns bytes on interleaved buffers, and on columnar buffers returns bytes at every attribute's byte range (padding excepted); other points are unchanged.", "quantifier": "all valid layouts, indices and point contents", "why_tests_cant": "must hold for every layout including ones with padding and out-of-order members", "anchors": ["pasture-core/src/containers/point_buffer.rs: set_point, get_point (VectorBuffer, HashMapBuffer)"]}
{"id": "C13", "title": "append concatenates", "statement": "Appending buffer B to buffer A of the same layout, through append, append_interleaved or append_columnar and for any combination of interleaved/columnar source and target, leaves A's points followed by B's points and B unchanged; different layouts panic.", "quantifier": "all pairs of buffers with all combinations of memory layouts", "why_tests_cant": "four independent code paths must agree for all sizes", "anchors": ["pasture-core/src/containers/point_buffer.rs: OwningBuffer::append, append_interleaved, append_columnar"]}
{"id": "C14", "title": "Out-of-range access panics instead of touching other points", "statement": "get_point, get_attribute, set_point, set_attribute, swap and the range variants panic whenever an index or range end exceeds len() or the data has the wrong length (checked entry points), and panic for an attribute that is not part of the layout.", "quantifier": "all buffers, all indices and ranges", "why_tests_cant": "boundary conditions on unbounded index space", "anchors": ["pasture-core/src/containers/point_buffer.rs: VectorBuffer, HashMapBuffer, ExternalMemoryBuffer accessors"]}
{"id": "C15", "title": "Collecting points into a buffer keeps exactly those points", "statement": "Collecting an iterator of typed points into a VectorBuffer or a HashMapBuffer gives a buffer whose len() is the number of points yielded and whose i-th point is the i-th yielded point, whatever size_hint the iterator reports.", "quantifier": "all point sequences and all size hints compatible with them (lower <= n <= upper)", "why_tests_cant": "the iterator's size_hint is an independent input that tests rarely vary", "anchors": ["pasture-core/src/containers/point_buffer.rs: FromIterator for VectorBuffer, FromIterator for HashMapBuffer"]}
{"id": "C16", "title": "filter keeps exactly the matching points in order", "statement": "HashMapBuffer::filter(predicate) returns a buffer with the same layout whose points are those with predicate(i)=true, in their original order, for every target buffer kind.", "quantifier": "all buffers and all predicates on indices", "why_tests_cant": "quantifies over all predicates", "anchors": ["pasture-core/src/containers/point_buffer.rs: HashMapBuffer::filter, filter_into"]}
{"id": "C17", "title": "Immutable slices expose exactly their range", "statement": "For a slice r of a buffer, len() is the length of r, point/attribute i of the slice is point/attribute r.start+i of the buffer for i < len(), and any access outside the slice panics.", "quantifier": "all buffers, all ranges inside the buffer, all local indices and ranges", "why_tests_cant": "index translation must be right for all offsets including empty ranges at the end", "anchors": ["pasture-core/src/containers/slice.rs: BufferSlice, get_and_check_global_point_index, get_and_check_global_point_range"]}
{"id": "C18", "title": "Mutable slices only affect their own range", "statement": "Through a mutable slice r, reads and writes at local index i < len() act on point r.start+i of the underlying buffer, indices i >= len() panic, and no operation reads or changes a point outside r.", "quantifier": "all buffers, all ranges inside the buffer, all local indices", "why_tests_cant": "isolation claim over all indices, including ranges not starting at 0", "anchors": ["pasture-core/src/containers/slice.rs: BufferSliceMut::get_and_check_global_point_index, get_and_check_global_point_range"]}
{"id": "C19", "title": "Slicing composes", "statement": "For a slice of a buffer, taking the sub-slice a..b with b <= len() gives the same points as slicing the buffer once with the combined range; in particular slice(0..len()) is the whole slice.", "quantifier": "all nested ranges with b <= len()", "why_tests_cant": "boundary b = len() and empty sub-slices", "anchors": ["pasture-core/src/containers/slice.rs: SliceBuffer::slice for BufferSlice, BufferSliceMut"]}
{"id": "C20", "title": "External memory buffers interpret exactly the given memory", "statement": "ExternalMemoryBuffer::new accepts memory iff its length is a multiple of the point size; then len()*size equals the memory length, reads return the bytes of the memory and writes change exactly the addressed bytes.", "quantifier": "all memories and layouts", "why_tests_cant": "all lengths and layouts incl. zero-size points", "anchors": ["pasture-core/src/containers/point_buffer.rs: ExternalMemoryBuffer"]}
{"id": "C21", "title": "Point and attribute iterators yield every element once, in order", "statement": "Iterating a point view or attribute view from the start yields elements 0..len() in order and then None for ever; nth(n) behaves like n calls to next() followed by one more, for every interleaving of next and nth.", "quantifier": "all buffer lengths and all sequences of next()/nth(n) calls", "why_tests_cant": "all interleavings of cursor operations, including skips past the end", "anchors": ["pasture-core/src/containers/point_iterators.rs: Iterator impls", "pasture-core/src/containers/attribute_iterators.rs: Iterator impls"]}
{"id": "C22", "title": "Sorting a typed view is a stable permutation", "statement": "PointViewMut::sort_by rearranges the points of the buffer into an order sorted by the comparator, with the same multiset of points, keeping equal points in their original order, and leaves len() and the layout unchanged.", "quantifier": "all buffers and all total preorders", "why_tests_cant": "sorting correctness for all inputs", "anchors": ["pasture-core/src/containers/buffer_views.rs: PointViewMut::sort_by"]}
{"id": "C23", "title": "Columns assembled with the attribute pusher are consistent", "statement": "A HashMapBuffer obtained from HashMapBufferAttributePusher::done holds, for each attribute of the layout, the values pushed for it, and every column has len() entries; done() panics when an attribute was not pushed or column lengths differ.", "quantifier": "all layouts and all push sequences", "why_tests_cant": "all push orders and repeated pushes", "anchors": ["pasture-core/src/containers/point_buffer.rs: HashMapBufferAttributePusher"]}
{"id": "C24", "title": "Raw attribute views address the same bytes as get_attribute", "statement": "For every buffer and attribute, element i of the raw strided attribute view (interleaved: offset plus i times point size; columnar: i times attribute size) is the same byte string as get_attribute(attr, i), for all i < len().", "quantifier": "all valid layouts with non-zero strides, all buffers and indices", "why_tests_cant": "address arithmetic over all layouts", "anchors": ["pasture-core/src/containers/raw_attribute_view.rs: RawAttributeView, RawAttributeViewMut"]}
{"id": "C25", "title": "Every datatype conversion request is answered soundly", "statement": "get_converter_for_attributes returns no converter exactly when the datatypes are equal, a converter for every ordered pair of distinct scalar types and of distinct Vec3 types, whose output has the target datatype's size; integer conversions wrap modulo 2^n of the target, so widening conversions preserve values and converting to a wider type and back is the identity; Vec3 conversions act component-wise.", "quantifier": "all ordered pairs of datatypes, all values", "why_tests_cant": "all 2^n values of every pair of types", "anchors": ["pasture-core/src/layout/conversion/attribute_conversion.rs: get_converter_for_attributes, get_generic_converter, convert_scalar_using_as, convert_vec3_using_as"]}
{"id": "C26", "title": "Impossible attribute conversions are reported, not fatal", "statement": "For two datatypes with no conversion (for example Vec4u8 to F32), requesting a converter yields the documented 'no conversion' answer rather than a panic.", "quantifier": "all ordered pairs of datatypes", "why_tests_cant": "all pairs outside the conversion table", "anchors": ["pasture-core/src/layout/conversion/attribute_conversion.rs: get_generic_converter, get_converter_for_attributes", "pasture-core/src/containers/buffer_views.rs: AttributeViewConverting::new"]}
{"id": "C27", "title": "Layout conversion gives the same result for every memory layout", "statement": "BufferLayoutConverter::convert and convert_into_range produce, for each point and each mapped target attribute, the converted (and transformed) source value, independent of whether source and target are interleaved or columnar; unmapped target attributes, points outside the target range and the source are unchanged (zero in a fresh target). A slice is a source with the points of its range, and converting into a slice changes the sliced buffer like converting into that part of it.", "quantifier": "all layouts, mappings, ranges, buffers and all four combinations of memory layout", "why_tests_cant": "four hand-written loops over unbounded data must agree", "anchors": ["pasture-core/src/layout/conversion/buffer_conversion.rs: BufferLayoutConverter::convert, convert_into, convert_into_range, convert_columnar_to_columnar, convert_columnar_to_general, convert_general_to_columnar, convert_general_to_general"]}
{"id": "C28", "title": "Custom mappings replace the default mapping for their target", "statement": "After set_custom_mapping(from, to) the target attribute `to` is filled from `from` and from nothing else; all other target attributes keep their mapping; later calls for the same target override earlier ones.", "quantifier": "all layouts and all sequences of set_custom_mapping calls", "why_tests_cant": "history of overrides is unbounded", "anchors": ["pasture-core/src/layout/conversion/buffer_conversion.rs: BufferLayoutConverter::set_custom_mapping, set_custom_mapping_with_transformation, for_layouts, for_layouts_with_default"]}
{"id": "C29", "title": "Point-wise raw conversion copies attributes that need no conversion", "statement": "RawPointConverter::from_to(a, b).convert fills every attribute of the target point that also exists by name in the source layout, including attributes whose datatype is the same in both layouts.", "quantifier": "all pairs of layouts and all points", "why_tests_cant": "all combinations of matching and non-matching attributes", "anchors": ["pasture-core/src/layout/conversion/attribute_conversion.rs: RawPointConverter::from_to, convert"]}
{"id": "C30", "title": "Untyped points read back what was written", "statement": "set_raw_attribute(a, v) followed by get_raw_attribute(a) on an untyped point returns v, other attributes are unchanged, and a missing attribute or a wrong-size buffer is reported as an error without modifying the point.", "quantifier": "all valid layouts, attributes, points and data", "why_tests_cant": "frame and error behaviour over all layouts", "anchors": ["pasture-core/src/containers/untyped_point.rs: UntypedPointBuffer, UntypedPointSlice get_raw_attribute, set_raw_attribute"]}
{"id": "C31", "title": "align_to rounds up to the next multiple", "statement": "x.align_to(a) for a > 0 is the least multiple of a that is >= x, align_to(0) is x, and align_to is idempotent and monotone.", "quantifier": "all unsigned x and a for which x + a - 1 does not overflow", "why_tests_cant": "all pairs of values", "anchors": ["pasture-core/src/math/arithmetic.rs: Alignable"]}
{"id": "C32", "title": "Bounding boxes form a lattice", "statement": "union is the least box containing both boxes (commutative, associative, idempotent), extend_with_point is the least box containing the box and the point, intersects is symmetric and holds iff some point lies in both boxes, contains is inclusive on all faces, and a box built from an iterator of points contains exactly the tightest range of them.", "quantifier": "all boxes and points with coordinates from a linear order without NaN", "why_tests_cant": "universal order-theoretic laws", "anchors": ["pasture-core/src/math/bounds.rs: AABB::union, extend_with_point, intersects, contains, from_min_max, from_iter"]}
{"id": "C33", "title": "Morton bit tricks are exact", "statement": "expand_bits_by_3(x) places bit i of the low 21 bits of x at bit 3i and leaves every other bit 0, so interleaving three expanded coordinates loses nothing; reverse_bits reverses the 64 bits and is an involution.", "quantifier": "all 2^64 values", "why_tests_cant": "2^64 inputs", "anchors": ["pasture-core/src/math/bitmanip.rs: expand_bits_by_3, reverse_bits"]}
{"id": "C34", "title": "Attribute minimum/maximum and point-cloud bounds are tight", "statement": "minmax_attribute returns None iff the buffer is empty and otherwise the componentwise least and greatest attribute value; calculate_bounds returns the least box containing all positions, None iff there are no points or no position attribute.", "quantifier": "all buffers with NaN-free values", "why_tests_cant": "all sequences of values", "anchors": ["pasture-algorithms/src/minmax.rs: minmax_attribute", "pasture-algorithms/src/bounds.rs: calculate_bounds", "pasture-core/src/math/minmax.rs: MinMax"]}
{"id": "C35", "title": "LAS flag bytes round-trip", "statement": "Packing return number, number of returns, (classification flags, scanner channel,) scan direction and edge-of-flight-line into the LAS flag byte(s) and unpacking them with the reader's accessors returns the original values for all values that fit their bit fields; out-of-range values are truncated to their field and never disturb neighbouring fields.", "quantifier": "all flag values, basic and extended formats", "why_tests_cant": "2^32 combinations", "anchors": ["pasture-io/src/las/write_helpers.rs: write_las_bit_attributes", "pasture-io/src/las/raw_readers.rs: get_default_las_converter"]}
{"id": "C36", "title": "LAS point format layouts match the record sizes of the format", "statement": "For point formats 0-10 the exact binary layout has the record size that the LAS specification prescribes and the default layout equals the layout of the corresponding LasPointFormatN struct; las_point_format_from_point_layout recovers the same optional fields from these layouts; extra bytes start right behind the prescribed record; the known LAS attributes are the attributes of these layouts, whatever their datatype.", "quantifier": "all LAS point formats, with and without extra bytes", "why_tests_cant": "together with extra bytes the set of layouts is unbounded", "anchors": ["pasture-io/src/las/las_layout.rs: point_layout_from_las_point_format, point_layout_from_las_metadata, las_point_format_from_point_layout", "pasture-io/src/las/las_types.rs: LasPointFormat0..10"]}
{"id": "C37", "title": "LAS positions survive a write/read cycle", "statement": "A position whose quantised value fits i32 is stored with an error below one scale step per axis and a position read from a file and written again with the same scale and offset is stored as the same integers; a position outside the i32 range is rejected rather than silently wrapped.", "quantifier": "all positions, offsets and non-zero scales", "why_tests_cant": "continuous input domain", "anchors": ["pasture-io/src/las/write_helpers.rs: write_position_as_las_position", "pasture-io/src/las/raw_readers.rs: get_default_las_converter"]}
{"id": "C38", "title": "Reading a LAS file in pieces equals reading it at once", "statement": "For any sequence of read/read_into calls with arbitrary counts, the concatenation of the points returned equals the prefix of the file's points of that total length; each call returns min(count, remaining) points; remaining + consumed always equals the point count.", "quantifier": "all files, all sequences of read counts and seeks, both default and custom layouts", "why_tests_cant": "unbounded call histories and internal chunking", "anchors": ["pasture-io/src/las/raw_readers.rs: RawLASReader::read_into, read_into_default_layout, read_into_custom_layout, remaining_points", "pasture-io/src/base/reader.rs: PointReader::read"]}
{"id": "C39", "title": "Seeking a point reader", "statement": "seek_point(Start/Current/End) moves to the requested index clamped to the point count and returns it, the next read returns points from there on, point_index and point_count leave the position unchanged; targets before the first point are refused.", "quantifier": "all files, all positions, all offsets in the argument types' ranges", "why_tests_cant": "clamping and sign conversion over 64-bit ranges", "anchors": ["pasture-io/src/las/raw_readers.rs: SeekToPoint for RawLASReader", "pasture-io/src/tiles3d/pnts_reader.rs: SeekToPoint for PntsReader", "pasture-io/src/base/seek.rs: SeekToPoint"]}
{"id": "C40", "title": "LAS headers describe the points written", "statement": "After any sequence of writes and a flush the header's point count equals the number of points written, its bounds are the tightest box of the written positions, its per-return counts equal the number of points with each return number, and legacy counts are filled exactly when they fit and the format allows them.", "quantifier": "all sequences of write calls with arbitrary buffers", "why_tests_cant": "accumulated state over unbounded histories", "anchors": ["pasture-io/src/las/raw_writers.rs: RawLASWriter::write_points_default_layout, write_points_custom_layout, update_bounds, update_point_counts, finalize_las_header, flush"]}
{"id": "C41", "title": "LAS record bytes written are the records read", "statement": "Points written with RawLASWriter in the format's default layout occupy exactly len * record length bytes and reading the file back gives the same attribute values (positions up to quantisation), for every point format without extra bytes.", "quantifier": "all point formats, buffers and chunk boundaries", "why_tests_cant": "round trip over all formats, attribute values and sizes beyond the 50,000 point chunk", "anchors": ["pasture-io/src/las/raw_writers.rs: RawLASWriter::write_points_default_layout", "pasture-io/src/las/raw_readers.rs: RawLASReader::read_into_default_layout"]}
{"id": "C42", "title": "Compressed LAS output holds exactly the written points", "statement": "After any sequence of writes the LAZ writer has handed exactly the written records, in order, to the compressor, for default and custom layouts.", "quantifier": "all sequences of write calls with arbitrary sizes", "why_tests_cant": "chunk-size dependent behaviour over histories", "anchors": ["pasture-io/src/las/raw_writers.rs: RawLAZWriter::write_points_default_layout, write_points_custom_layout"]}
{"id": "C43", "title": "LAS extra bytes are carried", "statement": "The layout of a file with extra bytes has the size of the file's point record, i.e. described extra attributes plus an UndescribedExtraBytes attribute covering exactly the remaining bytes.", "quantifier": "all point formats, all extra byte counts and ExtraBytes VLRs", "why_tests_cant": "unbounded combinations of described and undescribed bytes", "anchors": ["pasture-io/src/las/las_layout.rs: point_layout_from_las_metadata", "pasture-io/src/las/las_metadata.rs: ExtraBytesVlr"]}
{"id": "C44", "title": "Extra bytes metadata round-trips", "statement": "Converting an ExtraBytes VLR to its binary form and back gives the same entries; data type codes survive u8 -> type -> u8; malformed VLRs (wrong user id, record id or length) are rejected with an error.", "quantifier": "all entry lists that fit a VLR, all byte values", "why_tests_cant": "all encodings of 192-byte records and lists of them", "anchors": ["pasture-io/src/las/las_metadata.rs: ExtraBytesVlr, RawExtraBytesEntry, ExtraBytesDataType"]}
{"id": "C45", "title": "Extra bytes min/max/no_data accessors match the entry's datatype", "statement": "min/max/no_data_as_unsigned, _as_signed and _as_float succeed exactly when the entry has an unsigned, signed or float data type respectively (and the option bit is set), and printing an entry never panics.", "quantifier": "all entries", "why_tests_cant": "all data types times option bits", "anchors": ["pasture-io/src/las/las_metadata.rs: ExtraBytesEntry::min_as_float, max_as_float, no_data_as_float, Display"]}
{"id": "C46", "title": "LAS text fields round-trip", "statement": "A NUL-free UTF-8 string of at most N bytes written into an N-byte LAS text field reads back unchanged; longer strings read back as a prefix.", "quantifier": "all strings and field sizes", "why_tests_cant": "all lengths around N and multi-byte characters", "anchors": ["pasture-io/src/las/write_helpers.rs: write_rust_string_into_las_ascii_array", "pasture-io/src/las/read_helpers.rs: las_string_to_rust_string"]}
{"id": "C47", "title": "Flushing a writer is idempotent and never loses points", "statement": "Calling flush any number of times at any moments does not change the points finally stored: the file contains all points written before and after intermediate flushes.", "quantifier": "all interleavings of write and flush calls (LAS and PNTS writers)", "why_tests_cant": "all interleavings", "anchors": ["pasture-io/src/las/raw_writers.rs: RawLASWriter::flush", "pasture-io/src/tiles3d/pnts_writer.rs: PntsWriter::flush, write"]}
{"id": "C48", "title": "read and read_all_into return exactly the points read", "statement": "PointReader::read(n) returns a buffer with exactly the points the reader delivered (fewer than n at the end of the data), and read_all_into appends all points to the end of the given buffer.", "quantifier": "all readers and counts, all prior buffer contents", "why_tests_cant": "all prior states of the target buffer", "anchors": ["pasture-io/src/base/reader.rs: PointReader::read", "pasture-io/src/base/mod.rs: read_all_into"]}
{"id": "C49", "title": "File extensions choose the right reader regardless of case", "statement": "The generic reader/writer factory treats las and laz (any case) as LAS, pnts as 3D Tiles, rejects other extensions with an error, and a .laz path in any letter case is handled as compressed.", "quantifier": "all paths", "why_tests_cant": "all spellings", "anchors": ["pasture-io/src/base/io_factory.rs: get_extension_lookup", "pasture-io/src/las/las_metadata.rs: path_is_compressed_las_file"]}
{"id": "C50", "title": "ASCII format strings and fields", "statement": "A format string is accepted iff all its characters are known literals, the i-th literal describes the i-th column, a line with fewer columns than literals is an error and surplus columns are ignored; each value goes to the attribute named by its literal and a value that does not parse is an error.", "quantifier": "all format strings, delimiters and lines", "why_tests_cant": "all strings", "anchors": ["pasture-io/src/ascii/ascii_format_util.rs: PointDataType::get_parse_layout", "pasture-io/src/ascii/raw_reader.rs: parse_point"]}
{"id": "C51", "title": "ASCII output columns carry the attribute of their literal", "statement": "Writing points with a format string produces one line per point in which column i is the text of the attribute named by literal i, so that reading the output with the same format string and delimiter recovers the integer attributes exactly.", "quantifier": "all format strings, all points", "why_tests_cant": "all combinations of literals and values", "anchors": ["pasture-io/src/ascii/raw_writer.rs: RawAsciiWriter::write", "pasture-io/src/ascii/raw_reader.rs: RawAsciiReader::read_into"]}
{"id": "C52", "title": "ASCII reads report the number of points read", "statement": "read_into(buffer, count) on an ASCII reader returns the number of lines actually parsed, so PointReader::read never returns points that were not in the file.", "quantifier": "all files and counts", "why_tests_cant": "all relations between count and number of lines", "anchors": ["pasture-io/src/ascii/raw_reader.rs: PointReader::read_into for RawAsciiReader"]}
{"id": "C53", "title": "Trimming zeros keeps the number", "statement": "Removing unnecessary trailing zeros from a formatted number never changes the number it denotes, for every precision setting.", "quantifier": "all decimal strings produced by fixed-precision formatting, all precisions", "why_tests_cant": "all numbers and precisions", "anchors": ["pasture-io/src/ascii/raw_writer.rs: trim_unnecessary_tailing_zeros, set_precision"]}
{"id": "C54", "title": "PNTS sections are aligned and consistent", "statement": "A written .pnts file has a feature table body starting and ending on an 8-byte boundary, every attribute starts on an 8-byte boundary inside the body and does not overlap the next, and the lengths in the header add up to the file length.", "quantifier": "all layouts and point counts", "why_tests_cant": "alignment arithmetic for all sizes", "anchors": ["pasture-io/src/tiles3d/pnts_writer.rs: write_cached_points, create_feature_table, calc_feature_table_body_length, write_feature_table_body", "pasture-io/src/tiles3d/common.rs: write_json_header"]}
{"id": "C55", "title": "PNTS write/read round-trip", "statement": "Points written by PntsWriter in any number of write calls before flushing are read back by PntsReader attribute for attribute in the same order, in any chunking of reads.", "quantifier": "all buffers, all splits into writes and reads", "why_tests_cant": "offset arithmetic over all sizes and histories", "anchors": ["pasture-io/src/tiles3d/pnts_writer.rs: PntsWriter", "pasture-io/src/tiles3d/pnts_reader.rs: PntsReader::read_into"]}
{"id": "C56", "title": "RTC_CENTER is applied to the points read and to nothing else", "statement": "In Absolute mode read_into adds RTC_CENTER exactly once to the position of each point it reads and leaves all other points of the target buffer untouched.", "quantifier": "all buffers at least as long as the number of points read, all counts", "why_tests_cant": "all relations between buffer length and read count", "anchors": ["pasture-io/src/tiles3d/pnts_reader.rs: read_into, apply_rtc_center_offset"]}
{"id": "C57", "title": "Voxel filter partitions the points", "statement": "voxelgrid_filter puts every point into exactly one voxel, produces one output point per non-empty voxel in lexicographic voxel order, never more points than the input, and each point lies in a voxel whose marker is nearest to it on each axis.", "quantifier": "all non-empty point clouds and positive leaf sizes (exact arithmetic)", "why_tests_cant": "all clouds", "anchors": ["pasture-algorithms/src/voxel_grid.rs: find_leaf, create_markers_for_axis, voxelgrid_filter"]}
{"id": "C58", "title": "Voxel max-pooling returns the maximum", "statement": "The centroid value chosen by max-pooling is the greatest attribute value among the voxel's points, for every numeric datatype including negative values.", "quantifier": "all voxels and values", "why_tests_cant": "sign cases across all values", "anchors": ["pasture-algorithms/src/voxel_grid.rs: centroid_max_pool, centroid_most_common"]}
{"id": "C59", "title": "RANSAC returns a best model under every schedule", "statement": "ransac_*_par and ransac_*_serial return one of the generated models whose number of inliers is maximal, with the index list being exactly the points closer than the threshold, in increasing order; the number of inliers does not depend on how the parallel reduction is scheduled.", "quantifier": "all point clouds, all random choices, all reduction trees", "why_tests_cant": "all schedules of a parallel reduction", "anchors": ["pasture-algorithms/src/segmentation.rs: ransac_plane_par, ransac_plane_serial, ransac_line_par, ransac_line_serial, generate_plane_model, generate_line_model"]}
{"id": "C60", "title": "Convex hull output refers to input points", "statement": "convex_hull_as_triangle_mesh and convex_hull_as_points return only indices of points in the buffer, and every iteration keeps the hull's triangles referring to already processed points; an empty buffer is handled without panicking.", "quantifier": "all point clouds", "why_tests_cant": "all histories of hull updates", "anchors": ["pasture-algorithms/src/convexhull.rs: create_convex_hull, iteration, add_edge_to_outer_or_inner_edges, convex_hull_as_points"]}
{"id": "C61", "title": "Transformed bounds contain the transformed box", "statement": "Projection::transform_bounds returns an axis-aligned box that contains the image of every point of the given box.", "quantifier": "all boxes and all coordinate transformations", "why_tests_cant": "all transformations, including rotations and axis flips", "anchors": ["pasture-algorithms/src/reprojection.rs: Projection::transform_bounds"]}
{"id": "C62", "title": "Typed views read and write exactly the points", "statement": "view::<T>() and view_mut::<T>() succeed iff T's layout equals the buffer's layout; at(i) and at_ref(i) give the bytes of point i and panic when i >= len; set_at(i, v) and assigning through at_mut(i) change point i and nothing else; push_point appends one point; view_attribute::<T>(a) succeeds iff a is in the layout with T's datatype, and its at(i)/at_ref(i) equal get_attribute; two views are equal iff they have the same length and are equal element by element, whatever the memory layouts of the two buffers.", "quantifier": "all layouts, buffers, indices and values", "why_tests_cant": "all buffers of any size, both memory layouts on either side of a comparison", "anchors": ["pasture-core/src/containers/buffer_views.rs: PointView, PointViewMut, AttributeView, AttributeViewMut"]}
{"id": "C63", "title": "Floating point conversions round, truncate and saturate as Rust's `as` does", "statement": "Converting an integer attribute to F32/F64 gives the nearest float (ties to even), exactly for integers of up to 24/53 bits, which survive the way back; converting a float to an integer truncates towards zero and clamps to the integer range, NaN becomes 0; F32 to F64 is exact and the way back is the identity except for NaN; F64 to F32 gives the nearest F32.", "quantifier": "all values of all scalar datatypes", "why_tests_cant": "2^64 bit patterns, rounding at every binade and at overflow", "anchors": ["pasture-core/src/layout/conversion/attribute_conversion.rs: get_generic_converter, convert_scalar_generic"]}
{"id": "C64", "title": "Converting attribute views show the converted values", "statement": "view_attribute_with_conversion::<T>(a) shows, at every index, the stored value of attribute a converted to T as a converter for the two datatypes does, and the stored value itself when the types agree; its iterator yields these values under every sequence of next, nth, size_hint and len calls that stays in range; two such views are equal exactly when the attributes are stored with the same type and the shown values are equal one by one; a missing attribute is reported.", "quantifier": "all layouts, buffers, attributes, target types and iterator call sequences", "why_tests_cant": "all buffers of any size, all datatype pairs and every interleaving of iterator calls", "anchors": ["pasture-core/src/containers/buffer_views.rs: AttributeViewConverting, AttributeIteratorByValueWithConversion"]}
{"id": "C65", "title": "transform_attribute changes exactly one attribute", "statement": "transform_attribute(a, f) replaces the value of attribute a of every point i by f(i, old value) and changes no other attribute, no other point and not the length; a missing attribute or a datatype mismatch panics.", "quantifier": "all layouts, buffers in both memory layouts, attributes and functions f", "why_tests_cant": "the function is arbitrary and the frame condition covers every other byte of the buffer", "anchors": ["pasture-core/src/containers/point_buffer.rs: BorrowedMutBuffer::transform_attribute"]}
{"id": "C66", "title": "The LAS point format derived from a layout is a valid one", "statement": "las_point_format_from_point_layout returns the best matching LAS point format for a point layout: one of the formats 0 to 10 of the LAS standard, which can store every LAS attribute of the layout.", "quantifier": "all point layouts with any combination of attributes", "why_tests_cant": "every subset of the optional LAS attributes can occur", "anchors": ["pasture-io/src/las/las_layout.rs: las_point_format_from_point_layout"]}
{"id": "C67", "title": "The extra bytes builder describes what it was given", "statement": "However the methods of ExtraBytesEntryBuilder are combined, the built entry has the given data type, name and description, and its offset, scale, minimum, maximum and no-data value are present exactly if they were given and equal the values given last.", "quantifier": "all call sequences on the builder", "why_tests_cant": "sequences of any length, in any order, with repetitions", "anchors": ["pasture-io/src/las/las_metadata.rs: ExtraBytesEntryBuilder, ExtraBytesOptions"]}
{"id": "C68", "title": "Averages of the voxel grid filter are exact", "statement": "Every component of an integer attribute that voxelgrid_filter averages (colour, intensity, near infrared) is, in an output point, the mean of that component over the points of the voxel, rounded down to an integer.", "quantifier": "all layouts, buffers, voxels and attribute values", "why_tests_cant": "sums of any number of values go through floating point; a rounding error of one unit in the last place could change the result for inputs no test contains", "anchors": ["pasture-algorithms/src/voxel_grid.rs: set_all_attributes, centroid_average_vec, centroid_average_num"]}
{"id": "C69", "title": "The most common value in a voxel is well defined", "statement": "For attributes such as the classification, an output point of voxelgrid_filter has a value that occurs among the points of its voxel at least as often as every other, and running the filter again on the same points gives the same value.", "quantifier": "all layouts, buffers, voxels and iteration orders of the hash map", "why_tests_cant": "the iteration order of a hash map differs from run to run and cannot be enumerated by tests", "anchors": ["pasture-algorithms/src/voxel_grid.rs: centroid_most_common"]}
{"id": "C70", "title": "Distances used for segmentation are Euclidean distances", "statement": "With exact numbers, the distance that ransac_line_* compares with the threshold is the Euclidean distance from a point to the nearest point of the line through the two sampled points, and that of ransac_plane_* the distance to the nearest point of the plane through the three sampled points, unless these are on a line.", "quantifier": "all points and all samples", "why_tests_cant": "the formulas must be right for every position of the points, and rounding hides wrong terms in tests with small integers", "anchors": ["pasture-algorithms/src/segmentation.rs: distance_point_plane, distance_point_line, generate_rng_plane"]}
{"id": "C71", "title": "The convex hull contains every point", "statement": "convex_hull_as_triangle_mesh returns a closed surface (each edge belongs to two triangles, in opposite directions) that no point of the buffer is outside of, and convex_hull_as_points returns exactly the points that are not convex combinations of the other points, so that every point of the buffer is a convex combination of the returned ones.", "quantifier": "all buffers with at least four points not in one plane, all iteration orders of the hash sets", "why_tests_cant": "Whether the hull is right depends on the whole history of insertions and on every side test; tests look at a handful of shapes.", "anchors": ["pasture-algorithms/src/convexhull.rs: convex_hull_as_triangle_mesh, convex_hull_as_points, create_convex_hull, iteration"]}
{"id": "C72", "title": "Reprojection replaces exactly the positions", "statement": "reproject_point_cloud_within replaces the position of every point by its image under the projection and changes no other attribute, point or the length; reproject_point_cloud_between stores the image of the position of source point i in target point i and changes nothing else; both panic exactly if a buffer has no Vec3f64 position attribute, the lengths differ (between), or a name of a reference system cannot be passed to C.", "quantifier": "all buffers of both memory layouts, all layouts, all projections (as functions on positions)", "why_tests_cant": "the projection is arbitrary and the frame condition covers every other byte of the buffer", "anchors": ["pasture-algorithms/src/reprojection.rs: reproject_point_cloud_within, reproject_point_cloud_between, Projection::new, Projection::transform"]}
{"id": "C73", "title": "The centroid is the mean of the usable points", "statement": "compute_centroid returns, in each coordinate, the mean of the positions up to rounding errors; points with a coordinate that is not finite are left out; it panics exactly for an empty buffer or one without Vec3f64 positions.", "quantifier": "all buffers of any length with any coordinates", "why_tests_cant": "rounding errors add up with the number of points, and special values (NaN, infinities) can be anywhere", "anchors": ["pasture-algorithms/src/normal_estimation.rs: compute_centroid, is_dense, is_finite"]}
{"id": "C74", "title": "Estimated normals are those of the best fitting plane", "statement": "compute_normals returns one result per point, in the order of the points. The normal of a point is orthogonal to the plane through the mean of its nearest neighbors with the least sum of squared distances, and the curvature is the surface variation: this sum divided by the sum of squared distances from the mean. In particular, neighbors in one plane give a normal of this plane and curvature 0. It panics exactly if the buffer has fewer than three points or fewer than three neighbors are asked for.", "quantifier": "all buffers, all numbers of neighbors, all positions of the points", "why_tests_cant": "a wrong eigenvector is still a plausible direction, and a wrong curvature a plausible number; tests compare a few symmetric or planar clouds", "anchors": ["pasture-algorithms/src/normal_estimation.rs: compute_normals, compute_covariance_matrix, solve_polynomial, get_largest_eigen_vector, eigen_3x3, solve_plane_parameter"]}
{"id": "C75", "title": "3D Tiles tables survive a round trip", "statement": "A batch table or feature table that ser_batch_table_header / ser_feature_table_header writes at any position of a file is read back by deser_batch_table_header / deser_feature_table_header with the same keys and the same entries, of the same kind; what was written ends at the first multiple of eight bytes in the file that fits, and the batch table reader is positioned there, whether the given size includes the padding or not.", "quantifier": "all tables with JSON values that are not nested too deeply, all positions and surrounding bytes", "why_tests_cant": "entries are arbitrary JSON values; the kind of an entry is guessed from its value when reading, and the padding depends on the position", "anchors": ["pasture-io/src/tiles3d/batch_table.rs: ser_batch_table_header, deser_batch_table_header", "pasture-io/src/tiles3d/feature_table.rs: ser_feature_table_header, deser_feature_table_header", "pasture-io/src/tiles3d/common.rs: read_json_header, write_json_header"]}
{"id": "C76", "title": "Tilesets survive a round trip through JSON", "statement": "Every RootTileset that can be built, with any number of levels, any optional fields and any numbers, is read back from the JSON text it is written as with the same fields, children and properties.", "quantifier": "all tilesets of any depth and any number of children", "why_tests_cant": "trees of unbounded depth with optional fields at every level; special numbers can be anywhere", "anchors": ["pasture-io/src/tiles3d/tileset.rs: RootTileset, Tileset, TilesetContent, BoundingVolume, TilesetProperty"]}
{"id": "C77", "title": "The bounding box of a tile contains the bounds it is made from", "statement": "The oriented box that BoundingBox::from makes from axis-aligned bounds contains every point of these bounds.", "quantifier": "all bounds with finite coordinates", "why_tests_cant": "center and half axes are rounded; whether a corner falls out depends on the last bits of the coordinates", "anchors": ["pasture-io/src/tiles3d/tileset.rs: From<&AABB<f64>> for BoundingBox", "pasture-core/src/math/bounds.rs: AABB::center, AABB::extent"]}
{"id": "C78", "title": "A tileset builder keeps what it was given", "statement": "After any sequence of calls on a TilesetBuilder, the built tileset has in each field the value given last (or the default), and as children those that were added, in the order of the calls; a call panics exactly if it gives a negative geometric error.", "quantifier": "all sequences of builder calls", "why_tests_cant": "the sequence of calls is arbitrary", "anchors": ["pasture-io/src/tiles3d/tileset.rs: TilesetBuilder"]}
{"id": "C79", "title": "Approximate containment and cubes of bounds", "statement": "AABB::contains_approx accepts every point that is in the bounds, and otherwise exactly those whose distance to the bounds is at most epsilon in each coordinate; AABB::as_cubic returns a cube with the same center that contains the bounds.", "quantifier": "all bounds, points and tolerances", "why_tests_cant": "the comparisons are made with rounded differences, and NaNs compare false", "anchors": ["pasture-core/src/math/bounds.rs: AABB::contains_approx, AABB::as_cubic"]}
{"id": "C80", "title": "The info tool reports the extents of a file", "statement": "With --detailed, the info tool prints for every LAS, LAZ or PNTS file, of any number of points, the least and the greatest value of each of the standard attributes the file has.", "quantifier": "all files that can be opened, with any number of points", "why_tests_cant": "the analysis is not covered by tests, and goes through the file in chunks of a million points", "anchors": ["pasture-tools/src/bin/info.rs: analyze_file, minmax_chunk"]}
{"id": "C81", "title": "Described extra bytes are read as attributes", "statement": "A LAS or LAZ file whose records end with extra bytes that the extra bytes VLR describes is opened with a layout that has, behind the attributes of the point format, one attribute per entry with the name and the type of the entry; every way of reading delivers for them the bytes of the record, and the other attributes are read as without extra bytes.", "quantifier": "all point formats, all lists of entries, all records, all sequences of reads and seeks", "why_tests_cant": "the names, number and types of the entries come from the file and are arbitrary; every offset behind them moves", "anchors": ["pasture-io/src/las/las_metadata.rs: point_layout_from_las_metadata", "pasture-io/src/las/las_types.rs: ExtraBytesEntry::get_point_attribute", "pasture-io/src/las/raw_readers.rs: RawLASReader, RawLAZReader", "pasture-io/src/las/las_layout.rs: get_default_las_converter"]}
{"id": "C82", "title": "Written records have the length the header declares", "statement": "After any sequence of successful writes and a flush, a LAS file consists of header, VLRs, as many records of the declared length as the header counts, and extended VLRs, so that it can be read back; extra bytes included.", "quantifier": "all point formats, numbers of extra bytes and sequences of writes and flushes of buffers of any layout", "why_tests_cant": "a wrong record length shows only if the header has extra bytes, and then depends on the number of points and what follows them", "anchors": ["pasture-io/src/las/raw_writers.rs: RawLASWriter, RawLAZWriter", "pasture-io/src/las/las_metadata.rs: point_layout_from_las_metadata"]}
{"id": "C83", "title": "Copies of LAS files are the same", "statement": "Reading all points of a LAS or LAZ file in its default layout, in pieces of any sizes, and writing them to a LAS or LAZ file with the same point format, scales and offsets gives a file with the same records, byte by byte; so do copies of copies.", "quantifier": "all point formats, record contents, scales, offsets, sequences of piece sizes, buffer kinds, and numbers of copies", "why_tests_cant": "every bit of every record matters, and rounding errors of positions add up over copies", "anchors": ["pasture-io/src/las/raw_readers.rs: RawLASReader, RawLAZReader", "pasture-io/src/las/raw_writers.rs: RawLASWriter, RawLAZWriter", "pasture-io/src/las/write_helpers.rs: write_position_as_las_position"]}
{"id": "C84", "title": "Points written with write_all come back with read_all", "statement": "Writing a buffer with write_all to a .las or .laz file and reading the file with read_all gives as many points in the same order; attributes that LAS files can hold keep their values, positions up to the precision of the file.", "quantifier": "all point layouts, contents and sizes of the buffer, buffer kinds on both sides, and both file kinds", "why_tests_cant": "the point format is derived from the layout, and each of the attributes of each format takes its own way through records, chunks and conversions", "anchors": ["pasture-io/src/base/mod.rs: write_all, read_all", "pasture-io/src/las/las_writer.rs: LASWriter::from_path_and_point_layout, LASWriter::from_writer_and_point_layout", "pasture-io/src/las/las_types.rs: las_point_format_from_point_layout"]}
{"id": "C85", "title": "LAS writers accept exactly the points that fit", "statement": "A LAS or LAZ writer accepts a point if and only if its attributes can be converted to those of the file and its coordinates are numbers that fit into 32-bit integers with the scale and offset of the file; otherwise it panics, after any earlier calls.", "quantifier": "all point formats, headers, sequences of write and flush, batches in any layout and of any size, and the position of the offending point", "why_tests_cant": "a point that does not fit can be anywhere in any chunk of any call, and each attribute type has its own conversion", "anchors": ["pasture-io/src/las/raw_writers.rs: RawLASWriter, RawLAZWriter", "pasture-io/src/las/write_helpers.rs: write_position_as_las_position", "pasture-io/src/las/read_helpers.rs"]}
{"id": "C86", "title": "The metadata of a LAS file shows its header and variable length records", "statement": "LASMetadata made from a LAS header has the bounds, point count and point format of the header, the class names, the text and the extra bytes of the records of the file, and the named fields of the header; it exists exactly if these records are well-formed.", "quantifier": "all headers: any number and order of records, of known and unknown kinds, with any contents, and any date", "why_tests_cant": "records can come in any order and number, and their contents are arbitrary bytes", "anchors": ["pasture-io/src/las/las_metadata.rs: LASMetadata, ClassificationLookup, TextAreaDescription, get_named_field"]}
{"id": "C87", "title": "Positions read from LAS files are those of the file, in the precision asked for", "statement": "Reading a LAS or LAZ file into a layout whose position is Vec3f64 gives integer * scale + offset for every coordinate; into a layout whose position is Vec3f32 it gives that position rounded to single precision.", "quantifier": "all files, layouts with a position of either type, numbers of points read and 32-bit coordinates", "why_tests_cant": "whether an error shows depends on the size of the integers, the scale and the offset", "anchors": ["pasture-io/src/las/raw_readers.rs: get_default_las_converter", "pasture-core/src/layout/conversion/buffer_conversion.rs: BufferLayoutConverter"]}
{"id": "C88", "title": "Extended variable length records of a written LAS file are where its header says", "statement": "After any writes and flushes, a LAS file contains the extended variable length records given to the writer exactly once, directly after the points, and the header of the file says where they start.", "quantifier": "all point formats, headers, extended records and sequences of writes and flushes", "why_tests_cant": "the position depends on how many points are written after the header was made, and the records are overwritten and rewritten by each write and flush", "anchors": ["pasture-io/src/las/raw_writers.rs: RawLASWriter::from_write_and_header, write_header, write_evlrs, flush"]}
{"id": "C89", "title": "Points of the las crate keep their values when they become LAS point types", "statement": "Converting a las::Point into LasPointFormat0 to LasPointFormat5 gives a point in the default layout of the format that shows every value of the format unchanged (the scan angle without its decimals, GPS time 0 if there is none); it panics exactly if the format has a colour or wave packets and the point has not.", "quantifier": "all point formats 0 to 5 and all points, with or without the optional parts", "why_tests_cant": "six hand-written conversions of up to twenty fields each; a swapped field shows only for values that differ", "anchors": ["pasture-io/src/las/las_types.rs: From<las::Point> for LasPointFormat0, LasPointFormat1, LasPointFormat2, LasPointFormat3, LasPointFormat4, LasPointFormat5"]}
{"id": "C90", "title": "derive(PointType) accepts the documented structs and only those", "statement": "A struct without generic parameters whose fields have Pasture primitive types and one #[pasture(BUILTIN_X)] or #[pasture(attribute = name)] attribute each gets a layout with the documented attribute names and types, in order; anything else is a compile error.", "quantifier": "all struct definitions: any number of fields, types and attributes", "why_tests_cant": "tests compile a few structs; what is wrongly accepted or refused shows only in definitions nobody tried", "anchors": ["pasture-derive/src/lib.rs: derive_point_type, get_attribute_name_from_field, type_path_to_primitive_type"]}
{"id": "C91", "title": "Views by reference hand out the points themselves", "statement": "at_ref, at_mut, iter, iter_mut and sort_by of a typed view, on every buffer or slice whose layout is that of T, give references to the points (or attribute values) in order: reference i is to the memory of value i, is aligned for T, and no two overlap; a view of a buffer without points gives none.", "quantifier": "all buffers and slices of all lengths, all memory addresses, all point types and alignments, all histories of a buffer", "why_tests_cant": "whether a reference can be made depends on addresses chosen by the allocator; tests run on non-empty buffers with generously aligned memory", "anchors": ["pasture-core/src/containers/buffer_views.rs: PointView::{at_ref,iter}, PointViewMut::{at_mut,iter_mut,sort_by}, AttributeView::{at_ref,iter}, AttributeViewMut::{at_mut,iter_mut}", "pasture-core/src/containers/point_iterators.rs", "pasture-core/src/containers/attribute_iterators.rs"]}
{"id": "C92", "title": "Malformed 3D Tiles input is an error, never a panic", "statement": "Whatever bytes a .pnts file or a tileset.json consists of, opening and reading it returns points (values) or an error: files that are too short, of another kind, without a feature table or a number of points are refused; a file whose values end before its last point gives an error when they are read; a file with all its values gives exactly those.", "quantifier": "all byte sequences, all JSON texts, all positions of the stream, all point indices, counts and modes, both buffer kinds", "why_tests_cant": "the inputs are arbitrary bytes; tests parse a few files that other tools wrote", "anchors": ["pasture-io/src/tiles3d/pnts_reader.rs: PntsReader::{from_read,layout_from_feature_table_header,metadata_from_feature_table_header}, read_into", "pasture-io/src/tiles3d/feature_table.rs", "pasture-io/src/tiles3d/batch_table.rs", "pasture-io/src/tiles3d/common.rs", "pasture-io/src/tiles3d/tileset.rs"]}
{"id": "C93", "title": "Truncated LAS and LAZ files give the points that are there, or an error", "statement": "If the point data of a LAS file ends early, at any byte, or that of a LAZ file after any number of records, then a read gives exactly the points the whole file has in that place if all of them are still there, and an error as soon as one is missing: never invented or half-read points, and never a panic. This holds in any sequence of reads and seeks, for both kinds of buffers and every layout.", "quantifier": "all files, all places to cut them off, all sequences of read and seek calls, all counts, both buffer kinds, all readable layouts", "why_tests_cant": "the place of the cut, the chunks the reader works in and the calls are arbitrary; the tests only read complete files", "anchors": ["pasture-io/src/las/raw_readers.rs: RawLASReader::{from_read,read_into_default_layout,read_into_custom_layout}, RawLAZReader::{from_read,read_into_default_layout,read_into_custom_layout}, seek_point", "pasture-io/src/base/reader.rs: PointReader::read"]}
{"id": "C94", "title": "Opening a LAS or LAZ file gives a reader or an error", "statement": "Whatever the header of a LAS or LAZ file says and whichever variable length records it has, in any order and with any contents, opening it gives a reader if the file is well-formed and an error if not. It does not panic.", "quantifier": "all point formats, all numbers of extra bytes, all lists of variable length records with all contents, both kinds of layouts, LAS and LAZ", "why_tests_cant": "the contents of the records are arbitrary bytes, and the outcome depends on the address the allocator picks for them; the tests open a handful of well-formed files", "anchors": ["pasture-io/src/las/raw_readers.rs: RawLASReader::from_read, RawLAZReader::from_read", "pasture-io/src/las/las_metadata.rs: TryFrom<las::Header> for LASMetadata, TryFrom<&Vlr> for ExtraBytesVlr", "pasture-io/src/las/las_layout.rs: point_layout_from_las_metadata"]}
{"id": "C95", "title": "A layout or a bounding box written with serde is read back", "statement": "With the feature serde, a point layout, an attribute definition or a bounding box that was serialised to JSON is deserialised to an equal value. A document that describes none, or one that cannot exist, is an error. Reading never panics.", "quantifier": "all data types including custom ones with all UUIDs, all layouts of all constructors, all boxes of f64 coordinates, all JSON values", "why_tests_cant": "documents are arbitrary trees, and what is read from one is used in unchecked code without further tests; the only test uses a layout without attributes", "anchors": ["pasture-core/src/layout/point_layout.rs: PointLayout, PointAttributeMember, PointAttributeDefinition, PointAttributeDataType, serde_layout", "pasture-core/src/math/bounds.rs: AABB"]}
{"id": "C96", "title": "A PNTS reader opens exactly the documented files and tells what their feature table says", "statement": "A reader is made for exactly those files that begin with the documented header followed by a JSON object with a number of points, whose attributes are references to the binary part and whose global values have the documented form; every other file is an error. The reader then reports the number of points and exactly the global values that are in the table, and its default layout has exactly the attributes that are stored, in the documented order and without gaps.", "quantifier": "all files (all byte strings and all JSON values in their tables), all names of fields", "why_tests_cant": "tables are arbitrary JSON objects, and every entry can be missing, of another kind, or out of range; the tests open one file", "anchors": ["pasture-io/src/tiles3d/pnts_reader.rs: from_read, layout_from_feature_table_header, metadata_from_feature_table_header", "pasture-io/src/tiles3d/pnts_metadata.rs: Metadata for PntsMetadata", "pasture-io/src/tiles3d/feature_table.rs: deser_feature_table_header", "pasture-io/src/tiles3d/common.rs: json_arr_to_vec3f32, json_arr_to_vec3f64, json_arr_to_vec4u8"]}
{"id": "C97", "title": "A PNTS file arrives completely, however few bytes its destination takes at once", "statement": "If flushing a PNTS writer succeeds, its destination has received the whole file, whatever number of bytes each single write takes of those it is offered.", "quantifier": "all points written, all destinations (for every call any number of bytes taken, between one and all of them)", "why_tests_cant": "how many bytes a write takes is up to the operating system or the wrapped stream; tests write to memory, which takes everything", "anchors": ["pasture-io/src/tiles3d/pnts_writer.rs: PntsWriter::flush, write_cached_points, write_feature_table_body"]}
{"id": "C98", "title": "A read that fails consumes nothing", "statement": "If read_into fails, the reader still stands before the same point: every later call does what it would have done without the failed one.", "quantifier": "all files of every supported format, complete or cut off, all positions of the reader, all target buffers and numbers of points", "why_tests_cant": "a test of an error stops at the error; what the reader does afterwards depends on how far the failed call had come", "anchors": ["pasture-io/src/las/raw_readers.rs: RawLASReader::read_into, RawLAZReader::read_into, read_into_custom_layout, seek_point", "pasture-io/src/tiles3d/pnts_reader.rs: PntsReader::read_into", "pasture-io/src/ascii/raw_reader.rs: RawAsciiReader::read_into"]}
{"id": "C99", "title": "A write that fails leaves no trace", "statement": "If a call of write fails and the program goes on, the file becomes what it would have become without that call: the points of the failed call are neither stored nor counted, and the calls before and after it have their usual effect.", "quantifier": "all sequences of writes and flushes on a new writer of every supported format, in all layouts, with batches that fail at any point and at any position in the sequence", "why_tests_cant": "a test of an error stops at the error; what is left behind depends on how far the failed call had come and shows only after later calls", "anchors": ["pasture-io/src/las/raw_writers.rs: RawLASWriter::write, flush, RawLAZWriter::write", "pasture-io/src/tiles3d/pnts_writer.rs: PntsWriter::write", "pasture-io/src/ascii/raw_writer.rs: RawAsciiWriter::write"]}
{"id": "C100", "title": "Points without data are counted like all others", "statement": "In a layout whose points take no memory (no attributes, or attributes of size zero) a buffer still has the number of points its history gave it: resize, append in all its forms, filter, collecting, the attribute pusher and raw views count them, and every read of an existing point succeeds.", "quantifier": "all layouts whose point size is zero, all numbers of points and all operations that add, remove, select or view points, for both kinds of buffers", "why_tests_cant": "every count that is derived from a number of bytes is right in each test with data, and wrong only here", "anchors": ["pasture-core/src/containers/point_buffer.rs: push_points, resize, append, append_interleaved, append_columnar, filter, FromIterator, HashMapBufferAttributePusher::done", "pasture-core/src/containers/raw_attribute_view.rs: RawAttributeView::len"]}
{"id": "C101", "title": "A RANSAC model contains the points it was made from", "statement": "The two (three) points through which RANSAC lays a line (plane) are at distance zero from it, so for every positive threshold they are among the inliers of the model; a returned line has at least two inliers and a returned plane at least three.", "quantifier": "all buffers with positions, all positive thresholds, all sequences of random draws, serial and parallel", "why_tests_cant": "which points are drawn is random, and whether a computed distance is exactly zero depends on rounding and on coincident points", "anchors": ["pasture-algorithms/src/segmentation.rs: distance_point_plane, distance_point_line, generate_rng_plane, generate_rng_line, generate_plane_model, generate_line_model, ransac_plane_serial, ransac_line_serial, ransac_plane_par, ransac_line_par"]}
{"id": "C102", "title": "Every point gets a finite normal", "statement": "Computing the normals of a cloud with finite positions never panics and gives every point, in order, a finite normal and a finite curvature that is not negative.", "quantifier": "all buffers with at least three points with finite positions, all numbers of neighbors from three, all results of the nearest neighbor search", "why_tests_cant": "whether the eigenvalue formulas meet a NaN, an overflow or a division by zero depends on the coordinates; panics in the middle of a large cloud lose all results", "anchors": ["pasture-algorithms/src/normal_estimation.rs: compute_normals, normal_estimation, compute_centroid, compute_covariance_matrix, solve_polynomial, solve_polynomial_quadratic, eigen_3x3, get_largest_eigen_vector, solve_plane_parameter"]}
{"id": "C103", "title": "The triangle mesh of a convex hull has no holes", "statement": "Whenever the convex hull of a cloud is returned as a triangle mesh, every edge of a triangle is shared with exactly one other triangle, whatever the rounding errors of the computation are.", "quantifier": "all buffers with Vec3f64 positions, all orders in which a set of edges is iterated over", "why_tests_cant": "the visibility test of each point against each triangle is rounded; which triangles are removed together depends on these errors and on the order of the points, and a single hole makes volume and inside tests on the mesh meaningless", "anchors": ["pasture-algorithms/src/convexhull.rs: convex_hull_as_triangle_mesh, create_convex_hull, iteration, add_edge_to_outer_or_inner_edges"]}
{"id": "C104", "title": "The header of a written LAS file describes the records in it", "statement": "After any sequence of writes and a flush, the point count in the header of a LAS file is the number of records in the file, its counts by return number are the numbers of records that have this return number, and its bounding box is that of the positions of the records.", "quantifier": "all point formats without extra bytes, all histories of writes and flushes, all buffers and layouts, all scales and offsets", "why_tests_cant": "the header is accumulated from the points as the user passes them, the records hold values reduced to bit fields and to a grid of coordinates; tests compare headers with points that survive both unchanged", "anchors": ["pasture-io/src/las/raw_writers.rs: RawLASWriter::write, RawLASWriter::flush, update_point_counts_in_las_header, update_bounds_in_las_header", "pasture-io/src/las/write_helpers.rs: write_position_as_las_position, write_las_bit_attributes"]}
{"id": "C105", "title": "Converting points to a roomier layout and back loses nothing", "statement": "If a layout has all attributes of another one, in any order and among others, with types that keep every value (integers in integers of at least the same size whatever the signs, integers of up to 16 bits in f32 and of up to 32 bits in f64, f32 in f64), then a buffer converted to that layout and back has the points it had, whatever kinds of buffers are used, unless a widened f32 is NaN. For all other layouts the conversions are refused or some point without NaNs comes back changed.", "quantifier": "all pairs of layouts with attributes that take memory and do not overlap, all buffers, all numbers of points, all values", "why_tests_cant": "whether a conversion can be undone depends on every value of the type: the first integer that f32 cannot hold is 16777217, and tests convert small numbers", "anchors": ["pasture-core/src/layout/conversion/attribute_conversion.rs: get_generic_converter, get_converter_for_attributes", "pasture-core/src/layout/conversion/buffer_conversion.rs: BufferLayoutConverter::for_layouts, BufferLayoutConverter::for_layouts_with_default, BufferLayoutConverter::convert"]}
{"id": "C106", "title": "Reading a LAS file into a layout gives the same points as reading and then converting", "statement": "For every point layout, reading points of a LAS or LAZ file directly into a buffer with that layout gives the same points as reading them in the default layout of the reader and converting the buffer, whatever kinds of buffers are used, and the one is refused exactly if the other is.", "quantifier": "all point formats, all files of records of that format, all scales and offsets, all positions of the reader, all target layouts, all numbers of points, all kinds of buffers", "why_tests_cant": "the two ways use different code (per attribute with shifts and masks of packed flags, against a table of conversions), and a difference needs a format, a target type and a record that bring it out", "anchors": ["pasture-io/src/las/raw_readers.rs: get_default_las_converter, read_into_default_layout, read_into_custom_layout", "pasture-io/src/las/las_reader.rs: LASReader::read_into", "pasture-core/src/layout/conversion/buffer_conversion.rs: BufferLayoutConverter::convert"]}
{"id": "C107", "title": "A written file does not depend on how its points were handed to the writer", "statement": "Two sequences of calls that give a writer the same points in the same layouts and order leave the same file behind, byte for byte with its header, or fail in the same way, however the points are divided into calls of write, whatever kinds of buffers hold them, and whenever flush is called in between.", "quantifier": "all formats (LAS, LAZ, text, PNTS), all pairs of sequences of writes and flushes with the same points, all layouts, all kinds of buffers, all orders in which hash maps are iterated", "why_tests_cant": "writers work in chunks of 50000 points and update counts, bounds and offsets at the end of a call: every way to divide points into calls and chunks is another path through that code", "anchors": ["pasture-io/src/las/raw_writers.rs: RawLASWriter::write, RawLASWriter::flush, RawLAZWriter::write", "pasture-io/src/ascii/raw_writer.rs: RawAsciiWriter::write", "pasture-io/src/tiles3d/pnts_writer.rs: PntsWriter::write, PntsWriter::flush"]}
{"id": "C108", "title": "Bounds and attribute ranges do not depend on the order of the points", "statement": "Buffers with the same points in different orders, of whatever kind, have the same bounding box and the same least and greatest values of every attribute (equal as numbers); the box of points that were divided among several buffers is the union of the boxes of these buffers, and likewise for least and greatest values.", "quantifier": "all point clouds, all orders and divisions of their points, all kinds of buffers, all layouts, all values including NaN and infinities", "why_tests_cant": "the results are folds with comparisons that NaN makes false; only a few of the n! orders of a few clouds can be tried", "anchors": ["pasture-algorithms/src/bounds.rs: calculate_bounds", "pasture-algorithms/src/minmax.rs: minmax_attribute", "pasture-core/src/math/bounds.rs: AABB::from_iter, AABB::union", "pasture-core/src/math/minmax.rs: MinMax"]}
{"id": "C109", "title": "Converting in two steps agrees with converting at once", "statement": "Points converted to a layout and from there to another one are the points that a conversion to the last layout at once gives, whatever kinds of buffers are used, if the layout in between has the attributes that the first and the last layout share, with types that do not get in the way; attributes that only the layout in between adds are zero either way. For all other types of such an attribute some point shows a difference.", "quantifier": "all triples of layouts, all points without NaNs that go to another type and back, all kinds of buffers", "why_tests_cant": "there are 1000 triples of number types, each with up to 2^64 values; integers wrap and floats round and saturate, and the two steps may do both", "anchors": ["pasture-core/src/layout/conversion/buffer_conversion.rs: BufferLayoutConverter::for_layouts_with_default, convert", "pasture-core/src/layout/conversion/attribute_conversion.rs: get_converter_for_attributes"]}
{"id": "C110", "title": "Points read from ASCII files with the same format fit together", "statement": "All readers that were made with the same format string read points of the same layout, so that what they read can be collected in one buffer.", "quantifier": "all format strings, all files, all delimiters, all iteration orders of a hash set", "why_tests_cant": "the layout is made from a HashSet, whose iteration order is random for every set; a test sees one order at a time", "anchors": ["pasture-io/src/ascii/raw_reader.rs: RawAsciiReader::from_read, get_point_layout_from_parse_layout", "pasture-core/src/containers/point_buffer.rs: OwningBuffer::append"]}
{"id": "C111", "title": "Converting the parts of a point cloud gives the parts of the converted point cloud", "statement": "Layout conversion commutes with appending, with filtering and with slicing: converting two buffers and appending the results, filtering a converted buffer, or slicing it, shows the points that one gets by appending, filtering or slicing first and converting then.", "quantifier": "all layouts, all converters with any custom mappings and transformations, all buffers, predicates and ranges", "why_tests_cant": "a conversion works in batches and reuses memory for intermediate values; that no value leaks from one point into another must hold for all lengths and all mappings", "anchors": ["pasture-core/src/layout/conversion/buffer_conversion.rs: BufferLayoutConverter::convert", "pasture-core/src/containers/point_buffer.rs: OwningBuffer::append, HashMapBuffer::filter", "pasture-core/src/containers/slice.rs: SliceBuffer"]}
{"id": "C112", "title": "Writing points in another layout gives the file that one gets by converting them first", "statement": "If a buffer whose layout is not the default layout of a LAS or LAZ file is written, the file is the one that is written after the user has converted the buffer to the default layout: same records, same header. If the layout cannot be converted, writing fails as well.", "quantifier": "all point formats, headers, layouts, buffers and points, with any writes and flushes before and after", "why_tests_cant": "the writer has separate code for other layouts, with its own conversions, defaults, bit packing and counting; a test compares the two for one layout", "anchors": ["pasture-io/src/las/raw_writers.rs: RawLASWriter::write, RawLAZWriter::write, write_points_custom_layout, write_points_default_layout", "pasture-core/src/layout/conversion/buffer_conversion.rs: BufferLayoutConverter::convert"]}
{"id": "C113", "title": "ASCII output depends on the attributes of the format only", "statement": "The text that is written for a point depends on the values of the attributes that the format describes and on nothing else: not on further attributes, the order of the attributes, their offsets or the kind of buffer. Converting points to another layout that has these attributes does not change the text.", "quantifier": "all formats, delimiters and precisions, all layouts, buffers and points", "why_tests_cant": "attributes are looked up in every point by name and type; a test compares the output for a few layouts", "anchors": ["pasture-io/src/ascii/raw_writer.rs: RawAsciiWriter::write", "pasture-core/src/layout/conversion/buffer_conversion.rs: BufferLayoutConverter::convert"]}
{"id": "C114", "title": "Writing to a 3D Tiles point cloud agrees with converting the points first", "statement": "If a writer of .pnts files can be made for a layout, then points in this layout can be converted to the layout that has the attributes of the file with the types of the file, in any order, and a writer can be made for that layout. If the file of the points can be written, then so can that of the converted points, unless it would have 2^32 bytes or more, and both have the same number of points, the same center and the same data for each attribute, and readers of both deliver the same points.", "quantifier": "all layouts, all orders of the attributes in the target, all sequences of buffers of all kinds, all centers, all calls on the readers", "why_tests_cant": "the writer converts attribute by attribute into a cache and the library converts whole buffers; that both agree has to hold for every layout and every value", "anchors": ["pasture-io/src/tiles3d/pnts_writer.rs: PntsWriter::write", "pasture-io/src/tiles3d/pnts_writer.rs: PntsWriter::from_write_and_layout", "pasture-core/src/layout/conversion/buffer_conversion.rs: BufferLayoutConverter::convert"]}
{"id": "C115", "title": "A copy of a 3D Tiles point cloud is the same", "statement": "A .pnts file that was written with the library is opened, all its points are read in pieces of any sizes, relative to the center of the file if it has one, and written to a new file with that center. Then the copy can be written, unless it would have 2^32 bytes or more, and it has as many points as the original and the same data for each attribute.", "quantifier": "all layouts, points and centers of the original, all sizes of the pieces, all kinds of buffers, all iteration orders of the hash maps", "why_tests_cant": "reader and writer have to agree on names, types and offsets of all attributes in every combination; a test copies one file", "anchors": ["pasture-io/src/tiles3d/pnts_reader.rs: PntsReader::from_read", "pasture-io/src/tiles3d/pnts_reader.rs: PntsReader::read_into", "pasture-io/src/tiles3d/pnts_writer.rs: PntsWriter::write"]}
{"id": "C116", "title": "Reading a 3D Tiles point cloud into a layout gives the same points as reading and then converting", "statement": "Wherever a reader stands in a .pnts file: if the layout of the file can be converted to another layout, then points that are read into a new buffer of that layout are the points one gets by reading them in the layout of the file and converting the buffer.", "quantifier": "all files, layouts, positions in the file, numbers of points, centers and modes, and all kinds of buffers", "why_tests_cant": "the reader converts while it reads and moves the positions afterwards; that conversion and displacement can be exchanged depends on types, values and the center", "anchors": ["pasture-io/src/tiles3d/pnts_reader.rs: PntsReader::read_into", "pasture-core/src/layout/conversion/buffer_conversion.rs: BufferLayoutConverter::convert"]}
{"id": "C117", "title": "Reading an ASCII file into a layout gives the same points as reading and then converting", "statement": "Wherever a reader stands in an ASCII file: points that are read into a new buffer of another layout are the points one gets by reading them in the layout of the format string and converting the buffer to that layout. If a line cannot be read, both ways fail with an error.", "quantifier": "all texts, format strings, delimiters, layouts, positions in the text, numbers of lines, and all kinds of buffers", "why_tests_cant": "the reader looks up every attribute by name and type while it parses; that this agrees with a conversion afterwards depends on the layouts and on every column", "anchors": ["pasture-io/src/ascii/raw_reader.rs: RawAsciiReader::read_into, parse_point", "pasture-core/src/layout/conversion/buffer_conversion.rs: BufferLayoutConverter::convert"]}
{"id": "C118", "title": "Writing what was read from an ASCII file gives the same text", "statement": "If points are written to an ASCII file and the file is read with the same format string and delimiter into any layout that has the attributes of the format, then writing the points that were read with the same settings gives exactly the text of the file, although the first writing rounded the numbers.", "quantifier": "all layouts, points (including infinities, NaN, and numbers that no decimal text shows exactly), format strings, delimiters, precisions, numbers of points, and both kinds of buffers", "why_tests_cant": "a number is rounded to decimal places, then to the nearest double, and then to decimal places again; that the second text is the first needs an argument about all doubles", "anchors": ["pasture-io/src/ascii/raw_writer.rs: RawAsciiWriter::write", "pasture-io/src/ascii/raw_reader.rs: RawAsciiReader::read_into, parse_point"]}
