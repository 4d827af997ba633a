{
 "claims": [
  {
   "property": "C01",
   "status": "proved",
   "theorems": [
    "Pasture.Props.C01_from_attributes_is_reprC",
    "Pasture.Props.C01_from_attributes_succeeds_iff"
   ],
   "note": "For datatypes whose alignment is a power of two (all built-in ones)."
  },
  {
   "property": "C02",
   "status": "proved",
   "theorems": [
    "Pasture.Props.C02_add_attribute_history"
   ],
   "note": ""
  },
  {
   "property": "C03",
   "status": "proved",
   "theorems": [
    "Pasture.Props.C03_from_members_accepts_iff",
    "Pasture.Props.C03_from_members_result",
    "Pasture.Props.C03_from_members_refuses_by_panic"
   ],
   "note": "Members of non-zero size."
  },
  {
   "property": "C04",
   "status": "partial",
   "theorems": [
    "Pasture.Props.C04_violated",
    "Pasture.Props.C04_add_attribute_disjoint_partial"
   ],
   "note": "Property is false of the code: witness in C04_violated. The partial theorem covers layouts whose last listed attribute ends last."
  },
  {
   "property": "C05",
   "status": "partial",
   "theorems": [
    "Pasture.Props.C05_violated",
    "Pasture.Props.C05_packed_offsets_partial",
    "Pasture.Props.C05_packed1_partial"
   ],
   "note": "Property is false of the code for N > 1 (size and alignment). Offsets hold for every N, everything for N = 1."
  },
  {
   "property": "C06",
   "status": "proved",
   "theorems": [
    "Pasture.Props.C06_lookups_agree",
    "Pasture.Props.C06_name_and_definition_lookups_agree",
    "Pasture.Props.C06_compare_iff_same_attributes",
    "Pasture.Props.C06_compare_equivalence"
   ],
   "note": ""
  },
  {
   "property": "C07",
   "status": "proved",
   "theorems": [
    "Pasture.Props.C07_derive_matches_rust_layout",
    "Pasture.Props.C07_derive_repr",
    "Pasture.Props.C07_derive_ignores_align",
    "Pasture.Props.C07_derive_reads_first_repr_only",
    "Pasture.Props.C07_packed_alone_violated"
   ],
   "note": "repr(C), repr(C, packed) and repr(C, packed(N)), from the syntax tree of the struct on; the negative theorems show the repr forms the macro misreads."
  },
  {
   "property": "C08",
   "status": "proved",
   "theorems": [
    "Pasture.Props.C08_vector_history",
    "Pasture.Props.C08_vector_storage",
    "Pasture.Props.solid_layouts",
    "Pasture.Props.C08_any_layout",
    "Pasture.Props.orderly_layouts"
   ],
   "note": "C08_vector_history also says which histories panic; it is about layouts with at least one attribute and no zero-size attributes. C08_any_layout is about all layouts, but only about histories that stay inside the buffer: writes outside it go unnoticed if they have no bytes. Index ranges non-empty."
  },
  {
   "property": "C09",
   "status": "proved",
   "theorems": [
    "Pasture.Props.C09_hashmap_history",
    "Pasture.Props.solid_layouts",
    "Pasture.Props.C09_any_layout",
    "Pasture.Props.orderly_layouts"
   ],
   "note": "Same domains as C08. push_points panics for points of size zero."
  },
  {
   "property": "C10",
   "status": "proved",
   "theorems": [
    "Pasture.Props.C10_interleaved_and_columnar_agree",
    "Pasture.Props.C10_any_layout"
   ],
   "note": "Same domains as C08."
  },
  {
   "property": "C100",
   "status": "partial",
   "theorems": [
    "Pasture.Props.C100_holds",
    "Pasture.Props.C100_resize_partial",
    "Pasture.Props.C100_append_partial",
    "Pasture.Props.C100_append_columnar_partial",
    "Pasture.Props.C100_filter_partial",
    "Pasture.Props.C100_collect_partial",
    "Pasture.Props.C100_append_interleaved_violated",
    "Pasture.Props.C100_collect_violated",
    "Pasture.Props.C100_raw_view_violated",
    "Pasture.Props.C100_pusher_violated"
   ],
   "note": "Proved for reads, resize, swap, append, append_columnar, filter and collecting with an exact size hint. The full claim is false: append_interleaved loses the points in a VectorBuffer and panics in a HashMapBuffer, collecting without a size hint does the same, raw views of an attribute of size zero in columns have no length, and the attribute pusher accepts no points in a layout with such an attribute. Layouts that mix attributes with and without data are covered by the any_layout theorems of C08 to C13, C16 and C17."
  },
  {
   "property": "C101",
   "status": "partial",
   "theorems": [
    "Pasture.Props.C101_line_partial",
    "Pasture.Props.C101_plane_partial",
    "Pasture.Props.C101_duplicates_violated",
    "Pasture.Props.C101_rounding_violated",
    "Pasture.Props.C101_collinear_violated"
   ],
   "note": "Proved with the f64 arithmetic of the code: both points of a line whose computed distance is finite and not zero are inliers, and the best line has at least two inliers if any iteration drew such a pair; the first of the three points of a plane with a computed normal is an inlier. The parallel functions give the same results by C59_line_schedule and C59_plane_schedule. The full claim is false: points at the same position, or three on a line, give a model without any inliers (all distances are NaN), and rounding can put the other two points of a plane off it by more than a small threshold."
  },
  {
   "property": "C102",
   "status": "partial",
   "theorems": [
    "Pasture.Props.C102_estimate_partial",
    "Pasture.Props.C102_cloud_partial",
    "Pasture.Props.C102_coincident_violated",
    "Pasture.Props.C102_large_violated"
   ],
   "note": "Proved with the f64 arithmetic of the code for coordinates up to 2^40 and up to 2^20 neighbors: no panic, one result per point in order, the curvature is finite and not negative, and the normal is finite (components between -2 and 2) if two of the neighbors differ by at least 2^-500 in a coordinate. atan2, cos and sin are parameters that are assumed to give finite results up to 4, 1 and 1. The full claim is false: neighbors at the same position give a normal of NaNs, and finite coordinates like 2^600 make the function panic."
  },
  {
   "property": "C103",
   "status": "partial",
   "theorems": [
    "Pasture.Props.C103_partial",
    "Pasture.Props.C103_planar_violated",
    "Pasture.Props.C103_hole_violated",
    "Pasture.Props.C103_rounding_violated"
   ],
   "note": "Proved for all f64 positions (including those for which the arithmetic is not exact, infinities and NaNs) of which none is in the computed plane of three others: every edge belongs to an even number of triangles, so no edge is the border of a hole. This number need not be two (C71 proves that it is for points in general position with small whole coordinates): the full claim is false. Rounding errors give an edge with four triangles for six points in general position, four points in a plane give such an edge too, and eight points of which two are equal give a mesh with a hole."
  },
  {
   "property": "C104",
   "status": "partial",
   "theorems": [
    "Pasture.Props.C104_partial",
    "Pasture.Props.C104_return_violated",
    "Pasture.Props.C104_bounds_violated"
   ],
   "note": "Proved about the bytes of the file, for all formats and histories: the number of records; the counts by return number if all points are in the default layout and their return numbers fit into the bits of the format; the box up to one and a half steps of the coordinate grid, on every face. The full claim is false: return number 9 in format 0 is counted under 9 but stored as 1, and a point at 1.5 with scale 1 is stored as 1, outside of the box of the header."
  },
  {
   "property": "C105",
   "status": "proved",
   "theorems": [
    "Pasture.Props.C105_there_and_back",
    "Pasture.Props.C105_only_then"
   ],
   "note": "For all sources whose memory can be borrowed and all four combinations of owning buffers; the condition on the layouts is shown to be the weakest one, for interleaved buffers. NaNs are excluded where an f32 is widened (the payload of a converted NaN is not specified by Rust)."
  },
  {
   "property": "C106",
   "status": "partial",
   "theorems": [
    "Pasture.Props.C106_las_partial",
    "Pasture.Props.C106_laz_partial",
    "Pasture.Props.C106_single_violated",
    "Pasture.Props.C106_whole_violated"
   ],
   "note": "Full claim false: positions in single precision are scaled after rounding if read directly and before it otherwise, and positions of whole numbers can be converted but not read. Proved for all other targets: positions, if any, are f64 vectors, and no attribute of the raw records (local positions, packed flags) is asked for, since the default layout does not have these. Formats 0 to 10 (LAZ: 0 to 8) without extra bytes; that a read is refused if the conversion is refused is shown for LAS files and interleaved buffers."
  },
  {
   "property": "C107",
   "status": "partial",
   "theorems": [
    "Pasture.Props.C107_las_partial",
    "Pasture.Props.C107_laz_partial",
    "Pasture.Props.C107_ascii",
    "Pasture.Props.C107_pnts_partial",
    "Pasture.Props.C107_laz_violated",
    "Pasture.Props.C47_pnts_lost",
    "Pasture.Props.C40_legacy_violated"
   ],
   "note": "Proved in full for text files. LAS: with flushes anywhere, unless more than 2^32 - 1 points are written in a format with legacy counts (C40_legacy_violated). LAZ: the records handed to the compressor and the header, if points in other layouts than the default one come in multiples of 50000; false otherwise (C107_laz_violated). PNTS: if flush comes last; false otherwise (C47_pnts_lost: points after the first flush are not stored)."
  },
  {
   "property": "C108",
   "status": "partial",
   "theorems": [
    "Pasture.Props.C108_bounds",
    "Pasture.Props.C108_bounds_of_parts",
    "Pasture.Props.C108_minmax_partial",
    "Pasture.Props.C108_minmax_of_parts_partial",
    "Pasture.Props.C108_from_iter_partial",
    "Pasture.Props.C108_minmax_violated",
    "Pasture.Props.C108_from_iter_violated"
   ],
   "note": "Proved in full for calculate_bounds, with NaN and infinities. Least and greatest values and boxes collected from points: proved without NaN; false with NaN (witnesses)."
  },
  {
   "property": "C109",
   "status": "proved",
   "theorems": [
    "Pasture.Props.C109_two_steps",
    "Pasture.Props.C109_only_then"
   ],
   "note": "All 536 triples of number types for which the two ways agree, and a value that differs for each of the others. NaNs are excluded only where a type is left and entered again, since their bits may change."
  },
  {
   "property": "C11",
   "status": "proved",
   "theorems": [
    "Pasture.Props.C11_set_attribute_frame_interleaved",
    "Pasture.Props.C11_set_attribute_frame_columnar",
    "Pasture.Props.C11_any_layout"
   ],
   "note": "The first two theorems are about layouts without zero-size attributes and include reads outside the buffer; C11_any_layout is about all layouts and reads inside it."
  },
  {
   "property": "C110",
   "status": "partial",
   "theorems": [
    "Pasture.Props.C110_layout_partial",
    "Pasture.Props.C110_joined_partial",
    "Pasture.Props.C110_violated"
   ],
   "note": "True for formats that describe one attribute. False for all others: for suitable orders of the hash set, appending panics. Proved for all formats: the points can be converted to the other layout without loss and then appended."
  },
  {
   "property": "C111",
   "status": "proved",
   "theorems": [
    "Pasture.Props.C111_append_interleaved",
    "Pasture.Props.C111_append_columnar",
    "Pasture.Props.C111_filter",
    "Pasture.Props.C111_slice_interleaved",
    "Pasture.Props.C111_slice_columnar"
   ],
   "note": "For interleaved and columnar buffers (filter exists for columnar buffers only)."
  },
  {
   "property": "C112",
   "status": "partial",
   "theorems": [
    "Pasture.Props.C112_las_partial",
    "Pasture.Props.C112_refused",
    "Pasture.Props.C112_laz_partial",
    "Pasture.Props.C112_laz_refused",
    "Pasture.Props.C112_violated"
   ],
   "note": "Same bytes after the header and the same header except for the numbers of points by return, which are not counted for other layouts (C112_violated); LAZ for whole chunks of 50,000 points, since the last chunk is padded otherwise (C42_violated); legacy counts as far as they fit. C112_refused and C112_laz_refused: layouts that cannot be converted."
  },
  {
   "property": "C113",
   "status": "partial",
   "theorems": [
    "Pasture.Props.C113_partial",
    "Pasture.Props.C113_converted_partial",
    "Pasture.Props.C113_violated"
   ],
   "note": "True for formats that have r if they have c or u. False otherwise: the return number is written for these two (C51_violated), so the text depends on it."
  },
  {
   "property": "C114",
   "status": "proved",
   "theorems": [
    "Pasture.Props.C114",
    "Pasture.Props.C114_read"
   ],
   "note": "For reading, the file has at least one attribute and the center is finite (C55_center_violated), and reads that deliver nothing are excepted (C55_end_violated)."
  },
  {
   "property": "C115",
   "status": "proved",
   "theorems": [
    "Pasture.Props.C115"
   ],
   "note": "The file has at least one attribute and a finite center, otherwise it cannot be read (C55_center_violated); pieces are not empty (C55_end_violated). The center of the copy is the one that the reader tells, which went through the text of the file."
  },
  {
   "property": "C116",
   "status": "partial",
   "theorems": [
    "Pasture.Props.C116_partial",
    "Pasture.Props.C116_violated",
    "Pasture.Props.C116_none_violated"
   ],
   "note": "Proved for relative positions, for files without a center, and for targets that have positions only as the file has them. False for absolute positions in double precision: the detour rounds them to single precision; and for files without positions, where a direct read fills in the center."
  },
  {
   "property": "C117",
   "status": "partial",
   "theorems": [
    "Pasture.Props.C117_partial",
    "Pasture.Props.C117_violated"
   ],
   "note": "Proved if the attributes that the format and the target share have the same types. False otherwise: a direct read drops values of attributes with another type instead of converting them."
  },
  {
   "property": "C118",
   "status": "partial",
   "theorems": [
    "Pasture.Props.C118_partial",
    "Pasture.Props.C118_violated",
    "Pasture.Props.C118_precision_violated"
   ],
   "note": "Proved for formats that have r if they have c or u, and for writers with at least one decimal place if the format has coordinates or times. False with c but without r, since c is written as the return number, and for times without decimal places, where 0 is written as an empty text."
  },
  {
   "property": "C12",
   "status": "proved",
   "theorems": [
    "Pasture.Props.C12_set_get_point_interleaved",
    "Pasture.Props.C12_set_get_point_columnar",
    "Pasture.Props.C12_any_layout"
   ],
   "note": "As for C11."
  },
  {
   "property": "C13",
   "status": "partial",
   "theorems": [
    "Pasture.Props.C13_append_to_vector",
    "Pasture.Props.C13_append_to_hashmap",
    "Pasture.Props.C13_append_interleaved_to_vector",
    "Pasture.Props.C13_append_interleaved_to_hashmap",
    "Pasture.Props.C13_append_columnar_to_vector",
    "Pasture.Props.C13_append_columnar_to_hashmap",
    "Pasture.Props.C13_different_layouts_panic",
    "Pasture.Props.C13_hypotheses_met",
    "Pasture.Props.C13_append_any_layout",
    "Pasture.Props.C13_append_columnar_any_layout",
    "Pasture.Props.C13_append_interleaved_any_layout",
    "Pasture.Props.C13_any_layout_met",
    "Pasture.Props.C100_append_interleaved_violated"
   ],
   "note": "Proved for append and append_columnar in all layouts, and for append_interleaved if points take memory. The full claim is false: append_interleaved does not count points of size zero (C100). The source is any buffer whose reads show its points. The source is a shared borrow, so it cannot change."
  },
  {
   "property": "C14",
   "status": "partial",
   "theorems": [
    "Pasture.Props.C14_out_of_range_panics_interleaved",
    "Pasture.Props.C14_out_of_range_panics_columnar",
    "Pasture.Props.C14_wrong_length_panics_interleaved",
    "Pasture.Props.C14_zero_size_points_violated",
    "Pasture.Props.C14_columnar_accepts_long_slices"
   ],
   "note": "Index and attribute checks hold for both buffers. False of the code for points of size zero and for over-long slices given to HashMapBuffer (witnesses)."
  },
  {
   "property": "C15",
   "status": "partial",
   "theorems": [
    "Pasture.Props.C15_collect_hashmap",
    "Pasture.Props.C15_collect_vector_partial",
    "Pasture.Props.C15_violated_for_loose_bounds",
    "Pasture.Props.C15_violated",
    "Pasture.Props.C15_too_small_bound_panics",
    "Pasture.Props.C15_any_layout_partial"
   ],
   "note": "Proved for HashMapBuffer. For VectorBuffer true for exact or absent upper bounds and false otherwise, with the exact result characterised. C15_any_layout_partial: all layouts whose points take memory; for the others see C100."
  },
  {
   "property": "C16",
   "status": "proved",
   "theorems": [
    "Pasture.Props.C16_filter_to_hashmap",
    "Pasture.Props.C16_filter_to_vector",
    "Pasture.Props.C16_filter_into_hashmap",
    "Pasture.Props.C16_filter_into_vector",
    "Pasture.Props.C16_wrong_hint_panics",
    "Pasture.Props.C16_any_layout"
   ],
   "note": "C16_any_layout: all layouts; the others, about filter_into with any hint, same domain as C09_hashmap_history."
  },
  {
   "property": "C17",
   "status": "proved",
   "theorems": [
    "Pasture.Props.C17_slice_interleaved",
    "Pasture.Props.C17_slice_columnar",
    "Pasture.Props.C17_slice_any",
    "Pasture.Props.C17_slice_of_any_range",
    "Pasture.Props.C17_any_layout"
   ],
   "note": "Ranges inside the buffer; C17_any_layout: all layouts; the others: same domain as C08_vector_history."
  },
  {
   "property": "C18",
   "status": "partial",
   "theorems": [
    "Pasture.Props.C18_write_interleaved_partial",
    "Pasture.Props.C18_write_columnar_partial",
    "Pasture.Props.C18_read_partial",
    "Pasture.Props.C18_violated_everywhere",
    "Pasture.Props.C18_violated",
    "Pasture.Props.C18_prefix_slices",
    "Pasture.Props.C18_any_layout_partial"
   ],
   "note": "False of the code: local indices are checked against the global end (witness for every buffer and every slice not starting at 0). In-range accesses and slices starting at 0 are right."
  },
  {
   "property": "C19",
   "status": "partial",
   "theorems": [
    "Pasture.Props.C19_nested_partial",
    "Pasture.Props.C19_nested_mut_partial",
    "Pasture.Props.C19_nested_points_partial",
    "Pasture.Props.C19_nested_vector_partial",
    "Pasture.Props.C19_violated"
   ],
   "note": "False of the code for sub-slices that end at the end of the slice (they always panic); true otherwise."
  },
  {
   "property": "C20",
   "status": "proved",
   "theorems": [
    "Pasture.Props.C20_external_memory_accepts_iff",
    "Pasture.Props.C20_external_memory_reads_and_writes"
   ],
   "note": ""
  },
  {
   "property": "C21",
   "status": "partial",
   "theorems": [
    "Pasture.Props.C21_contract_nth",
    "Pasture.Props.C21_contract_next",
    "Pasture.Props.C21_next_within",
    "Pasture.Props.C21_points_by_value_partial",
    "Pasture.Props.C21_records_by_value_partial",
    "Pasture.Props.C21_points_by_ref_partial",
    "Pasture.Props.C21_points_by_mut_partial",
    "Pasture.Props.C21_mut_references_distinct",
    "Pasture.Props.C21_for_each_mut",
    "Pasture.Props.C21_attributes_by_value_partial",
    "Pasture.Props.C21_attributes_by_ref_partial",
    "Pasture.Props.C21_attributes_by_mut_partial",
    "Pasture.Props.C21_traversal",
    "Pasture.Props.C21_violated_by_value",
    "Pasture.Props.C21_violated_by_ref",
    "Pasture.Props.C21_violated_by_mut",
    "Pasture.Props.C21_violated_attribute_by_mut"
   ],
   "note": "False of the code when nth jumps past the end: panic for the by-value and by-ref iterators, a reference outside the slice (undefined behaviour from safe code) for the mutable ones. Proved for every call sequence that stays within the elements, including repeated next() at the end."
  },
  {
   "property": "C22",
   "status": "proved",
   "theorems": [
    "Pasture.Props.C22_sort_by",
    "Pasture.Props.C22_sort_by_slice"
   ],
   "note": "Comparators that are total preorders. The standard library's stable sort is modelled by List.mergeSort."
  },
  {
   "property": "C23",
   "status": "partial",
   "theorems": [
    "Pasture.Props.C23_push_every_attribute_once",
    "Pasture.Props.C23_missing_attribute_panics",
    "Pasture.Props.C23_bad_push_panics",
    "Pasture.Props.C23_double_push_violated"
   ],
   "note": "False of the code when an attribute is pushed twice (witness); holds when each attribute is pushed at most once, in layouts with attributes of non-zero size. With an attribute of size zero no points can be pushed (C100)."
  },
  {
   "property": "C24",
   "status": "proved",
   "theorems": [
    "Pasture.Props.C24_interleaved",
    "Pasture.Props.C24_columnar",
    "Pasture.Props.C24_write_interleaved",
    "Pasture.Props.C24_write_columnar",
    "Pasture.Props.C24_any_layout"
   ],
   "note": "Strides are non-zero, as the property says; for zero ones see C100."
  },
  {
   "property": "C25",
   "status": "proved",
   "theorems": [
    "Pasture.Props.C25_none_iff_equal",
    "Pasture.Props.C25_names_must_agree",
    "Pasture.Props.C25_scalar_converters",
    "Pasture.Props.C25_vec3_converters",
    "Pasture.Props.C25_output_size",
    "Pasture.Props.C25_integers_wrap",
    "Pasture.Props.C25_representable_preserved",
    "Pasture.Props.C25_wide_and_back",
    "Pasture.Props.C25_vec3_componentwise"
   ],
   "note": ""
  },
  {
   "property": "C26",
   "status": "partial",
   "theorems": [
    "Pasture.Props.C26_violated",
    "Pasture.Props.C26_partial"
   ],
   "note": "False of the code: for every pair of datatypes without a conversion the request panics. Proved: every other pair gets an answer."
  },
  {
   "property": "C27",
   "status": "proved",
   "theorems": [
    "Pasture.Props.C27_into_range_interleaved",
    "Pasture.Props.C27_into_range_columnar",
    "Pasture.Props.C27_convert_interleaved",
    "Pasture.Props.C27_convert_columnar",
    "Pasture.Props.C27_into_interleaved",
    "Pasture.Props.C27_into_columnar",
    "Pasture.Props.C27_into_slice_interleaved",
    "Pasture.Props.C27_into_slice_columnar",
    "Pasture.Props.C27_slice_source_interleaved",
    "Pasture.Props.C27_slice_source_columnar",
    "Pasture.Props.C27_rejects",
    "Pasture.Props.C27_generic_slice_panics",
    "Pasture.Props.C27_generic_target_panics"
   ],
   "note": "Targets are VectorBuffer/ExternalMemoryBuffer, HashMapBuffer and the slices they hand out; sources are anything that shows points and exposes interleaved or columnar memory, slices included. A generic BufferSlice or BufferSliceMut panics."
  },
  {
   "property": "C28",
   "status": "proved",
   "theorems": [
    "Pasture.Props.C28_for_layouts",
    "Pasture.Props.C28_with_default",
    "Pasture.Props.C28_call_accepted",
    "Pasture.Props.C28_custom_mapping"
   ],
   "note": ""
  },
  {
   "property": "C29",
   "status": "partial",
   "theorems": [
    "Pasture.Props.C29_violated",
    "Pasture.Props.C29_partial"
   ],
   "note": "False of the code: attributes of equal type are skipped. Proved: attributes of different type are converted, everything else in the target is unchanged."
  },
  {
   "property": "C30",
   "status": "partial",
   "theorems": [
    "Pasture.Props.C30_get_raw",
    "Pasture.Props.C30_set_raw",
    "Pasture.Props.C30_errors",
    "Pasture.Props.C30_violated_wrong_size",
    "Pasture.Props.C30_typed_get",
    "Pasture.Props.C30_typed_set",
    "Pasture.Props.C30_new"
   ],
   "note": "A value of the wrong length panics instead of giving an error (C30_violated_wrong_size). Everything else in the property is proved."
  },
  {
   "property": "C31",
   "status": "proved",
   "theorems": [
    "Pasture.Props.C31_align_to",
    "Pasture.Props.C31_align_to_idem_mono"
   ],
   "note": ""
  },
  {
   "property": "C32",
   "status": "partial",
   "theorems": [
    "Pasture.Props.C32_contains",
    "Pasture.Props.C32_from_min_max",
    "Pasture.Props.C32_union_least",
    "Pasture.Props.C32_union_laws",
    "Pasture.Props.C32_extend_least",
    "Pasture.Props.C32_intersects",
    "Pasture.Props.C32_from_iter_partial",
    "Pasture.Props.C32_from_iter_violated",
    "Pasture.Props.C32_from_iter_empty"
   ],
   "note": "All laws proved for every type with a total preorder (integers, non-NaN floats). The box of an iterator is tight unless all points are infinite in the same direction on an axis (C32_from_iter_violated)."
  },
  {
   "property": "C33",
   "status": "proved",
   "theorems": [
    "Pasture.Props.C33_expand_bits",
    "Pasture.Props.C33_interleaving",
    "Pasture.Props.C33_reverse_bits",
    "Pasture.Props.C33_reverse_involution"
   ],
   "note": ""
  },
  {
   "property": "C34",
   "status": "partial",
   "theorems": [
    "Pasture.Props.C34_minmax",
    "Pasture.Props.C34_minmax_rejects",
    "Pasture.Props.C34_bounds_none",
    "Pasture.Props.C34_bounds_partial",
    "Pasture.Props.C34_violated_inconvertible",
    "Pasture.Props.C34_violated_infinite"
   ],
   "note": "minmax_attribute is proved in full. calculate_bounds is not tight when all positions are infinite on an axis, and panics for a position attribute that cannot be converted."
  },
  {
   "property": "C35",
   "status": "proved",
   "theorems": [
    "Pasture.Props.C35_basic_flags",
    "Pasture.Props.C35_extended_flags",
    "Pasture.Props.C35_basic_roundtrip",
    "Pasture.Props.C35_extended_roundtrip",
    "Pasture.Props.C35_basic_fits",
    "Pasture.Props.C35_extended_fits"
   ],
   "note": ""
  },
  {
   "property": "C36",
   "status": "proved",
   "theorems": [
    "Pasture.Props.C36_exact_layout",
    "Pasture.Props.C36_default_layout",
    "Pasture.Props.C36_invalid_format",
    "Pasture.Props.C36_format_recovered",
    "Pasture.Props.C36_extra_bytes_offset",
    "Pasture.Props.C36_known_attributes"
   ],
   "note": "For all eleven formats. The record length and the option bits of a format come from the las crate and are transcribed."
  },
  {
   "property": "C37",
   "status": "partial",
   "theorems": [
    "Pasture.Props.C37_error_partial",
    "Pasture.Props.C37_error_violated",
    "Pasture.Props.C37_in_range",
    "Pasture.Props.C37_out_of_range",
    "Pasture.Props.C37_infinite",
    "Pasture.Props.C37_nan_violated",
    "Pasture.Props.C37_read",
    "Pasture.Props.C37_drift_partial",
    "Pasture.Props.C37_same_integers_violated",
    "Pasture.Props.C37_same_integers_partial"
   ],
   "note": "False of the code in two points: the error can be a full scale step, and reading and rewriting can change the stored integer. Proved instead: the error is below (1 + 10^-6) steps, positions out of range are refused, the integer moves by at most one, and it stays the same when the grid arithmetic is exact. NaN is stored as 0."
  },
  {
   "property": "C38",
   "status": "partial",
   "theorems": [
    "Pasture.Props.C38_las_session_partial",
    "Pasture.Props.C38_laz_session_partial",
    "Pasture.Props.C38_pieces",
    "Pasture.Props.C38_remaining",
    "Pasture.Props.C38_las_read_into_interleaved_partial",
    "Pasture.Props.C38_las_read_into_columnar_partial",
    "Pasture.Props.C38_laz_read_into_interleaved_partial",
    "Pasture.Props.C38_laz_read_into_columnar_partial",
    "Pasture.Props.C38_short_buffer",
    "Pasture.Props.C38_unreadable",
    "Pasture.Props.C38_open_las",
    "Pasture.Props.C38_open_laz",
    "Pasture.Props.C38_open_laz_more",
    "Pasture.Props.C38_undescribed_violated"
   ],
   "note": "Proved for every sequence of reads and seeks on files whose record layout covers the whole record (C38_open_*: all formats without extra bytes), default and custom layouts, both buffers. False of the code for undescribed extra bytes (witness). Header parsing and LAZ decompression are assumed."
  },
  {
   "property": "C39",
   "status": "partial",
   "theorems": [
    "Pasture.Props.C39_seek_partial",
    "Pasture.Props.C39_before_start",
    "Pasture.Props.C39_large_panics",
    "Pasture.Props.C39_point_index",
    "Pasture.Props.C39_point_count",
    "Pasture.Props.C39_pnts_partial",
    "Pasture.Props.C39_pnts_before_start",
    "Pasture.Props.C39_pnts_large_panics",
    "Pasture.Props.C39_pnts_index_and_count"
   ],
   "note": "False of the code for targets of 2^63 and more, which panic instead of being clamped (C39_large_panics, C39_pnts_large_panics). Everything else is proved, for the LAS and the PNTS reader."
  },
  {
   "property": "C40",
   "status": "partial",
   "theorems": [
    "Pasture.Props.C40_las_partial",
    "Pasture.Props.C40_default_layout",
    "Pasture.Props.C40_laz_partial",
    "Pasture.Props.C40_by_return_violated",
    "Pasture.Props.C40_legacy_violated"
   ],
   "note": "Proved for every sequence of writes and flushes (LAS) and writes (LAZ): count, tight bounds (no NaN; finite transforms for LAS), per-return counts of the points written in the default layout, legacy counts. False of the code: points in other layouts are not counted by return number, and legacy counts of an early flush stay."
  },
  {
   "property": "C41",
   "status": "partial",
   "theorems": [
    "Pasture.Props.C41_round_trip",
    "Pasture.Props.C41_values",
    "Pasture.Props.C41_positions",
    "Pasture.Props.C41_bits_violated"
   ],
   "note": "Proved for all point formats, any sequence of writes (any layout, across chunk boundaries) and flushes, reading into either owning buffer: record size, and every value equal if bit fields fit; positions within 1.5 scale steps for ordinary axes. Bit fields that do not fit are cut (witness)."
  },
  {
   "property": "C42",
   "status": "partial",
   "theorems": [
    "Pasture.Props.C42_partial",
    "Pasture.Props.C42_last_partial",
    "Pasture.Props.C42_custom",
    "Pasture.Props.C42_violated"
   ],
   "note": "Proved for the default layout, and for other layouts in batches of multiples of 50,000 points; with one last batch of any size and layout, the records come first and something follows them. False of the code otherwise: the number of records handed over is rounded up to whole chunks."
  },
  {
   "property": "C43",
   "status": "partial",
   "theorems": [
    "Pasture.Props.C43_described_partial",
    "Pasture.Props.C43_violated",
    "Pasture.Props.C43_violated_unless",
    "Pasture.Props.C43_underflow_violated"
   ],
   "note": "False of the code when extra bytes are not described (the attribute for the rest gets the number of described bytes). Proved when all extra bytes are described; the exact condition is C43_violated_unless."
  },
  {
   "property": "C44",
   "status": "partial",
   "theorems": [
    "Pasture.Props.C44_type_codes",
    "Pasture.Props.C44_types",
    "Pasture.Props.C44_binary_form",
    "Pasture.Props.C44_roundtrip_partial",
    "Pasture.Props.C44_empty_violated",
    "Pasture.Props.C44_unaligned_violated",
    "Pasture.Props.C44_malformed",
    "Pasture.Props.C44_read_entries_fit"
   ],
   "note": "False of the code for an empty list of entries and for VLR data that is not 8-byte aligned: reading panics. Everything else is proved."
  },
  {
   "property": "C45",
   "status": "partial",
   "theorems": [
    "Pasture.Props.C45_integers",
    "Pasture.Props.C45_float_violated",
    "Pasture.Props.C45_option_bits_violated",
    "Pasture.Props.C45_display_violated",
    "Pasture.Props.C45_display_partial",
    "Pasture.Props.C45_no_data_violated"
   ],
   "note": "The integer accessors match the data type. False of the code for the float accessors, the option bits and Display of float entries."
  },
  {
   "property": "C46",
   "status": "partial",
   "theorems": [
    "Pasture.Props.C46_roundtrip",
    "Pasture.Props.C46_cut_partial",
    "Pasture.Props.C46_prefix_partial",
    "Pasture.Props.C46_cut_violated"
   ],
   "note": "The first half is proved. A longer text reads back as a prefix only if it is not cut inside a character (witness)."
  },
  {
   "property": "C47",
   "status": "partial",
   "theorems": [
    "Pasture.Props.C47_las",
    "Pasture.Props.C47_las_same_file_partial",
    "Pasture.Props.C47_pnts_lost",
    "Pasture.Props.C47_pnts_violated",
    "Pasture.Props.C47_laz",
    "Pasture.Props.C47_laz_longer",
    "Pasture.Props.C47_laz_violated"
   ],
   "note": "Proved for the LAS writer. The LAZ writer appends the extended records again on every flush, and into_inner flushes. False for the PNTS writer: what is written after the first flush is not stored."
  },
  {
   "property": "C48",
   "status": "partial",
   "theorems": [
    "Pasture.Props.C48_read_interleaved_partial",
    "Pasture.Props.C48_read_columnar_partial",
    "Pasture.Props.C48_read_all_las",
    "Pasture.Props.C48_read_all_into_violated"
   ],
   "note": "The first half (read) is proved for every reader. read_all_into never appends: it overwrites the first points or panics (C48_read_all_into_violated)."
  },
  {
   "property": "C49",
   "status": "partial",
   "theorems": [
    "Pasture.Props.C49_formats",
    "Pasture.Props.C49_no_extension",
    "Pasture.Props.C49_compressed_partial",
    "Pasture.Props.C49_violated"
   ],
   "note": "The first half is proved. A .laz path in another spelling than lower case is handled as uncompressed (C49_violated)."
  },
  {
   "property": "C50",
   "status": "partial",
   "theorems": [
    "Pasture.Props.C50_format_reader",
    "Pasture.Props.C50_format_writer",
    "Pasture.Props.C50_read_interleaved",
    "Pasture.Props.C50_read_columnar",
    "Pasture.Props.C50_datatype_violated"
   ],
   "note": "Proved for every format, text, delimiter and buffer; a value is dropped when the buffer's attribute has another datatype than the literal's (witness)."
  },
  {
   "property": "C51",
   "status": "partial",
   "theorems": [
    "Pasture.Props.C51_written",
    "Pasture.Props.C51_settings",
    "Pasture.Props.C51_lines_partial",
    "Pasture.Props.C51_missing",
    "Pasture.Props.C51_round_trip_interleaved_partial",
    "Pasture.Props.C51_round_trip_columnar_partial",
    "Pasture.Props.C51_integers_lines_partial",
    "Pasture.Props.C51_integers_interleaved_partial",
    "Pasture.Props.C51_integers_columnar_partial",
    "Pasture.Props.C51_violated",
    "Pasture.Props.C51_user_data_violated"
   ],
   "note": "Proved for all formats without c and u and precision of at least 1, and for every precision if there are no coordinates and times (C51_integers_*). c and u write the return number (C51_written, witness)."
  },
  {
   "property": "C52",
   "status": "partial",
   "theorems": [
    "Pasture.Props.C52_partial",
    "Pasture.Props.C52_surplus",
    "Pasture.Props.C52_violated"
   ],
   "note": "Proved when no more points are asked for than there are lines. Otherwise false of the code: zero points are returned for the missing lines."
  },
  {
   "property": "C53",
   "status": "partial",
   "theorems": [
    "Pasture.Props.C53_partial",
    "Pasture.Props.C53_any_text_partial",
    "Pasture.Props.C53_whole_partial",
    "Pasture.Props.C53_violated"
   ],
   "note": "Proved for all numbers and precisions of at least 1, and for any digits with a decimal point. False of the code for precision 0: there the text is right exactly if the rounded number is not a multiple of ten (C53_whole_partial)."
  },
  {
   "property": "C54",
   "status": "proved",
   "theorems": [
    "Pasture.Props.C54",
    "Pasture.Props.C54_opens",
    "Pasture.Props.C54_position_violated"
   ],
   "note": "For a writer at the start of its stream, as files are. On a stream that is not at an 8-byte position the alignment fails (C54_position_violated)."
  },
  {
   "property": "C55",
   "status": "partial",
   "theorems": [
    "Pasture.Props.C55_partial",
    "Pasture.Props.C55_no_attributes",
    "Pasture.Props.C55_no_attributes_read",
    "Pasture.Props.C55_end_violated",
    "Pasture.Props.C55_center_violated"
   ],
   "note": "Proved but for reads of no points and centers that are not finite, where the code fails. Layouts without any attribute that a .pnts file can store: C55_no_attributes."
  },
  {
   "property": "C56",
   "status": "partial",
   "theorems": [
    "Pasture.Props.C56_actual_interleaved",
    "Pasture.Props.C56_actual_columnar",
    "Pasture.Props.C56_interleaved_partial",
    "Pasture.Props.C56_columnar_partial",
    "Pasture.Props.C56_types",
    "Pasture.Props.C56_violated"
   ],
   "note": "False of the code when the buffer has more points than are read: these are moved too. C56_actual_* say what happens for every count and buffer; the partial theorems say when it is what the property asks for."
  },
  {
   "property": "C57",
   "status": "partial",
   "theorems": [
    "Pasture.Props.C57_partial",
    "Pasture.Props.C57_terminates",
    "Pasture.Props.C57_nearest_exact",
    "Pasture.Props.C57_diverges",
    "Pasture.Props.C57_empty_panics",
    "Pasture.Props.C57_refuses",
    "Pasture.Props.C57_nearest_violated"
   ],
   "note": "Proved for every buffer with finite coordinates, every target buffer and leaf size with which the markers reach the end of the bounding box (C57_terminates: positive and at least 2^-52 of the coordinates). Nearness is that of the computed distances: C57_nearest_exact says how it relates to the exact one, C57_nearest_violated that the latter fails. A leaf size that is not positive never returns, an empty buffer panics."
  },
  {
   "property": "C58",
   "status": "partial",
   "theorems": [
    "Pasture.Props.C58_partial",
    "Pasture.Props.C58_violated_negative",
    "Pasture.Props.C58_violated_large",
    "Pasture.Props.C57_partial"
   ],
   "note": "False of the code: pooling starts from 0, so negative values give 0, and goes through f64, so 64-bit ids are rounded. C58_partial covers everything else."
  },
  {
   "property": "C59",
   "status": "proved",
   "theorems": [
    "Pasture.Props.C59_plane_serial",
    "Pasture.Props.C59_plane_schedule",
    "Pasture.Props.C59_line_serial",
    "Pasture.Props.C59_line_schedule",
    "Pasture.Props.C59_returns",
    "Pasture.Props.C59_panics"
   ],
   "note": "For every sequence of random draws and every schedule; distances are compared as computed (see C70). C59_returns: the functions return if every iteration draws enough different indices. Zero iterations panic."
  },
  {
   "property": "C60",
   "status": "partial",
   "theorems": [
    "Pasture.Props.C60_iterations",
    "Pasture.Props.C60_mesh_partial",
    "Pasture.Props.C60_points_partial",
    "Pasture.Props.C60_violated_empty",
    "Pasture.Props.C60_violated_rounding",
    "Pasture.Props.C60_violated_datatype"
   ],
   "note": "For Vec3f64 positions of any values, NaN and infinities included, and every iteration order of the hash sets: all indices are in range after every iteration, triangles have three different vertices, and the only panic is that of convex_hull_as_points if no triangle is left. False: convex_hull_as_points panics for empty and for some non-empty buffers; both functions panic for three or more positions of another datatype."
  },
  {
   "property": "C61",
   "status": "partial",
   "theorems": [
    "Pasture.Props.C61_partial",
    "Pasture.Props.C61_corners",
    "Pasture.Props.C61_violated"
   ],
   "note": "C61_partial: transformations whose coordinates are monotone in the box (each coordinate of the result grows, or falls, with all coordinates). C61_corners: the result is the tightest box of the two transformed corners. C61_violated: false for a turn by 45 degrees."
  },
  {
   "property": "C62",
   "status": "proved",
   "theorems": [
    "Pasture.Props.C62_view_checks_layout",
    "Pasture.Props.C62_at_interleaved",
    "Pasture.Props.C62_at",
    "Pasture.Props.C62_set_at_interleaved",
    "Pasture.Props.C62_set_at_columnar",
    "Pasture.Props.C62_at_mut",
    "Pasture.Props.C62_push_point",
    "Pasture.Props.C62_views_equal",
    "Pasture.Props.C62_attribute_view_checks",
    "Pasture.Props.C62_attribute_at",
    "Pasture.Props.C62_attribute_at_ref",
    "Pasture.Props.C62_attribute_views_equal",
    "Pasture.Props.C62_different_attributes",
    "Pasture.Props.C62_attribute_at_mut",
    "Pasture.Props.C62_attribute_for_each_mut"
   ],
   "note": "Address alignment (bytemuck's alignment panics) is not modelled. AttributeViewMut::set_at is set_attribute, covered by C11."
  },
  {
   "property": "C63",
   "status": "proved",
   "theorems": [
    "Pasture.Props.C63_int_to_float",
    "Pasture.Props.C63_float_to_int",
    "Pasture.Props.C63_single_to_int",
    "Pasture.Props.C63_single_to_double",
    "Pasture.Props.C63_double_to_single",
    "Pasture.Props.C63_int_float_int"
   ],
   "note": "About the IEEE 754 model in Model/Float.lean, which is proved to round to nearest-even."
  },
  {
   "property": "C64",
   "status": "proved",
   "theorems": [
    "Pasture.Props.C64_converted_values",
    "Pasture.Props.C64_views_equal",
    "Pasture.Props.C64_rejects"
   ],
   "note": ""
  },
  {
   "property": "C65",
   "status": "proved",
   "theorems": [
    "Pasture.Props.C65_transform_vector",
    "Pasture.Props.C65_transform_hashmap",
    "Pasture.Props.C65_rejects"
   ],
   "note": ""
  },
  {
   "property": "C66",
   "status": "partial",
   "theorems": [
    "Pasture.Props.C66_best_match",
    "Pasture.Props.C66_violated",
    "Pasture.Props.C66_valid_partial"
   ],
   "note": "The options follow the attributes, but the combination need not be one of the standard's formats."
  },
  {
   "property": "C67",
   "status": "proved",
   "theorems": [
    "Pasture.Props.C67_builder"
   ],
   "note": ""
  },
  {
   "property": "C68",
   "status": "partial",
   "theorems": [
    "Pasture.Props.C68_partial",
    "Pasture.Props.C68_violated",
    "Pasture.Props.C57_partial"
   ],
   "note": "Proved for voxels of up to 2^36 points and all 16-bit averaged attributes; C57_partial gives the hypothesis for every output point. False for 2^54 points: a sum of ones stops at 2^53."
  },
  {
   "property": "C69",
   "status": "partial",
   "theorems": [
    "Pasture.Props.C69_partial",
    "Pasture.Props.C69_violated"
   ],
   "note": "The value is always a most common one, and the same in every run if it is the only one. With a tie it depends on the iteration order of a hash map (C69_violated)."
  },
  {
   "property": "C70",
   "status": "proved",
   "theorems": [
    "Pasture.Props.C70_line",
    "Pasture.Props.C70_plane"
   ],
   "note": "The modelled formulas, with real numbers instead of f64."
  },
  {
   "property": "C71",
   "status": "partial",
   "theorems": [
    "Pasture.Props.C71_partial",
    "Pasture.Props.C71_exact_partial",
    "Pasture.Props.C71_violated"
   ],
   "note": "C71_partial: the functions themselves, with f64 arithmetic, for at least four points in general position (no four in a plane) with whole coordinates up to 1000, all orders of the hash sets. C71_exact_partial: the loop in exact arithmetic, any points in general position. C71_violated: false with coplanar points. Missing: which degenerate inputs still give the hull, and f64 inputs whose side tests round."
  },
  {
   "property": "C72",
   "status": "proved",
   "theorems": [
    "Pasture.Props.C72_within_vector",
    "Pasture.Props.C72_within_hashmap",
    "Pasture.Props.C72_within_panics",
    "Pasture.Props.C72_between_vector",
    "Pasture.Props.C72_between_hashmap",
    "Pasture.Props.C72_between_panics"
   ],
   "note": "PROJ itself is a parameter, a function on positions."
  },
  {
   "property": "C73",
   "status": "partial",
   "theorems": [
    "Pasture.Props.C73_partial",
    "Pasture.Props.C73_whole",
    "Pasture.Props.C73_panics",
    "Pasture.Props.C73_exact",
    "Pasture.Props.C73_infinite_violated",
    "Pasture.Props.C73_documented_violated"
   ],
   "note": "C73_partial: f64, finite points (or the finite ones, if some coordinate is a NaN): the mean up to an explicit error bound. C73_whole: correctly rounded for whole coordinates. C73_infinite_violated: without a NaN, points with infinite coordinates are not left out. The documented equal distance to all points is false."
  },
  {
   "property": "C74",
   "status": "partial",
   "theorems": [
    "Pasture.Props.C74_normal_partial",
    "Pasture.Props.C74_plane_partial",
    "Pasture.Props.C74_curvature_partial",
    "Pasture.Props.C74_results",
    "Pasture.Props.C74_panics",
    "Pasture.Props.C74_few_panics",
    "Pasture.Props.C74_infinite_panics",
    "Pasture.Props.C74_normal_violated",
    "Pasture.Props.C74_curvature_violated",
    "Pasture.Props.C74_small_violated"
   ],
   "note": "C74_results, C74_panics, C74_few_panics, C74_infinite_panics: f64 and any buffer; the k-d tree and atan2, sin, cos are parameters. In exact arithmetic: the normal is within a factor sqrt 3 of the best fit (C74_normal_partial), exact for points in a plane (C74_plane_partial), but in general not the best (C74_normal_violated); the curvature is the surface variation times a factor that depends on the size of the cloud (C74_curvature_partial, C74_curvature_violated), and 0 for small clouds (C74_small_violated). Missing: rounding errors of the normal and the curvature."
  },
  {
   "property": "C75",
   "status": "partial",
   "theorems": [
    "Pasture.Props.C75_batch",
    "Pasture.Props.C75_aligned",
    "Pasture.Props.C75_features_partial",
    "Pasture.Props.C75_features_violated"
   ],
   "note": "serde_json is an arbitrary faithful text codec. Proved for batch tables, and for feature tables whose single values do not look like entries of another kind; a single value that is an array comes back as an array entry (C75_features_violated)."
  },
  {
   "property": "C76",
   "status": "partial",
   "theorems": [
    "Pasture.Props.C76_partial",
    "Pasture.Props.C76_deep_violated",
    "Pasture.Props.C76_nonfinite_violated"
   ],
   "note": "Proved for at most 61 levels below the root and finite numbers. Deeper tilesets and a geometric error that is NaN or infinite are written without an error and cannot be read."
  },
  {
   "property": "C77",
   "status": "partial",
   "theorems": [
    "Pasture.Props.C77_partial",
    "Pasture.Props.C77_whole",
    "Pasture.Props.C77_violated",
    "Pasture.Props.C77_overflow_violated"
   ],
   "note": "C77_partial: up to an explicit rounding error. C77_whole: exact for whole coordinates up to 2^52. False in general: the corner of the cube from 0.1 to 0.2 is outside its box; huge bounds overflow."
  },
  {
   "property": "C78",
   "status": "proved",
   "theorems": [
    "Pasture.Props.C78",
    "Pasture.Props.C78_panics"
   ],
   "note": "A geometric error that is NaN is accepted, as documented (it is not less than 0)."
  },
  {
   "property": "C79",
   "status": "partial",
   "theorems": [
    "Pasture.Props.C79_contains",
    "Pasture.Props.C79_near",
    "Pasture.Props.C79_far_partial",
    "Pasture.Props.C79_nan_violated",
    "Pasture.Props.C79_cubic_whole",
    "Pasture.Props.C79_cubic_partial",
    "Pasture.Props.C79_cubic_violated"
   ],
   "note": "C79_near: every point within epsilon is accepted. C79_far_partial: accepted finite points are within epsilon up to the rounding of one subtraction. Points with NaN coordinates are accepted (C79_nan_violated). Cubes: exact for whole coordinates up to 2^51, up to an explicit error in general; the cube of the bounds from 0.1 to 0.2 misses their corner (C79_cubic_violated)."
  },
  {
   "property": "C80",
   "status": "partial",
   "theorems": [
    "Pasture.Props.C80_empty_partial",
    "Pasture.Props.C80_chunk_partial",
    "Pasture.Props.C80_attributes",
    "Pasture.Props.C80_las_violated",
    "Pasture.Props.C80_laz_violated",
    "Pasture.Props.C80_pnts_violated"
   ],
   "note": "False: the analysis clears its buffer and then asks the reader to fill it; every reader panics, so that the tool works for files without points only. Proved of the code behind the reading: chunks in the buffer are merged into the extents of all points."
  },
  {
   "property": "C81",
   "status": "partial",
   "theorems": [
    "Pasture.Props.C81_las_partial",
    "Pasture.Props.C81_laz_partial",
    "Pasture.Props.C81_session_partial",
    "Pasture.Props.C81_laz_session_partial",
    "Pasture.Props.C81_clash_violated",
    "Pasture.Props.C81_flags_violated"
   ],
   "note": "For entries whose names are different and not taken by the format (OwnNames). Otherwise false: a name that occurs twice makes opening the file panic (C81_clash_violated), and in formats 6 to 10 an entry named LASBasicFlags replaces the flags (C81_flags_violated)."
  },
  {
   "property": "C82",
   "status": "partial",
   "theorems": [
    "Pasture.Props.C82_lengths",
    "Pasture.Props.C82_no_extra_partial",
    "Pasture.Props.C82_short_violated",
    "Pasture.Props.C82_unreadable_violated",
    "Pasture.Props.C82_shifted_violated",
    "Pasture.Props.C82_value_violated",
    "Pasture.Props.C82_laz_violated"
   ],
   "note": "C82_lengths says exactly how long the file is. True without extra bytes. False with extra bytes: the writer never writes them, every file with points is too short (C82_short_violated) and cannot be read (C82_unreadable_violated); points in the default layout are read from wrong offsets (C82_shifted_violated, C82_value_violated). A LAZ writer panics (C82_laz_violated)."
  },
  {
   "property": "C83",
   "status": "partial",
   "theorems": [
    "Pasture.Props.C83_las_partial",
    "Pasture.Props.C83_laz_partial",
    "Pasture.Props.C83_repeated_partial",
    "Pasture.Props.C83_dyadic",
    "Pasture.Props.C83_violated",
    "Pasture.Props.C83_drift_violated"
   ],
   "note": "All bytes but the integer coordinates are the same; these move by at most one step per copy, and not at all for scales that are powers of two with offsets that are multiples of them (C83_dyadic). False in general: with the default scale 0.001 the stored coordinate 2001 becomes 2000 (C83_violated), and the error adds up over copies (C83_drift_violated)."
  },
  {
   "property": "C84",
   "status": "partial",
   "theorems": [
    "Pasture.Props.C84_las_partial",
    "Pasture.Props.C84_laz_partial",
    "Pasture.Props.C84_no_format",
    "Pasture.Props.C84_no_format_violated",
    "Pasture.Props.C84_rank_violated",
    "Pasture.Props.C84_range_violated",
    "Pasture.Props.C84_laz_unreadable_violated",
    "Pasture.Props.C84_pnts_partial",
    "Pasture.Props.C84_pnts_writes",
    "Pasture.Props.C84_pnts_empty_violated",
    "Pasture.Props.C84_pnts_precision_violated"
   ],
   "note": "Proved for every layout whose optional attributes are those of a point format, with LAS types, coordinates up to 2147483 m and bit fields that fit: all LAS attributes come back, positions within 1.001 mm. False otherwise: layouts between formats are refused (scan angles without GPS time), scan angle ranks get lost in formats 6 and above, coordinates of 2147484 m and more panic, LAZ files of formats 9 and 10 cannot be read. For .pnts files: proved for any number of points but none (these files cannot be read), with the attributes and types of the format; positions are stored in single precision without a center, so that large coordinates lose decimetres."
  },
  {
   "property": "C85",
   "status": "partial",
   "theorems": [
    "Pasture.Props.C85_las",
    "Pasture.Props.C85_laz",
    "Pasture.Props.C85_obstacles",
    "Pasture.Props.C85_nan_violated"
   ],
   "note": "Proved as an equivalence for both writers and all sequences of calls. False in one point: coordinates that are not numbers are accepted and stored as the offset."
  },
  {
   "property": "C86",
   "status": "partial",
   "theorems": [
    "Pasture.Props.C86_accepts",
    "Pasture.Props.C86_shows",
    "Pasture.Props.C86_fields",
    "Pasture.Props.C86_names_partial",
    "Pasture.Props.C86_names_violated",
    "Pasture.Props.C86_year_violated",
    "Pasture.Props.C86_extended_violated"
   ],
   "note": "Proved but for three points where it is false: names of classes of less than 15 bytes come with NUL characters at the end, records among the extended ones (EVLRs) are not found, and asking for a year that is negative or above 65535 panics."
  },
  {
   "property": "C87",
   "status": "partial",
   "theorems": [
    "Pasture.Props.C87_open_las",
    "Pasture.Props.C87_open_laz",
    "Pasture.Props.C87_double",
    "Pasture.Props.C87_single_partial",
    "Pasture.Props.C87_single_violated"
   ],
   "note": "Proved for double precision. False for single precision: integers above 2^24 are rounded before they are scaled, so a coordinate can be off by up to 64 steps of the scale (proved as a bound), however small the resulting position is."
  },
  {
   "property": "C88",
   "status": "partial",
   "theorems": [
    "Pasture.Props.C88_where",
    "Pasture.Props.C88_partial",
    "Pasture.Props.C88_count_partial",
    "Pasture.Props.C88_violated"
   ],
   "note": "Proved: where the records are, for every sequence of calls. The header is wrong in general: the writer keeps the start of the records it got with the header, so it is right exactly if as many points are written as that header counted."
  },
  {
   "property": "C89",
   "status": "proved",
   "theorems": [
    "Pasture.Props.C89_convert",
    "Pasture.Props.C89_missing"
   ],
   "note": "For all six formats. The number of a classification is made by the las crate and is a field of the modelled point. Scan angles outside of (-129, 128) saturate."
  },
  {
   "property": "C90",
   "status": "partial",
   "theorems": [
    "Pasture.Props.C90_accepts",
    "Pasture.Props.C90_builtin",
    "Pasture.Props.C90_accepted_partial",
    "Pasture.Props.C90_comment_violated",
    "Pasture.Props.C90_other_macro_violated",
    "Pasture.Props.C90_path_violated",
    "Pasture.Props.C90_rest_violated"
   ],
   "note": "On syn's syntax trees. Documented structs are accepted, with the documented names and types and the written repr. False otherwise: fields with documentation comments and vectors with their full path are refused, attributes of other macros are taken for #[pasture], and the rest of an attribute is ignored."
  },
  {
   "property": "C91",
   "status": "partial",
   "theorems": [
    "Pasture.Props.C91_at_ref_aligned",
    "Pasture.Props.C91_iter_aligned",
    "Pasture.Props.C91_disjoint",
    "Pasture.Props.C91_points_partial",
    "Pasture.Props.C91_attributes_partial",
    "Pasture.Props.C91_vector",
    "Pasture.Props.C91_columns",
    "Pasture.Props.C91_slice",
    "Pasture.Props.C91_slice_mut",
    "Pasture.Props.C91_slice_columns",
    "Pasture.Props.C91_slice_mut_columns",
    "Pasture.Props.C91_slice_aligned",
    "Pasture.Props.C91_history_partial",
    "Pasture.Props.C91_capacity_partial",
    "Pasture.Props.C91_empty_violated",
    "Pasture.Props.C91_empty_columns_violated",
    "Pasture.Props.C91_packed",
    "Pasture.Props.C91_external_violated"
   ],
   "note": "With a model of addresses. References are never misaligned; they are those of the points iff the memory is aligned for T, otherwise the view panics. False in general: every new, still empty buffer has a dangling, unaligned address, so iter() on it panics for types of alignment greater than 1; misaligned external memory panics too."
  },
  {
   "property": "C92",
   "status": "partial",
   "theorems": [
    "Pasture.Props.C92_open_partial",
    "Pasture.Props.C92_open_panics",
    "Pasture.Props.C92_refuses",
    "Pasture.Props.C92_read_interleaved_partial",
    "Pasture.Props.C92_read_columnar_partial",
    "Pasture.Props.C92_truncated",
    "Pasture.Props.C92_complete",
    "Pasture.Props.C92_tileset",
    "Pasture.Props.C92_batch_table",
    "Pasture.Props.C92_feature_table",
    "Pasture.Props.C92_offset_violated",
    "Pasture.Props.C92_position_violated",
    "Pasture.Props.C92_index_violated"
   ],
   "note": "For all bytes. Proved: tilesets and the tables always return, opening a file returns unless an offset plus the size of the tables does not fit 64 bits (exactly then it panics), reading returns unless the offset of a point does not fit 64 bits, truncated values are an error, complete files give their values. False in general: those two overflows, and a stream that does not stand at position 0 when the reader is made (an assertion)."
  },
  {
   "property": "C93",
   "status": "proved",
   "theorems": [
    "Pasture.Props.C93_las_interleaved",
    "Pasture.Props.C93_las_columnar",
    "Pasture.Props.C93_laz_interleaved",
    "Pasture.Props.C93_laz_columnar",
    "Pasture.Props.C93_las_session",
    "Pasture.Props.C93_laz_session",
    "Pasture.Props.C93_open"
   ],
   "note": "For files whose records layout describes the whole record, as in C38, and seeks below 2^63, as in C39. What the laz crate does on truncated input is taken to be an error."
  },
  {
   "property": "C94",
   "status": "partial",
   "theorems": [
    "Pasture.Props.C94_las",
    "Pasture.Props.C94_laz",
    "Pasture.Props.C94_exact",
    "Pasture.Props.C94_address_violated"
   ],
   "note": "The outcome (reader, error or panic) is determined exactly, for every header the las crate accepts. It does panic: if the bytes of the extra bytes VLR do not lie at a multiple of 8, if names in it clash with each other or with the point format, and if it describes more bytes than there are."
  },
  {
   "property": "C95",
   "status": "partial",
   "theorems": [
    "Pasture.Props.C95_layout_documents",
    "Pasture.Props.C95_layout_returns",
    "Pasture.Props.C95_layout_round_trip",
    "Pasture.Props.C95_definition_round_trip",
    "Pasture.Props.C95_type_round_trip",
    "Pasture.Props.C95_layout_read",
    "Pasture.Props.C95_built_layouts",
    "Pasture.Props.C95_member_layouts",
    "Pasture.Props.C95_bounds_documents",
    "Pasture.Props.C95_bounds_returns",
    "Pasture.Props.C95_bounds_round_trip",
    "Pasture.Props.C95_unchecked_violated",
    "Pasture.Props.C95_unchecked_panics_violated",
    "Pasture.Props.C95_bounds_violated"
   ],
   "note": "Which documents are read, and as what, is determined exactly. Not all of them describe something that can exist: layouts with clashing names, overlapping attributes, attributes outside the point or with a wrong size are accepted, and so are boxes whose minimum is above their maximum. A box with an infinite coordinate is not read back (JSON has no infinity)."
  },
  {
   "property": "C96",
   "status": "partial",
   "theorems": [
    "Pasture.Props.C96_opens",
    "Pasture.Props.C96_refuses",
    "Pasture.Props.C96_layout",
    "Pasture.Props.C96_fields_partial",
    "Pasture.Props.C96_batch_length_violated",
    "Pasture.Props.C96_center_violated",
    "Pasture.Props.C96_quantized_violated"
   ],
   "note": "Which files are opened, and with which metadata and layout, is determined exactly. Three things differ from the format or the documentation: a field BATCH_LENGTH is reported for files that have none, files that store their center in the binary part are refused, and files with quantized positions are opened without positions."
  },
  {
   "property": "C97",
   "status": "partial",
   "theorems": [
    "Pasture.Props.C97_partial",
    "Pasture.Props.C97_write_all",
    "Pasture.Props.C97_violated"
   ],
   "note": "Proved for destinations that take at least as many bytes at once as the JSON headers have. The full claim is false: the two JSON headers are handed to write, whose result is not looked at, instead of write_all (C97_violated)."
  },
  {
   "property": "C98",
   "status": "partial",
   "theorems": [
    "Pasture.Props.C98_same",
    "Pasture.Props.C98_las_interleaved_partial",
    "Pasture.Props.C98_las_columnar_partial",
    "Pasture.Props.C98_pnts_partial",
    "Pasture.Props.C98_las_recover",
    "Pasture.Props.C98_laz_recover",
    "Pasture.Props.C98_truncated",
    "Pasture.Props.C98_laz",
    "Pasture.Props.C98_ascii",
    "Pasture.Props.C98_violated",
    "Pasture.Props.C98_laz_violated",
    "Pasture.Props.C98_pnts_violated",
    "Pasture.Props.C98_ascii_violated"
   ],
   "note": "Proved for complete LAS files, all layouts and faults, and for PNTS files without a center to add. The full claim is false: after an error at the end of a truncated LAS file nothing can be read until one seeks to a different index (C98_truncated, C98_las_recover); a LAZ reader passes over the points before it refuses the layout (C98_laz), a PNTS reader before it adds the center, and a text reader loses the readable lines before an unreadable one (C98_ascii)."
  },
  {
   "property": "C99",
   "status": "partial",
   "theorems": [
    "Pasture.Props.C99_same",
    "Pasture.Props.C99_las_partial",
    "Pasture.Props.C99_laz_partial",
    "Pasture.Props.C99_pnts",
    "Pasture.Props.C99_pnts_fails",
    "Pasture.Props.C99_ascii_partial",
    "Pasture.Props.C99_las",
    "Pasture.Props.C99_laz",
    "Pasture.Props.C99_ascii",
    "Pasture.Props.C99_las_violated",
    "Pasture.Props.C99_las_evlrs_violated",
    "Pasture.Props.C99_laz_violated",
    "Pasture.Props.C99_ascii_violated"
   ],
   "note": "Proved in full for PNTS files, and for all formats if the failing call fails at its first point (LAS, LAZ) or first column (ASCII). The full claim is false: a LAS or LAZ writer that refuses a point has already taken the points before it into the bounds, a LAS writer has stored them without counting them and without being marked as unflushed, a LAZ writer has handed over whole chunks of 50000 of them, and a text writer has written the columns before the missing one, so that the next point continues their line. C99_las, C99_laz and C99_ascii say what exactly is left; C99_laz only for batches in the default layout, because others are not stored properly anyway (C42)."
  }
 ]
}