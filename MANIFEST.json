{
 "claims": [
  {
   "property": "C01",
   "status": "proved",
   "theorems": [
    "Verif.Props.C01_wkb_roundtrip",
    "Verif.Props.C01_wkb_roundtrip_open",
    "Verif.Props.C01_wkb_nan_ring_not_preserved"
   ],
   "note": "Bit-level model of the WKB writer and reader. The NaN-start-ring exclusion is shown necessary by C01_wkb_nan_ring_not_preserved."
  },
  {
   "property": "C02",
   "status": "proved",
   "theorems": [
    "Verif.Props.C02_wkb_stream"
   ],
   "note": ""
  },
  {
   "property": "C03",
   "status": "proved",
   "theorems": [
    "Verif.Props.C03_wkb_truncated"
   ],
   "note": ""
  },
  {
   "property": "C04",
   "status": "proved",
   "theorems": [
    "Verif.Props.C04_wkb_any_writer",
    "Verif.Props.C04_wkb_limited_writer",
    "Verif.Props.C04_wkb_no_write_after_failure",
    "Verif.Props.C04_wkb_encode_some_iff"
   ],
   "note": "Writers are arbitrary deterministic functions of their history."
  },
  {
   "property": "C05",
   "status": "proved",
   "theorems": [
    "Verif.Props.C05_wkb_decode_iff_wire",
    "Verif.Props.C05_wkb_bad_bom",
    "Verif.Props.C05_wkb_bad_code",
    "Verif.Props.C05_wkb_bad_member"
   ],
   "note": "Decoding success is characterised exactly by an independent inductive grammar."
  },
  {
   "property": "C06",
   "status": "proved",
   "theorems": [
    "Verif.Props.C06_zigzag_roundtrip",
    "Verif.Props.C06_zigzag_onto",
    "Verif.Props.C06_zigzag_standard",
    "Verif.Props.C06_zigzag_lossy",
    "Verif.Props.C06_command_roundtrip",
    "Verif.Props.C06_command_count_mod"
   ],
   "note": ""
  },
  {
   "property": "C07",
   "status": "proved",
   "theorems": [
    "Verif.Props.C07_point",
    "Verif.Props.C07_multiPoint",
    "Verif.Props.C07_lineString",
    "Verif.Props.C07_multiLineString"
   ],
   "note": "Coordinates are the truncated integers; float64 cursor exact below 2^53."
  },
  {
   "property": "C08",
   "status": "proved",
   "theorems": [
    "Verif.Props.C08_multiPolygon",
    "Verif.Props.C08_polygon",
    "Verif.Props.C08_windings",
    "Verif.Props.C08_degenerate_exterior_lost"
   ],
   "note": "Winding over exact integers. The non-degenerate exterior is shown necessary by C08_degenerate_exterior_lost."
  },
  {
   "property": "C09",
   "status": "partial",
   "theorems": [
    "Verif.Props.C09_tags_resolve_partial",
    "Verif.Props.C09_values_distinct",
    "Verif.Props.C09_violated"
   ],
   "note": "Violated for Go int and uint values, which become empty tile values (C09_violated). Proved for all other supported types and all map iteration orders."
  },
  {
   "property": "C10",
   "status": "proved",
   "theorems": [
    "Verif.Props.C10_call",
    "Verif.Props.C10_names_unique",
    "Verif.Props.C10_layers_stay",
    "Verif.Props.C10_error_iff"
   ],
   "note": ""
  },
  {
   "property": "C11",
   "status": "proved",
   "theorems": [
    "Verif.Props.C11_flatten",
    "Verif.Props.C11_nil"
   ],
   "note": ""
  },
  {
   "property": "C12",
   "status": "partial",
   "theorems": [
    "Verif.Props.C12_feature_list_partial",
    "Verif.Props.C12_dropped_list",
    "Verif.Props.C12_violated",
    "Verif.Props.C12_remove_is_noop"
   ],
   "note": "Violated: RemoveFeature drops its result (C12_violated, C12_remove_is_noop). C12_feature_list_partial covers histories whose removals name no position in use."
  },
  {
   "property": "C13",
   "status": "proved",
   "theorems": [
    "Verif.Props.C13_flags_faithful",
    "Verif.Props.C13_flags_injective"
   ],
   "note": ""
  },
  {
   "property": "C14",
   "status": "proved",
   "theorems": [
    "Verif.Props.C14_newHeader_iff",
    "Verif.Props.C14_header_roundtrip",
    "Verif.Props.C14_blob_roundtrip",
    "Verif.Props.C14_newBinary_roundtrip"
   ],
   "note": "Blob round-trip is up to the repeated closing vertex of rings, as for WKB."
  },
  {
   "property": "C15",
   "status": "partial",
   "theorems": [
    "Verif.Props.C15_header_accepts_partial",
    "Verif.Props.C15_header_reencode",
    "Verif.Props.C15_violated"
   ],
   "note": "Violated: the magic bytes are not checked when there is no envelope (C15_violated). C15_header_accepts_partial is the exact acceptance condition."
  },
  {
   "property": "C16",
   "status": "proved",
   "theorems": [
    "Verif.Props.C16_round_trip_general",
    "Verif.Props.C16_round_trip",
    "Verif.Props.C16_plus_refused"
   ],
   "note": "Round trip for every tidy geometry, and the exact value for every accepted geometry; number formatting and parsing are parameters with a read-back hypothesis; numbers formatted with a plus sign are shown to be refused (C16_plus_refused)."
  },
  {
   "property": "C17",
   "status": "proved",
   "theorems": [
    "Verif.Props.C17_prefix_refused"
   ],
   "note": "For any formatter whose numbers have no parentheses and any parser."
  },
  {
   "property": "C18",
   "status": "partial",
   "theorems": [
    "Verif.Props.C18_closed_meaning",
    "Verif.Props.C18_violated",
    "Verif.Props.C18_violated_shared",
    "Verif.Props.C18_rings_partial",
    "Verif.Props.C18_again_partial",
    "Verif.Props.C18_multi_partial"
   ],
   "note": "Violated: the caller's polygon is changed, and rings that share one array corrupt each other (C18_violated, C18_violated_shared). Proved for rings whose spare capacity does not overlap: closed exactly, a second pass changes nothing, slices taken before still show the same vertices."
  },
  {
   "property": "C19",
   "status": "partial",
   "theorems": [
    "Verif.Props.C19_violated",
    "Verif.Props.C19_writes_iff",
    "Verif.Props.C19_roundtrip_partial",
    "Verif.Props.C19_nil_panics_partial"
   ],
   "note": "Violated for nil coordinate slices (written as null, reading back panics, exactly then). Proved for everything else at any nesting; encoding/json text layer is a parameter."
  },
  {
   "property": "C20",
   "status": "proved",
   "theorems": [
    "Verif.Props.C20_newExtent_tight",
    "Verif.Props.C20_newExtentFromGeometry_tight",
    "Verif.Props.C20_addPoints_tight",
    "Verif.Props.C20_extent_order_irrelevant",
    "Verif.Props.C20_add_join"
   ],
   "note": "Float bit patterns, IEEE order; NaN excluded."
  },
  {
   "property": "C21",
   "status": "proved",
   "theorems": [
    "Verif.Props.C21_contains_iff_points",
    "Verif.Props.C21_contains_refl",
    "Verif.Props.C21_contains_antisymm",
    "Verif.Props.C21_contains_trans",
    "Verif.Props.C21_contains_nil"
   ],
   "note": ""
  },
  {
   "property": "C22",
   "status": "proved",
   "theorems": [
    "Verif.Props.C22_intersect_common",
    "Verif.Props.C22_intersect_none",
    "Verif.Props.C22_intersect_universe",
    "Verif.Props.C22_intersect_comm"
   ],
   "note": ""
  },
  {
   "property": "C23",
   "status": "partial",
   "theorems": [
    "Verif.Props.C23_containsGeom_violated",
    "Verif.Props.C23_containsGeom_partial",
    "Verif.Props.C23_containsGeom_point",
    "Verif.Props.C23_containsGeom_unknown"
   ],
   "note": "Violated: the computed box always includes the origin (C23_containsGeom_violated). C23_containsGeom_partial gives the exact answer of the code."
  },
  {
   "property": "C24",
   "status": "proved",
   "theorems": [
    "Verif.Props.C24_getCoordinates",
    "Verif.Props.C24_getCoordinates_error_iff",
    "Verif.Props.C24_extractLines",
    "Verif.Props.C24_extractLines_error_iff",
    "Verif.Props.C24_ring_closed",
    "Verif.Props.C24_lineString_asSegments",
    "Verif.Props.C24_polygon_asSegments",
    "Verif.Props.C24_multiLineString_asSegments",
    "Verif.Props.C24_multiPolygon_asSegments"
   ],
   "note": ""
  },
  {
   "property": "C25",
   "status": "proved",
   "theorems": [
    "Verif.Props.C25_applyToPoints_visits",
    "Verif.Props.C25_applyToPoints_shape",
    "Verif.Props.C25_applyToPoints_map",
    "Verif.Props.C25_applyToPoints_id",
    "Verif.Props.C25_applyToPoints_comp",
    "Verif.Props.C25_applyToPoints_fails",
    "Verif.Props.C25_not_simple",
    "Verif.Props.C25_clone_eq"
   ],
   "note": "The function may keep state; Clone on values (memory sharing is not part of this claim)."
  },
  {
   "property": "C26",
   "status": "proved",
   "theorems": [
    "Verif.Props.C26_symm",
    "Verif.Props.C26_symm_needs_bit",
    "Verif.Props.C26_refl",
    "Verif.Props.C26_inf",
    "Verif.Props.C26_near",
    "Verif.Props.C26_zero",
    "Verif.Props.C26_not_transitive"
   ],
   "note": "Symmetry excludes the bit tolerance -2^63, where it fails (C26_symm_needs_bit)."
  },
  {
   "property": "C27",
   "status": "proved",
   "theorems": [
    "Verif.Props.C27_less_iff",
    "Verif.Props.C27_irrefl",
    "Verif.Props.C27_trans",
    "Verif.Props.C27_total",
    "Verif.Props.C27_nan"
   ],
   "note": ""
  },
  {
   "property": "C28",
   "status": "proved",
   "theorems": [
    "Verif.Props.C28_permutation_invariant",
    "Verif.Props.C28_permutations_equal",
    "Verif.Props.C28_sound"
   ],
   "note": "Any sorting algorithm."
  },
  {
   "property": "C29",
   "status": "proved",
   "theorems": [
    "Verif.Props.C29_rotation",
    "Verif.Props.C29_least_first",
    "Verif.Props.C29_idempotent",
    "Verif.Props.C29_rotations_equal",
    "Verif.Props.C29_sound",
    "Verif.Props.C29_unique_needed",
    "Verif.Props.C29_symm_refl"
   ],
   "note": ""
  },
  {
   "property": "C30",
   "status": "partial",
   "theorems": [
    "Verif.Props.C30_violated",
    "Verif.Props.C30_symm_partial",
    "Verif.Props.C30_meaning",
    "Verif.Props.C30_permutation"
   ],
   "note": "Violated by repeated lines (C30_violated); C30_symm_partial when no line equals two of the other side."
  },
  {
   "property": "C31",
   "status": "proved",
   "theorems": [
    "Verif.Props.C31_winding_is_area_sign",
    "Verif.Props.C31_reverse",
    "Verif.Props.C31_flip_axis",
    "Verif.Props.C31_rotate",
    "Verif.Props.C31_translate",
    "Verif.Props.C31_closing_point"
   ],
   "note": "Over any linearly ordered commutative ring; float rounding not modelled."
  },
  {
   "property": "C32",
   "status": "proved",
   "theorems": [
    "Verif.Props.C32_rectify",
    "Verif.Props.C32_rectify_windings",
    "Verif.Props.C32_rectify_idempotent",
    "Verif.Props.C32_rectify_mutates_argument"
   ],
   "note": "Over any linearly ordered commutative ring; float rounding not modelled."
  },
  {
   "property": "C33",
   "status": "proved",
   "theorems": [
    "Verif.Props.C33_callback",
    "Verif.Props.C33_descendants",
    "Verif.Props.C33_ancestor",
    "Verif.Props.C33_down_up",
    "Verif.Props.C33_partition"
   ],
   "note": "Zoom differences up to 62 and tiles of the grid."
  },
  {
   "property": "C34",
   "status": "proved",
   "theorems": [
    "Verif.Props.C34_order",
    "Verif.Props.C34_irrefl",
    "Verif.Props.C34_trans",
    "Verif.Props.C34_total"
   ],
   "note": ""
  },
  {
   "property": "C35",
   "status": "proved",
   "theorems": [
    "Verif.Props.C35_rectangle",
    "Verif.Props.C35_corner_order",
    "Verif.Props.C35_error_iff"
   ],
   "note": "Grid is any pair of conversion functions."
  },
  {
   "property": "C36",
   "status": "proved",
   "theorems": [
    "Verif.Props.C36_simplify",
    "Verif.Props.C36_total"
   ],
   "note": "Distances and tolerance are float64 bit patterns (NaN included), the distance function is any function."
  },
  {
   "property": "C37",
   "status": "proved",
   "theorems": [
    "Verif.Props.C37_segment_intersect",
    "Verif.Props.C37_no_report"
   ],
   "note": "Over any linearly ordered field."
  },
  {
   "property": "C38",
   "status": "proved",
   "theorems": [
    "Verif.Props.C38_every_meeting_once",
    "Verif.Props.C38_cancelled"
   ],
   "note": "Exact arithmetic; the sort is any arrangement allowed by Less; cancellation covered."
  },
  {
   "property": "C39",
   "status": "proved",
   "theorems": [
    "Verif.Props.C39_is_a_set",
    "Verif.Props.C39_well_formed",
    "Verif.Props.C39_duplicate"
   ],
   "note": "Coordinates from any linear order (float64 without NaN, zeros identified); stored values carry any payload. With NaN coordinates the code stores duplicates, outside the model."
  },
  {
   "property": "C40",
   "status": "proved",
   "theorems": [
    "Verif.Props.C40_sorted_complete",
    "Verif.Props.C40_terminates",
    "Verif.Props.C40_runs",
    "Verif.Props.C40_end_is_final",
    "Verif.Props.C40_euclidean"
   ],
   "note": "All trees reachable by inserts, all distance functions that bound boxes below, all valid heap behaviours; instance for EuclideanDistance over the reals (no rounding)."
  },
  {
   "property": "C41",
   "status": "partial",
   "theorems": [
    "Verif.Props.C41_search_exact_partial",
    "Verif.Props.C41_delete_answers_partial",
    "Verif.Props.C41_inserts_partial",
    "Verif.Props.C41_new_tree_partial",
    "Verif.Props.C41_violated",
    "Verif.Props.C41_bulk_insert_violated"
   ],
   "note": "Exact for every history that does not panic and for bulk-loaded trees with deletes; inserts alone never panic. Violated: after deleting everything an insert can panic, and an insert after a bulk load can lose objects."
  },
  {
   "property": "C42",
   "status": "proved",
   "theorems": [
    "Verif.Props.C42_limit_is_prefix",
    "Verif.Props.C42_limit_bounded"
   ],
   "note": "All reached trees; the limited search is a prefix of the unlimited one."
  },
  {
   "property": "C43",
   "status": "partial",
   "theorems": [
    "Verif.Props.C43_algebra_partial",
    "Verif.Props.C43_apply",
    "Verif.Props.C43_violated"
   ],
   "note": "Holds for every history in which only edges of the same kind (two edges or two dual edges) are spliced, which is how the library uses Splice. C43_full allows any two edges and is refuted by C43_violated: splicing an edge with its own dual edge breaks the structure at the next splice. Nil edges are not modelled."
  },
  {
   "property": "C44",
   "status": "proved",
   "theorems": [
    "Verif.Props.C44_segment_distance"
   ],
   "note": "Over the reals."
  },
  {
   "property": "C45",
   "status": "partial",
   "theorems": [
    "Verif.Props.C45_violated",
    "Verif.Props.C45_covers_partial"
   ],
   "note": "Violated for buffers below 1 (C45_violated); C45_covers_partial for buffers of at least 1, every point of the extent."
  },
  {
   "property": "C46",
   "status": "proved",
   "theorems": [
    "Verif.Props.C46_circle",
    "Verif.Props.C46_never_loops",
    "Verif.Props.C46_radius",
    "Verif.Props.C46_contains"
   ],
   "note": "Over any linearly ordered field; radius over the reals."
  },
  {
   "property": "C47",
   "status": "partial",
   "theorems": [
    "Verif.Props.C47_nodup_partial",
    "Verif.Props.C47_front_partial",
    "Verif.Props.C47_violated"
   ],
   "note": "Proved when no two edges overlap; otherwise the slice begins with all its segments, each once, but its tail repeats some (C47_violated)."
  },
  {
   "property": "C48",
   "status": "proved",
   "theorems": [
    "Verif.Props.C48_cut",
    "Verif.Props.C48_panics"
   ],
   "note": "Exact for every pair of indices in range (the run going round, and the points at the other places in order); the panic condition is exact."
  },
  {
   "property": "C49",
   "status": "partial",
   "theorems": [
    "Verif.Props.C49_zone_partial",
    "Verif.Props.C49_violated",
    "Verif.Props.C49_violated_north",
    "Verif.Props.C49_letter"
   ],
   "note": "Exact arithmetic. Violated at longitude 180 (zone 61, C49_violated) and at latitude 84 (zone 32X, C49_violated_north); C49_zone_partial covers all other places, C49_letter all latitudes. float64 rounding of lng+180 also gives 61 just below 180, outside the model."
  },
  {
   "property": "C50",
   "status": "proved",
   "theorems": [
    "Verif.Props.C50_points",
    "Verif.Props.C50_line",
    "Verif.Props.C50_parts",
    "Verif.Props.C50_lines"
   ],
   "note": "Exact arithmetic. C50_line for every box with ordered sides and any comparison of points; C50_parts (direction, order) for exact comparison. Geometry dispatch in clip.go not modelled."
  },
  {
   "property": "C51",
   "status": "proved",
   "theorems": [
    "Verif.Props.C51_isEmptyGeo_iff",
    "Verif.Props.C51_isEmptyGeo_known"
   ],
   "note": ""
  },
  {
   "property": "C52",
   "status": "partial",
   "theorems": [
    "Verif.Props.C52_envelope_partial",
    "Verif.Props.C52_violated"
   ],
   "note": "Violated: NewBinary stores minx, miny, maxx, maxy (C52_violated); C52_envelope_partial shows the four numbers are right."
  },
  {
   "property": "C53",
   "status": "partial",
   "theorems": [
    "Verif.Props.C53_point_never_panics_partial",
    "Verif.Props.C53_violated",
    "Verif.Props.C53_commands_never_panic_partial"
   ],
   "note": "Violated: linestring and polygon decoding panic on short input (C53_violated); points never panic, and neither do messages of complete commands with a LineTo among them."
  },
  {
   "property": "C54",
   "status": "proved",
   "theorems": [
    "Verif.Props.C54_cancel_all_or_nothing",
    "Verif.Props.C54_cancel_noticed"
   ],
   "note": "The context is any function from the feature index to done or not."
  },
  {
   "property": "C55",
   "status": "proved",
   "theorems": [
    "Verif.Props.C55_point_accepts_iff",
    "Verif.Props.C55_point_count"
   ],
   "note": ""
  },
  {
   "property": "C56",
   "status": "partial",
   "theorems": [
    "Verif.Props.C56_violated",
    "Verif.Props.C56_descriptions_equal_partial",
    "Verif.Props.C56_sound",
    "Verif.Props.C56_refl",
    "Verif.Props.C56_reorders",
    "Verif.Props.C56_mutates",
    "Verif.Props.C56_panics"
   ],
   "note": "Violated when two interior rings of one length share their least vertex (C56_violated); C56_descriptions_equal_partial otherwise."
  },
  {
   "property": "C57",
   "status": "partial",
   "theorems": [
    "Verif.Props.C57_violated",
    "Verif.Props.C57_no_stray_value",
    "Verif.Props.C57_serial_swaps_partial"
   ],
   "note": "Violated by overlapping calls (C57_violated); C57_serial_swaps_partial for calls that do not overlap, C57_no_stray_value for every interleaving."
  },
  {
   "property": "C58",
   "status": "partial",
   "theorems": [
    "Verif.Props.C58_corner_iff",
    "Verif.Props.C58_violated",
    "Verif.Props.C58_corner_partial",
    "Verif.Props.C58_column_contains",
    "Verif.Props.C58_row_contains"
   ],
   "note": "Over exact reals. Violated for row 1 of zoom 22 (C58_violated); C58_corner_iff says exactly where it holds."
  },
  {
   "property": "C59",
   "status": "partial",
   "theorems": [
    "Verif.Props.C59_violated",
    "Verif.Props.C59_row_in_grid",
    "Verif.Props.C59_in_grid_partial"
   ],
   "note": "Over exact reals. Violated just west of 180 degrees (C59_violated); C59_in_grid_partial elsewhere."
  },
  {
   "property": "C60",
   "status": "partial",
   "theorems": [
    "Verif.Props.C60_violated",
    "Verif.Props.C60_min_corner_partial"
   ],
   "note": "Violated (C60_violated); the result contains the minimum corner (C60_min_corner_partial)."
  },
  {
   "property": "C61",
   "status": "proved",
   "theorems": [
    "Verif.Props.C61_nested"
   ],
   "note": "Over exact reals."
  },
  {
   "property": "C62",
   "status": "proved",
   "theorems": [
    "Verif.Props.C62_accepts_exactly",
    "Verif.Props.C62_unambiguous",
    "Verif.Props.C62_terminates"
   ],
   "note": "Exact acceptance against an independent grammar; unambiguity; the recursion bound of the model is never reached."
  },
  {
   "property": "C63",
   "status": "proved",
   "theorems": [
    "Verif.Props.C63_accepts_exactly",
    "Verif.Props.C63_strict_same_text"
   ],
   "note": "Exact acceptance; strict mode never changes the text."
  },
  {
   "property": "C64",
   "status": "partial",
   "theorems": [
    "Verif.Props.C64_violated",
    "Verif.Props.C64_violated_ring",
    "Verif.Props.C64_reads_iff_partial"
   ],
   "note": "Violated: POINT EMPTY and rings [a,b,a] are written and not read; C64_reads_iff_partial says exactly which texts are read."
  },
  {
   "property": "C65",
   "status": "partial",
   "theorems": [
    "Verif.Props.C65_violated",
    "Verif.Props.C65_violated_read",
    "Verif.Props.C65_writes_iff",
    "Verif.Props.C65_feature_partial",
    "Verif.Props.C65_collection_partial",
    "Verif.Props.C65_wraps_partial"
   ],
   "note": "Violated for features without geometry. Proved for all others, collections and slices."
  },
  {
   "property": "C66",
   "status": "partial",
   "theorems": [
    "Verif.Props.C66_violated",
    "Verif.Props.C66_violated_more",
    "Verif.Props.C66_no_panic_partial"
   ],
   "note": "Violated: nulls under type/coordinates/geometries panic. Proved for documents without such nulls."
  },
  {
   "property": "C67",
   "status": "partial",
   "theorems": [
    "Verif.Props.C67_violated",
    "Verif.Props.C67_position_partial"
   ],
   "note": "Violated: missing and null coordinates read as 0. Exact acceptance proved."
  },
  {
   "property": "C68",
   "status": "proved",
   "theorems": [
    "Verif.Props.C68_foreign",
    "Verif.Props.C68_order"
   ],
   "note": "Order: names distinct up to ASCII case."
  },
  {
   "property": "C69",
   "status": "partial",
   "theorems": [
    "Verif.Props.C69_violated",
    "Verif.Props.C69_line_distance_partial"
   ],
   "note": "Violated when the two line points coincide (C69_violated); C69_line_distance_partial otherwise. Over the reals."
  },
  {
   "property": "C70",
   "status": "proved",
   "theorems": [
    "Verif.Props.C70_cancel"
   ],
   "note": "The context is any monotone sequence of poll answers."
  },
  {
   "property": "C71",
   "status": "proved",
   "theorems": [
    "Verif.Props.C71_shape"
   ],
   "note": "The simplifer is any partial function."
  },
  {
   "property": "C72",
   "status": "partial",
   "theorems": [
    "Verif.Props.C72_violated",
    "Verif.Props.C72_rings_partial"
   ],
   "note": "Violated: flat rings become empty rings (C72_violated); C72_rings_partial: every ring is empty or has three points."
  },
  {
   "property": "C73",
   "status": "proved",
   "theorems": [
    "Verif.Props.C73_line_intersect",
    "Verif.Props.C73_no_report"
   ],
   "note": "Over any linearly ordered field."
  },
  {
   "property": "C74",
   "status": "partial",
   "theorems": [
    "Verif.Props.C74_violated",
    "Verif.Props.C74_violated_missed",
    "Verif.Props.C74_exact_partial"
   ],
   "note": "Violated in both directions (C74_violated, C74_violated_missed); C74_exact_partial says what the test decides."
  },
  {
   "property": "C75",
   "status": "proved",
   "theorems": [
    "Verif.Props.C75_on_segment",
    "Verif.Props.C75_on_line"
   ],
   "note": "Exact comparison of numbers."
  },
  {
   "property": "C76",
   "status": "proved",
   "theorems": [
    "Verif.Props.C76_point_on_line_at"
   ],
   "note": "Over the reals."
  },
  {
   "property": "C77",
   "status": "partial",
   "theorems": [
    "Verif.Props.C77_violated",
    "Verif.Props.C77_centroid_is_mean",
    "Verif.Props.C77_scaled_partial"
   ],
   "note": "Violated (C77_violated): divides by the last area term. C77_scaled_partial says by which factor the result is off."
  },
  {
   "property": "C78",
   "status": "proved",
   "theorems": [
    "Verif.Props.C78_within_circle",
    "Verif.Props.C78_agrees_with_circle"
   ],
   "note": "Over any linearly ordered field."
  },
  {
   "property": "C79",
   "status": "partial",
   "theorems": [
    "Verif.Props.C79_violated",
    "Verif.Props.C79_closed_partial"
   ],
   "note": "Violated for k = 0 (C79_violated, index panic); C79_closed_partial for k from 3 on."
  },
  {
   "property": "C80",
   "status": "proved",
   "theorems": [
    "Verif.Props.C80_third_point"
   ],
   "note": ""
  },
  {
   "property": "C81",
   "status": "partial",
   "theorems": [
    "Verif.Props.C81_violated",
    "Verif.Props.C81_box_partial"
   ],
   "note": "Violated (C81_violated): it is a box test; C81_box_partial."
  },
  {
   "property": "C82",
   "status": "proved",
   "theorems": [
    "Verif.Props.C82_as_points"
   ],
   "note": "Over the reals."
  },
  {
   "property": "C83",
   "status": "proved",
   "theorems": [
    "Verif.Props.C83_center"
   ],
   "note": "Over any linearly ordered field."
  },
  {
   "property": "C84",
   "status": "proved",
   "theorems": [
    "Verif.Props.C84_distance_to_extent"
   ],
   "note": "Exact arithmetic over the reals."
  },
  {
   "property": "C85",
   "status": "proved",
   "theorems": [
    "Verif.Props.C85_even_odd",
    "Verif.Props.C85_even_odd_small",
    "Verif.Props.C85_even_odd_indexed"
   ],
   "note": "Exact arithmetic and exact point equality; with and without the segment index."
  },
  {
   "property": "C86",
   "status": "partial",
   "theorems": [
    "Verif.Props.C86_filters_partial",
    "Verif.Props.C86_violated"
   ],
   "note": "Proved for filters that never abort, for any order. Violated: an abort only ends the loop over the current leaf."
  },
  {
   "property": "C87",
   "status": "proved",
   "theorems": [
    "Verif.Props.C87_index_exact",
    "Verif.Props.C87_finds_all_meeting",
    "Verif.Props.C87_small"
   ],
   "note": "Exact coordinate arithmetic; box sizes (float64) are arbitrary, as are the height, the slices and the sorts of the bulk load."
  },
  {
   "property": "C88",
   "status": "proved",
   "theorems": [
    "Verif.Props.C88_nearest"
   ],
   "note": "Exact arithmetic over any ordered field; objects with lower ends not above upper ends."
  },
  {
   "property": "C89",
   "status": "partial",
   "theorems": [
    "Verif.Props.C89_k_nearest_partial",
    "Verif.Props.C89_no_panic_partial",
    "Verif.Props.C89_no_panic_loaded_partial",
    "Verif.Props.C89_abort_partial",
    "Verif.Props.C89_violated"
   ],
   "note": "Proved for k at least 1 (no panic needs MaxChildren at least 2 and, for bulk-loaded trees, a computed height that is enough). Violated: k = 0 panics on trees of more than one level."
  },
  {
   "property": "C90",
   "status": "proved",
   "theorems": [
    "Verif.Props.C90_splice_rings",
    "Verif.Props.C90_rings"
   ],
   "note": "Every structure reached by making, splicing, connecting, swapping, deleting edges; C90_rings shows that being on one ring is an equivalence."
  },
  {
   "property": "C91",
   "status": "proved",
   "theorems": [
    "Verif.Props.C91_delete"
   ],
   "note": ""
  },
  {
   "property": "C92",
   "status": "proved",
   "theorems": [
    "Verif.Props.C92_connect"
   ],
   "note": "For the edge ResolveEdge chose at the far end; the choice itself is not part of this claim. The new edge and its place are stated exactly."
  },
  {
   "property": "C93",
   "status": "proved",
   "theorems": [
    "Verif.Props.C93_swap"
   ],
   "note": "Needs another edge before the swapped edge at each of its ends (Turnable), which every edge between two triangles has."
  },
  {
   "property": "C94",
   "status": "proved",
   "theorems": [
    "Verif.Props.C94_origins"
   ],
   "note": ""
  },
  {
   "property": "C95",
   "status": "partial",
   "theorems": [
    "Verif.Props.C95_once_round",
    "Verif.Props.C95_walk_partial",
    "Verif.Props.C95_violated",
    "Verif.Props.C95_find_destination"
   ],
   "note": "The walks are proved complete where no edge has both ends at the origin. C95_full is refuted by C95_violated: the walk marks quad-edges, not edges, and stops early at a loop. FindONextDest is proved without that restriction."
  },
  {
   "property": "C96",
   "status": "proved",
   "theorems": [
    "Verif.Props.C96_stack"
   ],
   "note": ""
  },
  {
   "property": "C97",
   "status": "partial",
   "theorems": [
    "Verif.Props.C97_normalize_partial",
    "Verif.Props.C97_violated"
   ],
   "note": "Violated west of -180 (C97_violated); C97_normalize_partial covers the rest. int64 overflow not modelled."
  },
  {
   "property": "C98",
   "status": "proved",
   "theorems": [
    "Verif.Props.C98_dms"
   ],
   "note": "Over any ordered field with floor; float64 rounding not modelled."
  },
  {
   "property": "C99",
   "status": "partial",
   "theorems": [
    "Verif.Props.C99_panics_partial",
    "Verif.Props.C99_violated"
   ],
   "note": "Violated (C99_violated); C99_panics_partial says exactly where it panics. Over the reals."
  },
  {
   "property": "C100",
   "status": "partial",
   "theorems": [
    "Verif.Props.C100_columns_partial",
    "Verif.Props.C100_violated"
   ],
   "note": "Violated in zones divisible by 3 (C100_violated); C100_columns_partial for the others. Over the reals."
  },
  {
   "property": "C101",
   "status": "proved",
   "theorems": [
    "Verif.Props.C101_mirror"
   ],
   "note": "Over the reals."
  },
  {
   "property": "C102",
   "status": "partial",
   "theorems": [
    "Verif.Props.C102_round_trip_partial",
    "Verif.Props.C102_violated"
   ],
   "note": "Violated (C102_violated): more than half a degree off at 60N 3E on a sphere; C102_round_trip_partial: exact on central meridians of a sphere."
  },
  {
   "property": "C103",
   "status": "partial",
   "theorems": [
    "Verif.Props.C103_covered_partial",
    "Verif.Props.C103_violated"
   ],
   "note": "Violated (C103_violated): a segment through the corner (maxx,miny) is dropped. C103_covered_partial for segments through no corner."
  },
  {
   "property": "C104",
   "status": "partial",
   "theorems": [
    "Verif.Props.C104_two_points_partial",
    "Verif.Props.C104_violated",
    "Verif.Props.C104_violated_twice"
   ],
   "note": "Violated (C104_violated): a line leaving from a point of the border gives a one-point line. C104_two_points_partial for lines with no vertex on the border."
  },
  {
   "property": "C105",
   "status": "partial",
   "theorems": [
    "Verif.Props.C105_rings_partial",
    "Verif.Props.C105_simple",
    "Verif.Props.C105_violated"
   ],
   "note": "Proved for rings whose neighbouring points differ (and for rings without repeated points the exact result); a ring whose last point repeats the leftmost first point panics (C105_violated)."
  },
  {
   "property": "C106",
   "status": "partial",
   "theorems": [
    "Verif.Props.C106_area_partial",
    "Verif.Props.C106_violated"
   ],
   "note": "Proved whenever rings are returned; a triangle with a spike to the left is dropped as a whole (C106_violated)."
  },
  {
   "property": "C107",
   "status": "partial",
   "theorems": [
    "Verif.Props.C107_nodup_partial",
    "Verif.Props.C107_no_panic",
    "Verif.Props.C107_violated"
   ],
   "note": "Proved for rings in which no point comes more than twice and the leftmost point once; a point that comes three times stays twice (C107_violated)."
  },
  {
   "property": "C108",
   "status": "proved",
   "theorems": [
    "Verif.Props.C108_walk",
    "Verif.Props.C108_stopped"
   ],
   "note": "Exact set of marked triangles, number and origin of the points of the ring; what a cancelled walk has marked."
  },
  {
   "property": "C109",
   "status": "proved",
   "theorems": [
    "Verif.Props.C109_area"
   ],
   "note": ""
  },
  {
   "property": "C110",
   "status": "partial",
   "theorems": [
    "Verif.Props.C110_area_partial",
    "Verif.Props.C110_simple_partial",
    "Verif.Props.C110_violated"
   ],
   "note": "Proved when the rings of the walks untangle into an outer ring first and holes after it, in particular when they visit no point twice; five triangles round a hole that touches the leftmost point give hole and outside the wrong way round (C110_violated)."
  },
  {
   "property": "C111",
   "status": "proved",
   "theorems": [
    "Verif.Props.C111_polygons"
   ],
   "note": ""
  },
  {
   "property": "C112",
   "status": "proved",
   "theorems": [
    "Verif.Props.C112_crossings",
    "Verif.Props.C112_apart"
   ],
   "note": "Exact arithmetic."
  },
  {
   "property": "C113",
   "status": "proved",
   "theorems": [
    "Verif.Props.C113_cover",
    "Verif.Props.C113_cover_clipped"
   ],
   "note": "Exact arithmetic."
  },
  {
   "property": "C114",
   "status": "proved",
   "theorems": [
    "Verif.Props.C114_parts"
   ],
   "note": "Exact arithmetic."
  },
  {
   "property": "C115",
   "status": "partial",
   "theorems": [
    "Verif.Props.C115_all_or_nothing_partial",
    "Verif.Props.C115_violated"
   ],
   "note": "What is returned is complete or nothing at all; but nothing is returned without an error (C115_violated)."
  },
  {
   "property": "C116",
   "status": "partial",
   "theorems": [
    "Verif.Props.C116_exact_partial",
    "Verif.Props.C116_polygons_partial",
    "Verif.Props.C116_single_partial",
    "Verif.Props.C116_near_partial",
    "Verif.Props.C116_violated",
    "Verif.Props.C116_rounding_violated"
   ],
   "note": "Exact arithmetic. Proved for points of at most 20 significant bits and rings of which no smaller one of another polygon decides first; an island in a hole of another polygon is labelled Outside (C116_violated), and points are rounded to 20 bits (C116_rounding_violated)."
  },
  {
   "property": "C117",
   "status": "partial",
   "theorems": [
    "Verif.Props.C117_outside_partial",
    "Verif.Props.C117_violated"
   ],
   "note": "Points outside the box are Outside; but with a clip box nearly everything is Outside (C117_violated)."
  },
  {
   "property": "C118",
   "status": "proved",
   "theorems": [
    "Verif.Props.C118_collection",
    "Verif.Props.C118_new"
   ],
   "note": "Exact arithmetic."
  },
  {
   "property": "C119",
   "status": "proved",
   "theorems": [
    "Verif.Props.C119_same_label"
   ],
   "note": "Exact arithmetic."
  },
  {
   "property": "C120",
   "status": "partial",
   "theorems": [
    "Verif.Props.C120_area_partial",
    "Verif.Props.C120_violated"
   ],
   "note": "Proved for walks that come to no point twice; a hole that touches the leftmost point turns the polygon inside out (C120_violated). The triangulation is taken as given."
  },
  {
   "property": "C121",
   "status": "partial",
   "theorems": [
    "Verif.Props.C121_labelling_partial",
    "Verif.Props.C121_violated"
   ],
   "note": "Proved for contexts that end while triangles are labelled; before that a nil multipolygon is returned without error (C121_violated)."
  },
  {
   "property": "C122",
   "status": "partial",
   "theorems": [
    "Verif.Props.C122_shape_partial",
    "Verif.Props.C122_violated"
   ],
   "note": "Exactly when no triangle is inside a nil *MultiPolygon is returned (C122_violated)."
  },
  {
   "property": "C123",
   "status": "proved",
   "theorems": [
    "Verif.Props.C123_triangulation_error",
    "Verif.Props.C123_not_clipped",
    "Verif.Props.C123_clipped",
    "Verif.Props.C123_unknown"
   ],
   "note": "The clipper and the triangulation are taken as given."
  },
  {
   "property": "C124",
   "status": "proved",
   "theorems": [
    "Verif.Props.C124_triangulation",
    "Verif.Props.C124_line"
   ],
   "note": "Exact arithmetic; the circle test may answer anything."
  },
  {
   "property": "C125",
   "status": "partial",
   "theorems": [
    "Verif.Props.C125_violated",
    "Verif.Props.C125_sound_partial",
    "Verif.Props.C125_convex_partial"
   ],
   "note": "Proved for rings of which no part is flat, convex ones in particular; a simple pentagon is refused as colinear (C125_violated)."
  },
  {
   "property": "C126",
   "status": "proved",
   "theorems": [
    "Verif.Props.C126_total"
   ],
   "note": "Exact arithmetic; the circle test may answer anything."
  },
  {
   "property": "C127",
   "status": "partial",
   "theorems": [
    "Verif.Props.C127_violated",
    "Verif.Props.C127_sides_partial"
   ],
   "note": "Proved when no point comes back; the ring at the end of a tail is lost (C127_violated)."
  },
  {
   "property": "C128",
   "status": "partial",
   "theorems": [
    "Verif.Props.C128_resolve_partial",
    "Verif.Props.C128_violated",
    "Verif.Props.C128_same_point"
   ],
   "note": "Exact arithmetic. Proved unless the point is on the straight line of two successive edges; there the wrong edge is named (C128_violated)."
  },
  {
   "property": "C129",
   "status": "proved",
   "theorems": [
    "Verif.Props.C129_right_of",
    "Verif.Props.C129_classify"
   ],
   "note": "Exact arithmetic."
  },
  {
   "property": "C130",
   "status": "proved",
   "theorems": [
    "Verif.Props.C130_every_edge_once",
    "Verif.Props.C130_order"
   ],
   "note": ""
  },
  {
   "property": "C131",
   "status": "proved",
   "theorems": [
    "Verif.Props.C131_new_index",
    "Verif.Props.C131_remove"
   ],
   "note": "For any rounding; vertices must not round to one point."
  },
  {
   "property": "C132",
   "status": "proved",
   "theorems": [
    "Verif.Props.C132_located"
   ],
   "note": "Exact arithmetic. That an edge is found at all is not claimed."
  },
  {
   "property": "C133",
   "status": "proved",
   "theorems": [
    "Verif.Props.C133_new_panics",
    "Verif.Props.C133_new_triangle"
   ],
   "note": "Exact arithmetic."
  },
  {
   "property": "C134",
   "status": "partial",
   "theorems": [
    "Verif.Props.C134_accepts_partial",
    "Verif.Props.C134_violated",
    "Verif.Props.C134_violated_on_side",
    "Verif.Props.C134_new",
    "Verif.Props.C134_insert_one_partial",
    "Verif.Props.C134_history_partial"
   ],
   "note": "Exact arithmetic. Proved in full for points that are not on a side of the frame (C134_accepts_partial): InsertSite says yes to just the points inside the frame. The full claim is violated on the sides: the origin of the first edge is refused, and a point on the first edge takes that edge out of the subdivision."
  },
  {
   "property": "C135",
   "status": "proved",
   "theorems": [
    "Verif.Props.C135_cover"
   ],
   "note": "Exact arithmetic; for points not on a side of the frame, as the claim says."
  },
  {
   "property": "C136",
   "status": "partial",
   "theorems": [
    "Verif.Props.C136_insert_one_partial",
    "Verif.Props.C136_violated",
    "Verif.Props.C136_history_partial"
   ],
   "note": "Exact arithmetic. Proved for all sequences of points not on a side of the frame. The full claim is violated by a point on the first side of the frame, which is lost."
  },
  {
   "property": "C137",
   "status": "partial",
   "theorems": [
    "Verif.Props.C137_violated",
    "Verif.Props.C137_triangles_partial"
   ],
   "note": "Exact arithmetic; points not on a side of the frame. Triangles(false) is exact. The full claim is violated by Triangles(true), which also lists the outside of the frame as a triangle turning the wrong way; with this one taken out the list is the triangulation."
  },
  {
   "property": "C138",
   "status": "proved",
   "theorems": [
    "Verif.Props.C138_rounds",
    "Verif.Props.C138_newForPoints"
   ],
   "note": "Exact arithmetic (the rounding to thousandths is modelled, the rounding of float64 is not)."
  },
  {
   "property": "C139",
   "status": "partial",
   "theorems": [
    "Verif.Props.C139_violated",
    "Verif.Props.C139_points_partial",
    "Verif.Props.C139_constrained_partial",
    "Verif.Props.C139_geom_partial"
   ],
   "note": "Exact arithmetic, constraints not enabled. The full claim (the convex hull is covered) is violated: the frame is finite, and flat triangles with a corner of the frame in their circle are not listed. Proved: never an error, triangles turn the right way, do not overlap, have empty circles, and three points the closed circle of which has no other point and no corner of the frame are listed."
  },
  {
   "property": "C140",
   "status": "partial",
   "theorems": [
    "Verif.Props.C140_points_partial",
    "Verif.Props.C140_violated"
   ],
   "note": "The full claim is violated: points are rounded in place. Proved: just when they stay the same, and what they become otherwise."
  },
  {
   "property": "C141",
   "status": "proved",
   "theorems": [
    "Verif.Props.C141_point",
    "Verif.Props.C141_inside",
    "Verif.Props.C141_points",
    "Verif.Props.C141_line",
    "Verif.Props.C141_lines",
    "Verif.Props.C141_polygon",
    "Verif.Props.C141_directions",
    "Verif.Props.C141_polygons",
    "Verif.Props.C141_other"
   ],
   "note": "Exact arithmetic; the comparison of pixel positions is a parameter. Rings that collapse to one position make the call panic (C142) and are left out."
  },
  {
   "property": "C142",
   "status": "partial",
   "theorems": [
    "Verif.Props.C142_panics_iff_partial",
    "Verif.Props.C142_violated"
   ],
   "note": "The full claim is violated: a ring of two or more points that collapses to one pixel position makes PrepareGeo panic. Proved: just those do."
  },
  {
   "property": "C143",
   "status": "partial",
   "theorems": [
    "Verif.Props.C143_outer_partial",
    "Verif.Props.C143_violated"
   ],
   "note": "The full claim is violated: an outer ring of a single point is skipped and the first hole takes its place. Proved for outer rings of two or more points."
  },
  {
   "property": "C144",
   "status": "partial",
   "theorems": [
    "Verif.Props.C144_statement_partial",
    "Verif.Props.C144_history_partial",
    "Verif.Props.C144_violated",
    "Verif.Props.C144_replace_violated"
   ],
   "note": "The full claim is violated: an update of the key that does not name the geometry column, and a replacing insert of a row without geometry, leave the index out of step. Proved: every other statement, and every history without those, keeps it in step (iff for one statement)."
  },
  {
   "property": "C145",
   "status": "partial",
   "theorems": [
    "Verif.Props.C145_tables_partial",
    "Verif.Props.C145_index_partial",
    "Verif.Props.C145_metadata_partial",
    "Verif.Props.C145_violated",
    "Verif.Props.C145_second_column_violated",
    "Verif.Props.C145_index_lasts_partial"
   ],
   "note": "The full claim is violated: rows that are there before the call do not get into the index, and a second geometry column does not get into the metadata. Proved: exactly what tables and metadata are afterwards, and when the index is in step."
  },
  {
   "property": "C146",
   "status": "partial",
   "theorems": [
    "Verif.Props.C146_succeeds_iff_partial",
    "Verif.Props.C146_violated",
    "Verif.Props.C146_clash_violated"
   ],
   "note": "The full claim is violated: names that want quotes and index names that coincide are refused. Proved: exactly when the call succeeds."
  },
  {
   "property": "C147",
   "status": "partial",
   "theorems": [
    "Verif.Props.C147_early_partial",
    "Verif.Props.C147_late_partial",
    "Verif.Props.C147_violated"
   ],
   "note": "The full claim is violated: once the index is made, a second call fails for ever. Proved: before that point the second call does all that the first would have done; after it, that it fails and changes nothing."
  },
  {
   "property": "C148",
   "status": "proved",
   "theorems": [
    "Verif.Props.C148_metadata_sound"
   ],
   "note": ""
  },
  {
   "property": "C149",
   "status": "partial",
   "theorems": [
    "Verif.Props.C149_first_wins_partial",
    "Verif.Props.C149_kept_partial",
    "Verif.Props.C149_open_again_partial",
    "Verif.Props.C149_violated"
   ],
   "note": "The full claim is violated: a system that is in the file is not updated. Proved: exactly what the file has afterwards, and that opening it again changes nothing."
  },
  {
   "property": "C150",
   "status": "proved",
   "theorems": [
    "Verif.Props.C150_extent_is_union",
    "Verif.Props.C150_extent_grows",
    "Verif.Props.C150_call",
    "Verif.Props.C150_nan"
   ],
   "note": "Extents with NaN or with their bounds out of order are left out."
  },
  {
   "property": "C151",
   "status": "partial",
   "theorems": [
    "Verif.Props.C151_extent_partial",
    "Verif.Props.C151_violated",
    "Verif.Props.C151_unknown"
   ],
   "note": "The full claim is violated: a NaN in a vertex of a geometry that has numbers too makes the extent NaN. Proved for geometries without such vertices."
  },
  {
   "property": "C152",
   "status": "proved",
   "theorems": [
    "Verif.Props.C152_stores",
    "Verif.Props.C152_error_iff"
   ],
   "note": "Memory is modelled by arrays and slice headers."
  },
  {
   "property": "C153",
   "status": "partial",
   "theorems": [
    "Verif.Props.C153_separate_partial",
    "Verif.Props.C153_violated",
    "Verif.Props.C153_effect_partial"
   ],
   "note": "The full claim is violated: after b = a (or through an S type, or a kept result of a getter) a setter of a changes b. Proved for programs without such assignments, and the exact effect of a setter on any other slice."
  },
  {
   "property": "C154",
   "status": "proved",
   "theorems": [
    "Verif.Props.C154_deep",
    "Verif.Props.C154_error_iff"
   ],
   "note": ""
  },
  {
   "property": "C155",
   "status": "partial",
   "theorems": [
    "Verif.Props.C155_elements_partial",
    "Verif.Props.C155_violated"
   ],
   "note": "The full claim is violated: the setters copy rings and lines without their points. Proved for the elements of the argument."
  },
  {
   "property": "C156",
   "status": "proved",
   "theorems": [
    "Verif.Props.C156_hull",
    "Verif.Props.C156_beyond"
   ],
   "note": "Exact arithmetic; longitudes at most 360 degrees apart, and what happens beyond is proved too."
  },
  {
   "property": "C157",
   "status": "partial",
   "theorems": [
    "Verif.Props.C157_given_partial",
    "Verif.Props.C157_unique_partial",
    "Verif.Props.C157_violated"
   ],
   "note": "The full claim is violated: of a chain of segments, each within tolerance of the one before, all but the first are dropped. Proved for segments whose points are the same or not within tolerance."
  },
  {
   "property": "C158",
   "status": "partial",
   "theorems": [
    "Verif.Props.C158_edges_partial",
    "Verif.Props.C158_srid_partial",
    "Verif.Props.C158_violated"
   ],
   "note": "The full claim is violated: a polygon without rings gives SRID 0. Proved for all others."
  },
  {
   "property": "C159",
   "status": "proved",
   "theorems": [
    "Verif.Props.C159_edges",
    "Verif.Props.C159_flat",
    "Verif.Props.C159_lines"
   ],
   "note": ""
  },
  {
   "property": "C160",
   "status": "partial",
   "theorems": [
    "Verif.Props.C160_violated",
    "Verif.Props.C160_crossed_partial"
   ],
   "note": "The full claim is violated: when a point of the subdivision is on the segment, edges that only touch it are returned and others are left out; and more than 21 edges are an error. Proved for segments with no other point on them, with the limit of 21 in the statement."
  },
  {
   "property": "C161",
   "status": "partial",
   "theorems": [
    "Verif.Props.C161_violated",
    "Verif.Props.C161_insert_partial",
    "Verif.Props.C161_sites"
   ],
   "note": "The full claim is violated: where several edges are crossed, the triangulation of the two sides can put in an edge that lies outside them, and the subdivision is not a triangulation afterwards though no error is returned. Proved for points that are missing, edges that exist, more than 21 edges crossed, and for one edge crossed."
  },
  {
   "property": "C162",
   "status": "partial",
   "theorems": [
    "Verif.Props.C162_decides_partial",
    "Verif.Props.C162_ends",
    "Verif.Props.C162_edge_ends",
    "Verif.Props.C162_context",
    "Verif.Props.C162_accepts_partial",
    "Verif.Props.C162_order_violated",
    "Verif.Props.C162_apart_violated",
    "Verif.Props.C162_returns_violated"
   ],
   "note": "Exact characterisation of the verdict (C162_decides_partial) and no false alarm for built triangulations (C162_accepts_partial). The stronger claims that nil means counterclockwise order, or that edges meet only at ends, are refuted (C162_order_violated, C162_apart_violated). Exact arithmetic; structures with a nil end or with an edge both of whose ends are in one ring are left out of the exact characterisation; C162_ends and C162_edge_ends say that nil means no nil ends, C162_context what the context does, C162_returns_violated that a nil end may make it panic."
  },
  {
   "property": "C163",
   "status": "partial",
   "theorems": [
    "Verif.Props.C163_decides_partial",
    "Verif.Props.C163_returns_partial",
    "Verif.Props.C163_quiet_partial",
    "Verif.Props.C163_self",
    "Verif.Props.C163_order_partial",
    "Verif.Props.C163_permuted_partial",
    "Verif.Props.C163_type_violated",
    "Verif.Props.C163_order_violated",
    "Verif.Props.C163_quiet_violated",
    "Verif.Props.C163_returns_violated"
   ],
   "note": "A yes is sound for all geometries and exact where no multipolygon is involved (C163_decides_partial); returns without panic, reflexivity, what can change in the arguments, independence of the order of polygons that differ in size or lowest vertex. The full claims are refuted: Point equals PointZ (C163_type_violated), order of polygons that tie (C163_order_violated), arguments are reordered (C163_quiet_violated), nil *PointZ and empty interior rings panic (C163_returns_violated). Sorting is modelled for up to twelve polygons or rings; types of other packages and arguments that share memory are left out."
  },
  {
   "property": "C164",
   "status": "partial",
   "theorems": [
    "Verif.Props.C164_witness_wellPosed",
    "Verif.Props.C164_violated",
    "Verif.Props.C164_geom_violated",
    "Verif.Props.C164_cover_violated",
    "Verif.Props.C164_constrained_partial",
    "Verif.Props.C164_geom_partial",
    "Verif.Props.C164_kept",
    "Verif.Props.C164_too_many",
    "Verif.Props.C164_geom_too_many"
   ],
   "note": "The full claim is violated for both types (C164_violated: an error for a constraint that crosses several edges; C164_geom_violated: no error and the constraint is not a side; C164_cover_violated: the triangles have a hole). Proved: if each constraint is a side already or crosses one side when its turn comes, the result is exactly the triangulation in which it has taken its place (C164_constrained_partial, C164_geom_partial), a constraint not crossed by a later one is kept (C164_kept), and a constraint that crosses more than 21 sides is an error for Constrained and silently dropped by GeomConstrained (C164_too_many, C164_geom_too_many). Exact arithmetic; the frame corners must be on the grid of a thousandth."
  },
  {
   "property": "C165",
   "status": "proved",
   "theorems": [
    "Verif.Props.C165_nil",
    "Verif.Props.C165_corners",
    "Verif.Props.C165_around",
    "Verif.Props.C165_edges",
    "Verif.Props.C165_line_iff",
    "Verif.Props.C165_addPointers",
    "Verif.Props.C165_universe_iff",
    "Verif.Props.C165_universe_geom",
    "Verif.Props.C165_error_iff"
   ],
   "note": ""
  },
  {
   "property": "C166",
   "status": "partial",
   "theorems": [
    "Verif.Props.C166_order_irrelevant",
    "Verif.Props.C166_permutations",
    "Verif.Props.C166_sound",
    "Verif.Props.C166_nonzero_partial",
    "Verif.Props.C166_violated"
   ],
   "note": "Soundness, independence of order, and permutations for all numbers; in full where no float is zero (C166_nonzero_partial). In full it is refuted (C166_violated): near zero the comparison is absolute and elsewhere by bits, so pairing the sorted lists can miss a pairing."
  },
  {
   "property": "C167",
   "status": "partial",
   "theorems": [
    "Verif.Props.C167_near_partial",
    "Verif.Props.C167_large_partial",
    "Verif.Props.C167_triangle_partial",
    "Verif.Props.C167_violated"
   ],
   "note": "For arbitrary int64 coordinates refuted (C167_violated): a triangle of area 1/2 with coordinates about 2^27 is said to be colinear. Proved with the rounding of float64 modelled: right whenever 2\u00b7D\u00b2\u00b7n \u2264 2^53 (C167_near_partial); right whenever the area exceeds a bound on the accumulated rounding (C167_large_partial); triangles never get the opposite winding (C167_triangle_partial)."
  },
  {
   "property": "C168",
   "status": "partial",
   "theorems": [
    "Verif.Props.C168_line_partial",
    "Verif.Props.C168_big_partial",
    "Verif.Props.C168_segment_partial",
    "Verif.Props.C168_violated",
    "Verif.Props.C168_violated_big",
    "Verif.Props.C168_violated_segment"
   ],
   "note": "For arbitrary float64 refuted for all three functions: nearly parallel lines with coordinates about 2^27 (LineIntersect, SegmentIntersect), lines of length 2^-600 (LineIntersectBigFloat looks at the denominator as a float64). Proved with rounding modelled for coordinates that are multiples up to n of a common power of two, 8\u00b7n\u00b3 \u2264 2^53 (2^110 for big floats): report exactly if not parallel, coordinates nearest to the exact ones, segments decided exactly."
  },
  {
   "property": "C169",
   "status": "partial",
   "theorems": [
    "Verif.Props.C169_found_partial",
    "Verif.Props.C169_near_partial",
    "Verif.Props.C169_short_partial",
    "Verif.Props.C169_caller_partial",
    "Verif.Props.C169_violated",
    "Verif.Props.C169_violated_kept"
   ],
   "note": "The full claims are refuted: a point beyond the box by 2^-30 is accepted (C169_violated), and the argument of the caller is rounded to 20 bits (C169_violated_kept). Proved: nothing inside is missed, what is accepted is within 2^-20, exact for numbers of 20 bits, and exactly what becomes of the argument."
  },
  {
   "property": "C170",
   "status": "partial",
   "theorems": [
    "Verif.Props.C170_roundtrip_partial",
    "Verif.Props.C170_update_partial",
    "Verif.Props.C170_accepts_iff",
    "Verif.Props.C170_failed_scan_keeps",
    "Verif.Props.C170_value_error_iff",
    "Verif.Props.C170_extent",
    "Verif.Props.C170_violated"
   ],
   "note": "Storing and reading back is not the identity (C170_violated): the field SRSID is ignored by Value, which writes the id in the header. Proved for values whose srs id is that of the header and whose rings are open, and for any row that was read, altered and stored (C170_update_partial); what Scan accepts, that a failed Scan changes nothing, when Value fails and what Extent gives are proved in full."
  },
  {
   "property": "C171",
   "status": "partial",
   "theorems": [
    "Verif.Props.C171_type",
    "Verif.Props.C171_wkb",
    "Verif.Props.C171_empty_partial",
    "Verif.Props.C171_names",
    "Verif.Props.C171_violated"
   ],
   "note": "Empty has no case for multipoint (C171_violated); for all other types, and for the numbers and names, proved in full."
  },
  {
   "property": "C172",
   "status": "partial",
   "theorems": [
    "Verif.Props.C172_violated",
    "Verif.Props.C172_violated_finite",
    "Verif.Props.C172_violated_nan",
    "Verif.Props.C172_decimal_partial",
    "Verif.Props.C172_order",
    "Verif.Props.C172_sign",
    "Verif.Props.C172_kept_partial",
    "Verif.Props.C172_again_partial"
   ],
   "note": "Violated as stated: 1.45 (a little less as a float64) is rounded to 1.5 (C172_violated), a large number becomes infinite (C172_violated_finite), a precision below -323 gives NaN (C172_violated_nan). Proved: for up to 22 decimals the answer is the float64 of a decimal that is next to the number but for the rounding of the product; order and sign for every precision; decimals are kept and rounding is idempotent within 2^53 and 2^50 units."
  },
  {
   "property": "C173",
   "status": "partial",
   "theorems": [
    "Verif.Props.C173_violated",
    "Verif.Props.C173_expand_partial",
    "Verif.Props.C173_expand_edges",
    "Verif.Props.C173_scale_edges",
    "Verif.Props.C173_scale_points",
    "Verif.Props.C173_in_order",
    "Verif.Props.C173_violated_back",
    "Verif.Props.C173_back_partial"
   ],
   "note": "Violated as stated: the unit square expanded by -3 grows (C173_violated), and a large expansion cannot be taken back (C173_violated_back). Proved: growth for every positive distance, shrinking as long as minus the distance is at most the width and the height; exact place of each edge; scaling with either sign; order of the result; taking back on a common grid."
  },
  {
   "property": "C174",
   "status": "partial",
   "theorems": [
    "Verif.Props.C174_violated",
    "Verif.Props.C174_violated_order",
    "Verif.Props.C174_violated_frame",
    "Verif.Props.C174_edges_partial",
    "Verif.Props.C174_walk_partial",
    "Verif.Props.C174_frame_partial"
   ],
   "note": "The edges, the rings, the count and the box the frame stands on are proved for all lines. The claims about the order of the edges around a point, the order kept and the frame are refuted (C174_violated, C174_violated_order, C174_violated_frame)."
  },
  {
   "property": "C175",
   "status": "proved",
   "theorems": [
    "Verif.Props.C175_type",
    "Verif.Props.C175_coordinates",
    "Verif.Props.C175_collection",
    "Verif.Props.C175_null_geometries",
    "Verif.Props.C175_top"
   ],
   "note": "Equivalences for all geometry types; the two documents that make the decoder panic are named by C175_null_geometries."
  },
  {
   "property": "C176",
   "status": "partial",
   "theorems": [
    "Verif.Props.C176_violated",
    "Verif.Props.C176_violated_race",
    "Verif.Props.C176_new_partial",
    "Verif.Props.C176_open_partial",
    "Verif.Props.C176_crash_partial",
    "Verif.Props.C176_violated_crash"
   ],
   "note": "Violated: a name that cannot be looked up makes New panic (C176_violated), a file made after the look is changed (C176_violated_race), and New cannot be made again after a crash (C176_violated_crash). Proved: the answer and the effect of New for every kind of file if no one else is there, of Open for every kind, and that Open ends what a crash cut short."
  },
  {
   "property": "C177",
   "status": "partial",
   "theorems": [
    "Verif.Props.C177_violated",
    "Verif.Props.C177_panics_partial",
    "Verif.Props.C177_safe_partial"
   ],
   "note": "Violated: two goroutines that both look before one registers (C177_violated). Proved: just which goroutines panic for every schedule, and that there is no panic once a call has been through."
  },
  {
   "property": "C178",
   "status": "partial",
   "theorems": [
    "Verif.Props.C178_violated",
    "Verif.Props.C178_width_partial",
    "Verif.Props.C178_mercator_partial",
    "Verif.Props.C178_arguments_partial"
   ],
   "note": "Violated: in degrees tiles are not as high as the ratio says (C178_violated). Proved: widths in degrees, widths and heights in Web Mercator, the defaults of the arguments, and when the answer is infinite."
  },
  {
   "property": "C179",
   "status": "partial",
   "theorems": [
    "Verif.Props.C179_equator_partial",
    "Verif.Props.C179_only_greenwich_partial",
    "Verif.Props.C179_symmetric_partial",
    "Verif.Props.C179_sphere_partial",
    "Verif.Props.C179_violated"
   ],
   "note": "Violated: longitudes are taken from Greenwich and not from the middle of the zone (C179_violated). Proved: the polynomial on the equator, that it is 0.9996 there only at Greenwich, the symmetries, and on a sphere that the series agrees with the exact scale up to the eighth power of the longitude. Not stated: an exact scale on an ellipsoid off the equator."
  },
  {
   "property": "C180",
   "status": "partial",
   "theorems": [
    "Verif.Props.C180_outcome_partial",
    "Verif.Props.C180_layers_partial",
    "Verif.Props.C180_extent_partial",
    "Verif.Props.C180_violated"
   ],
   "note": "Violated: a line without points panics (C180_violated). Proved: exactly when there is a message and exactly when there is a panic, what layers a message has, and the extent."
  },
  {
   "property": "C181",
   "status": "partial",
   "theorems": [
    "Verif.Props.C181_violated",
    "Verif.Props.C181_violated_start",
    "Verif.Props.C181_mirror_partial",
    "Verif.Props.C181_scale_partial",
    "Verif.Props.C181_repeated_partial",
    "Verif.Props.C181_swap_partial"
   ],
   "note": "Violated: read backwards a thin triangle keeps its winding, and started elsewhere it changes it (C181_violated, C181_violated_start). Proved for all rings, with rounding: mirrored, turned, scaled and repeated points, and the last two corners of a triangle swapped. Infinities and the least exponents are not modelled."
  },
  {
   "property": "C182",
   "status": "partial",
   "theorems": [
    "Verif.Props.C182_violated",
    "Verif.Props.C182_reads_partial",
    "Verif.Props.C182_panics_partial",
    "Verif.Props.C182_allowed_partial"
   ],
   "note": "Violated: a layer without extent, a feature without type and one of the unknown type panic (C182_violated). Proved: exactly which messages are read and as what, exactly which ones panic, and that what is allowed and leaves nothing out is read."
  },
  {
   "property": "C183",
   "status": "partial",
   "theorems": [
    "Verif.Props.C183_round_trip_partial",
    "Verif.Props.C183_violated",
    "Verif.Props.C183_collection_partial"
   ],
   "note": "Violated: the tags do not come back (C183_violated). Proved: names, ids, order, geometries and extents that fit in 32 bits come back, and the collection of all geometries."
  },
  {
   "property": "C184",
   "status": "partial",
   "theorems": [
    "Verif.Props.C184_violated",
    "Verif.Props.C184_violated_digits",
    "Verif.Props.C184_bits_partial",
    "Verif.Props.C184_equal_close_partial",
    "Verif.Props.C184_close_equal_partial",
    "Verif.Props.C184_zero_partial",
    "Verif.Props.C184_new_partial",
    "Verif.Props.C184_self_partial"
   ],
   "note": "Violated: floats closer than the tolerance may differ (C184_violated), and with sixteen digits no number equals itself (C184_violated_digits). Proved: the bit tolerance is the tolerance in units of 2^-52 to the nearest; equal numbers are closer than about the tolerance, numbers closer than about half of it are equal, next to zero exactly, and exactly when a number equals itself. Not modelled: tolerances that are not finite or below -1."
  },
  {
   "property": "C185",
   "status": "partial",
   "theorems": [
    "Verif.Props.C185_extent_partial",
    "Verif.Props.C185_around_origin_partial",
    "Verif.Props.C185_inside_partial",
    "Verif.Props.C185_violated"
   ],
   "note": "The extent always includes the origin (C185_violated): it is the least box around the origin and the vertices, and right exactly if the vertices reach to both sides of it."
  },
  {
   "property": "C186",
   "status": "proved",
   "theorems": [
    "Verif.Props.C186_largest_first"
   ],
   "note": "For every sort that only guarantees the order."
  },
  {
   "property": "C187",
   "status": "partial",
   "theorems": [
    "Verif.Props.C187_orders_partial",
    "Verif.Props.C187_by_points_partial",
    "Verif.Props.C187_by_length_partial",
    "Verif.Props.C187_shorter_partial",
    "Verif.Props.C187_violated",
    "Verif.Props.C187_violated_points"
   ],
   "note": "Refuted in full: starts that are within tolerance of a common one, but not of each other, make a cycle (C187_violated, C187_violated_points). Proved for lines whose starts are the same or apart."
  },
  {
   "property": "C188",
   "status": "partial",
   "theorems": [
    "Verif.Props.C188_violated",
    "Verif.Props.C188_never_opposite_partial",
    "Verif.Props.C188_exact_partial",
    "Verif.Props.C188_symmetry_partial"
   ],
   "note": "Refuted in full by a thin triangle whose differences are rounded (C188_violated). Never the opposite sign if the differences to the first corner are floats; exact on a grid of 2^25; symmetries for all floats."
  },
  {
   "property": "C189",
   "status": "partial",
   "theorems": [
    "Verif.Props.C189_violated",
    "Verif.Props.C189_violated_centre",
    "Verif.Props.C189_grid_partial",
    "Verif.Props.C189_clockwise_partial",
    "Verif.Props.C189_scale_partial"
   ],
   "note": "Refuted in full for whole coordinates next to 2^26 (C189_violated, C189_violated_centre). Proved for coordinates on a grid of 3000 steps; scaling by powers of two for all floats."
  },
  {
   "property": "C190",
   "status": "partial",
   "theorems": [
    "Verif.Props.C190_violated",
    "Verif.Props.C190_grid_partial",
    "Verif.Props.C190_near_partial"
   ],
   "note": "Refuted in full next to 2^53 (C190_violated). Proved for corners on a grid of 2^51 steps, where the centre is the float next to the centroid; a bound of three roundings for all floats."
  },
  {
   "property": "C191",
   "status": "partial",
   "theorems": [
    "Verif.Props.C191_violated",
    "Verif.Props.C191_ends_partial",
    "Verif.Props.C191_straight_partial",
    "Verif.Props.C191_sound_partial",
    "Verif.Props.C191_slope_partial"
   ],
   "note": "Refuted in full: a steep segment at x = 20000121 is off by eleven at its own end (C191_violated). Proved with an explicit error bound in terms of the slope for all segments, exactly for vertical and horizontal ones, and soundness with the same bound."
  },
  {
   "property": "C192",
   "status": "partial",
   "theorems": [
    "Verif.Props.C192_violated",
    "Verif.Props.C192_inside_partial",
    "Verif.Props.C192_no_points_partial",
    "Verif.Props.C192_corners_partial"
   ],
   "note": "Refuted in full at 2^60, where adding the constant 10 does nothing and the triangle is flat (C192_violated). Proved for all lists of points with coordinates of up to 2^44, with a bound on how far the corners are off."
  },
  {
   "property": "C193",
   "status": "partial",
   "theorems": [
    "Verif.Props.C193_too_near_partial",
    "Verif.Props.C193_violated",
    "Verif.Props.C193_not_zero_partial",
    "Verif.Props.C193_symmetric_partial",
    "Verif.Props.C193_monotone_partial",
    "Verif.Props.C193_right_partial"
   ],
   "note": "Refuted in full by underflow: different points nearer than 2^-538 have the distance zero (C193_violated, C193_too_near_partial). Symmetry, sign and monotonicity proved for all floats; finite, not zero and right up to six units of rounding for distances between 2^-500 and 2^510 along the axes."
  },
  {
   "property": "C194",
   "status": "partial",
   "theorems": [
    "Verif.Props.C194_violated",
    "Verif.Props.C194_inside_partial",
    "Verif.Props.C194_sign_partial",
    "Verif.Props.C194_sides_partial",
    "Verif.Props.C194_order_partial",
    "Verif.Props.C194_near_partial"
   ],
   "note": "The full equivalence is refuted: a point just right of the tile may get the pixel of its right side. Proved: points in the tile stay in the square; sides go to sides exactly; the sign at the left and upper side is exact; order is kept; the error is at most five units of 2^-53."
  },
  {
   "property": "C195",
   "status": "partial",
   "theorems": [
    "Verif.Props.C195_up_partial",
    "Verif.Props.C195_down_partial",
    "Verif.Props.C195_violated"
   ],
   "note": "Proved for a y axis that points up. Refuted for one that points down: Classify does not know of the direction of the axis, and every point inside is then said to be outside (also proved)."
  },
  {
   "property": "C196",
   "status": "partial",
   "theorems": [
    "Verif.Props.C196_shared_edge_partial",
    "Verif.Props.C196_violated",
    "Verif.Props.C196_own_vertex_partial",
    "Verif.Props.C196_opposite_triangle_partial"
   ],
   "note": "SharedEdge and OppositeTriangle are proved exactly. OppositeVertex is refuted: it gives the corner of the triangle itself, not of the other one (proved for all pairs)."
  },
  {
   "property": "C197",
   "status": "proved",
   "theorems": [
    "Verif.Props.C197_as_geom"
   ],
   "note": "For every triangle to the right of an edge."
  },
  {
   "property": "C198",
   "status": "partial",
   "theorems": [
    "Verif.Props.C198_violated",
    "Verif.Props.C198_metres_partial",
    "Verif.Props.C198_negative_partial"
   ],
   "note": "Refuted for negative coordinates, where the results are negative (the mirrored metres, proved). Proved exactly for all coordinates that are not negative. Numbers beyond the range of int are left out."
  },
  {
   "property": "C199",
   "status": "proved",
   "theorems": [
    "Verif.Props.C199_layers",
    "Verif.Props.C199_boxes"
   ],
   "note": "For trees reached by histories or bulk load as in C41, over any linear order of coordinates; the order in which the boxes are listed is left open."
  },
  {
   "property": "C200",
   "status": "partial",
   "theorems": [
    "Verif.Props.C200_violated",
    "Verif.Props.C200_covered_partial",
    "Verif.Props.C200_needed",
    "Verif.Props.C200_exact_partial"
   ],
   "note": "Over exact reals. Violated for bounds that reach 180 degrees east (C200_violated): places within a millionth of a pixel west of it get a tile that is not listed. C200_covered_partial: all other places are covered; C200_needed: no tile is listed needlessly; C200_exact_partial: the full claim for bounds that end before 180 degrees."
  },
  {
   "property": "C201",
   "status": "partial",
   "theorems": [
    "Verif.Props.C201_violated",
    "Verif.Props.C201_size_partial",
    "Verif.Props.C201_corner"
   ],
   "note": "Over exact reals. Violated just west of 180 degrees (C201_violated), where a column beyond the size is found. C201_size_partial: exact for all other places; C201_corner: the tile named by the size has the lower right corner of the map."
  },
  {
   "property": "C202",
   "status": "partial",
   "theorems": [
    "Verif.Props.C202_violated",
    "Verif.Props.C202_found_partial",
    "Verif.Props.C202_box_partial",
    "Verif.Props.C202_exact_partial"
   ],
   "note": "Floats without over- and underflow. Violated (C202_violated) by two lines from the origin whose directions differ by less than the rounding. C202_found_partial: none is missed if differences are floats; C202_box_partial: the box test is never wrong; C202_exact_partial: the full claim on grids of 2^25."
  }
 ]
}