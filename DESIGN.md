# Design of the formal model

Target: `go-spatial/geom` at the commit checked out in `/repo`.  The code is
read, never run.  The model and the proofs are in `lean/` (Lean 4 + single
Mathlib modules).

## Layout

* `lean/Verif/Model/*.lean` – executable model, one file per package or part
  of a package; every definition cites the Go file and lines it models, with
  the simplifications made.
* `lean/Verif/Spec/*.lean` – the words the properties are stated in (grammars,
  point sets, areas, cyclic orders, …), independent of the model's helpers.
* `lean/Verif/Lemmas/*.lean` – helper lemmas about the model.
* `lean/Verif/Props/*.lean` – the property theorems, each followed by an
  `example` showing that its hypotheses are met by a concrete case.
* `properties.jsonl` – the properties in English; `MANIFEST.json` – which
  theorems stand for which property; `seeded/LOG.jsonl` – wrong programs tried
  against the theorems, and what was tightened because of them.

Names: `Cxx_full` is the whole claim as a `Prop`; `Cxx_violated` its negation
with a concrete witness from the code; `Cxx_…_partial` what does hold.

## Modelling conventions

* **float64** – two views.  Where the code only moves, compares, or takes
  min/max of floats (codecs, extents, tolerant equality, ordering) a float is
  its 64-bit pattern (`BitVec 64`) with IEEE `==`, `<`, `<=` written out on the
  bits, so NaN, infinities and signed zeros behave as in Go.  Where the code
  does arithmetic (winding, intersection, distances, simplification,
  triangulation) the coordinates range over an arbitrary linearly ordered
  field (or the reals, or `Int`); the rounding of float64 arithmetic is *not*
  modelled and this is said at each property ("exact arithmetic").
* **tolerant point comparison** (`cmp`) inside the geometric algorithms is
  taken as exact equality unless the property says otherwise.
* **errors** are values (`Except`/`Option`), **nil** is an explicit case,
  **panics** are an explicit error constructor.
* **slices** are lists; where the property is about aliasing or in-place
  update the backing array is modelled (`GeoJson`, `Winding`, `Cmp`,
  `Destructure`).
* **pointers** (quad-edges, R-tree parent links) are indices into a store.
* **loops** are folds or structural recursion; recursion that is not
  structural takes fuel that the theorems show to be sufficient, or running
  out of fuel is an outcome the theorems speak about.
* **map iteration order**, **sort tie order** and **heap tie order** are
  universally quantified.
* **contexts** are arbitrary sequences of poll answers; **writers** are
  arbitrary functions of what was written so far.
* **goroutines** (`cmp.SetDefault`) are interleavings of atomic loads and
  stores.

## Each property

For each property: what of the code is modelled (the `Model` files, which cite the lines), where the theorems are, and how they are proved.  The status and the note are those of `MANIFEST.json`.  No property is left unexpressed.

### C01 WKB encode/decode round trip (proved)

* Modelled: the byte-level WKB writer and reader (`Wkb`), both byte orders, on float bit patterns.
* Proof: structural induction over geometries with the rest of the stream generalised.
* Theorems (`Props/Wkb`): `C01_wkb_roundtrip`, `C01_wkb_roundtrip_open`, `C01_wkb_nan_ring_not_preserved`.
* Note: Bit-level model of the WKB writer and reader. The NaN-start-ring exclusion is shown necessary by C01_wkb_nan_ring_not_preserved.

### C02 WKB decoding is exact about stream boundaries (proved)

* Modelled: as C01.
* Proof: the reader consumes exactly the bytes of the value: same induction, arbitrary tail.
* Theorems (`Props/Wkb`): `C02_wkb_stream`.

### C03 A truncated WKB value is never decoded successfully (proved)

* Modelled: as C01.
* Proof: prefix lemma: a successful read of a prefix would read the same value from the whole, so consume as much.
* Theorems (`Props/Wkb`): `C03_wkb_truncated`.

### C04 WKB encoding to a failing writer is fail-stop (proved)

* Modelled: the sticky-error encoder over an arbitrary writer.
* Proof: invariant over the list of writes: after the first failure nothing is written; the written bytes are a prefix of the encoding.
* Theorems (`Props/Wkb`): `C04_wkb_any_writer`, `C04_wkb_limited_writer`, `C04_wkb_no_write_after_failure`, `C04_wkb_encode_some_iff`.
* Note: Writers are arbitrary deterministic functions of their history.

### C05 WKB decoder accepts only well-formed input (proved)

* Modelled: the reader of `Wkb`.
* Proof: soundness and completeness against an inductive grammar of byte strings (`Spec/Wkb`).
* Theorems (`Props/Wkb`): `C05_wkb_decode_iff_wire`, `C05_wkb_bad_bom`, `C05_wkb_bad_code`, `C05_wkb_bad_member`.
* Note: Decoding success is characterised exactly by an independent inductive grammar.

### C06 MVT zig-zag and command words are lossless on their documented range (proved)

* Modelled: zig-zag and command words on 32-bit vectors.
* Proof: integer arithmetic over all words, no enumeration.
* Theorems (`Props/Mvt`): `C06_zigzag_roundtrip`, `C06_zigzag_onto`, `C06_zigzag_standard`, `C06_zigzag_lossy`, `C06_command_roundtrip`, `C06_command_count_mod`.

### C07 MVT point and line geometry round trip (proved)

* Modelled: cursor encoder and decoder of `Mvt` over integers and 32-bit words.
* Proof: induction over vertices and parts with the cursor generalised.
* Theorems (`Props/Mvt`): `C07_point`, `C07_multiPoint`, `C07_lineString`, `C07_multiLineString`.
* Note: Coordinates are the truncated integers; float64 cursor exact below 2^53.

### C08 MVT polygon encoding enforces and preserves ring structure (proved)

* Modelled: polygon encoder with ring rectification.
* Proof: induction over rings; ring areas from the winding lemmas.
* Theorems (`Props/Mvt`): `C08_multiPolygon`, `C08_polygon`, `C08_windings`, `C08_degenerate_exterior_lost`.
* Note: Winding over exact integers. The non-degenerate exterior is shown necessary by C08_degenerate_exterior_lost.

### C09 MVT tag tables resolve to the original tags (partial)

* Modelled: `keyvalMapsFromFeatures` and `keyvalTagsMap` with any map order.
* Proof: the tables only grow by appending, so an index stays valid; induction over features and tags.
* Theorems (`Props/MvtLayer`): `C09_tags_resolve_partial`, `C09_values_distinct`, `C09_violated`.
* Note: Violated for Go int and uint values, which become empty tile values (C09_violated). Proved for all other supported types and all map iteration orders.

### C10 Layer names in a tile stay unique (proved)

* Modelled: tile with `AddLayers`.
* Proof: invariant over histories.
* Theorems (`Props/MvtLayer`): `C10_call`, `C10_names_unique`, `C10_layers_stay`, `C10_error_iff`.

### C11 NewFeatures flattens collections in order (proved)

* Modelled: `NewFeatures`.
* Proof: structural induction over nested collections.
* Theorems (`Props/MvtLayer`): `C11_flatten`, `C11_nil`.

### C12 Layer feature list behaves like an indexed list (partial)

* Modelled: layer state machine.
* Proof: invariant over histories; witness for `RemoveFeature`.
* Theorems (`Props/MvtLayer`): `C12_feature_list_partial`, `C12_dropped_list`, `C12_violated`, `C12_remove_is_noop`.
* Note: Violated: RemoveFeature drops its result (C12_violated, C12_remove_is_noop). C12_feature_list_partial covers histories whose removals name no position in use.

### C13 GeoPackage header flags are faithful (proved)

* Modelled: the flag byte of `Gpkg`.
* Proof: bit reasoning for every byte.
* Theorems (`Props/Gpkg`): `C13_flags_faithful`, `C13_flags_injective`.

### C14 GeoPackage header and blob round trip (proved)

* Modelled: header and blob writer and reader.
* Proof: case analysis over envelope kinds, WKB round trip for the body.
* Theorems (`Props/Gpkg`): `C14_newHeader_iff`, `C14_header_roundtrip`, `C14_blob_roundtrip`, `C14_newBinary_roundtrip`.
* Note: Blob round-trip is up to the repeated closing vertex of rings, as for WKB.

### C15 GeoPackage header decoding rejects malformed headers (partial)

* Modelled: the header reader.
* Proof: exact acceptance condition by unfolding every test; witness for the missing magic test.
* Theorems (`Props/Gpkg`): `C15_header_accepts_partial`, `C15_header_reencode`, `C15_violated`.
* Note: Violated: the magic bytes are not checked when there is no envelope (C15_violated). C15_header_accepts_partial is the exact acceptance condition.

### C16 WKT encode/decode round trip (proved)

* Modelled: WKT writer and recursive-descent reader on characters, numbers abstract.
* Proof: induction over geometries with a continuation lemma for the reader.
* Theorems (`Props/Wkt`): `C16_round_trip_general`, `C16_round_trip`, `C16_plus_refused`.
* Note: Round trip for every tidy geometry, and the exact value for every accepted geometry; number formatting and parsing are parameters with a read-back hypothesis; numbers formatted with a plus sign are shown to be refused (C16_plus_refused).

### C17 WKT never decodes a text cut short (proved)

* Modelled: as C16.
* Proof: parenthesis balance is an invariant of the writer, strictly positive on proper prefixes.
* Theorems (`Props/Wkt`): `C17_prefix_refused`.
* Note: For any formatter whose numbers have no parentheses and any parser.

### C18 GeoJSON rings are closed exactly once (partial)

* Modelled: `closePolygon` on slices with capacity, arrays shared.
* Proof: array model; disjointness of spare capacity gives independence of rings; witnesses for the rest.
* Theorems (`Props/GeoJson`): `C18_closed_meaning`, `C18_violated`, `C18_violated_shared`, `C18_rings_partial`, `C18_again_partial`, `C18_multi_partial`.
* Note: Violated: the caller's polygon is changed, and rings that share one array corrupt each other (C18_violated, C18_violated_shared). Proved for rings whose spare capacity does not overlap: closed exactly, a second pass changes nothing, slices taken before still show the same vertices.

### C19 GeoJSON object round trip (partial)

* Modelled: GeoJSON object tree in and out (`GeoJson`).
* Proof: structural induction over nesting.
* Theorems (`Props/GeoJson`): `C19_violated`, `C19_writes_iff`, `C19_roundtrip_partial`, `C19_nil_panics_partial`.
* Note: Violated for nil coordinate slices (written as null, reading back panics, exactly then). Proved for everything else at any nesting; encoding/json text layer is a parameter.

### C20 Extent of points is the tightest box (proved)

* Modelled: extents on float bit patterns.
* Proof: induction over points with the order of non-NaN patterns.
* Theorems (`Props/Extent`): `C20_newExtent_tight`, `C20_newExtentFromGeometry_tight`, `C20_addPoints_tight`, `C20_extent_order_irrelevant`, `C20_add_join`.
* Note: Float bit patterns, IEEE order; NaN excluded.

### C21 Extent containment is a partial order matching point sets (proved)

* Modelled: `Contains` and `ContainsPoint`.
* Proof: order arithmetic on patterns.
* Theorems (`Props/Extent`): `C21_contains_iff_points`, `C21_contains_refl`, `C21_contains_antisymm`, `C21_contains_trans`, `C21_contains_nil`.

### C22 Extent intersection is the common region (proved)

* Modelled: `Intersect`.
* Proof: both directions on points of the two boxes.
* Theorems (`Props/Extent`): `C22_intersect_common`, `C22_intersect_none`, `C22_intersect_universe`, `C22_intersect_comm`.

### C23 ContainsGeom agrees with vertex containment (partial)

* Modelled: `ContainsGeom` with its zero start value.
* Proof: exact characterisation, witness away from the origin.
* Theorems (`Props/Extent`): `C23_containsGeom_violated`, `C23_containsGeom_partial`, `C23_containsGeom_point`, `C23_containsGeom_unknown`.
* Note: Violated: the computed box always includes the origin (C23_containsGeom_violated). C23_containsGeom_partial gives the exact answer of the code.

### C24 GetCoordinates and ExtractLines visit each vertex and edge once (proved)

* Modelled: `getCoordinates`, `ExtractLines`.
* Proof: structural induction over geometries.
* Theorems (`Props/Traverse`): `C24_getCoordinates`, `C24_getCoordinates_error_iff`, `C24_extractLines`, `C24_extractLines_error_iff`, `C24_ring_closed`, `C24_lineString_asSegments`, `C24_polygon_asSegments`, `C24_multiLineString_asSegments`, `C24_multiPolygon_asSegments`.

### C25 ApplyToPoints is a structure-preserving map (proved)

* Modelled: `ApplyToPoints` with a stateful function, `Clone`.
* Proof: structural induction with the state generalised.
* Theorems (`Props/Traverse`): `C25_applyToPoints_visits`, `C25_applyToPoints_shape`, `C25_applyToPoints_map`, `C25_applyToPoints_id`, `C25_applyToPoints_comp`, `C25_applyToPoints_fails`, `C25_not_simple`, `C25_clone_eq`.
* Note: The function may keep state; Clone on values (memory sharing is not part of this claim).

### C26 Tolerant float equality is reflexive and symmetric (proved)

* Modelled: `cmp` float comparison on bit patterns.
* Proof: integer reasoning over ordered bit patterns.
* Theorems (`Props/Cmp`): `C26_symm`, `C26_symm_needs_bit`, `C26_refl`, `C26_inf`, `C26_near`, `C26_zero`, `C26_not_transitive`.
* Note: Symmetry excludes the bit tolerance -2^63, where it fails (C26_symm_needs_bit).

### C27 Point ordering is a strict total order (proved)

* Modelled: `PointLess`, `ByXY`.
* Proof: order reasoning on patterns.
* Theorems (`Props/Cmp`): `C27_less_iff`, `C27_irrefl`, `C27_trans`, `C27_total`, `C27_nan`.

### C28 Multipoint equality ignores order (proved)

* Modelled: `MultiPointEqual`.
* Proof: any sort of a permutation, uniqueness of sorted lists.
* Theorems (`Props/Cmp`): `C28_permutation_invariant`, `C28_permutations_equal`, `C28_sound`.
* Note: Any sorting algorithm.

### C29 RotateToLeftMostPoint is a rotation that puts the least vertex first (proved)

* Modelled: `RotateToLeftMostPoint`, `LineStringEqual`.
* Proof: index arithmetic of rotation, uniqueness of the least vertex.
* Theorems (`Props/Cmp`): `C29_rotation`, `C29_least_first`, `C29_idempotent`, `C29_rotations_equal`, `C29_sound`, `C29_unique_needed`, `C29_symm_refl`.

### C30 Multiline equality is symmetric (partial)

* Modelled: `MultiLineEqual`.
* Proof: counting matches; witness with repeated lines.
* Theorems (`Props/Cmp`): `C30_violated`, `C30_symm_partial`, `C30_meaning`, `C30_permutation`.
* Note: Violated by repeated lines (C30_violated); C30_symm_partial when no line equals two of the other side.

### C31 Winding reacts correctly to reversal, rotation, translation and axis flip (proved)

* Modelled: winding of `winding` over ordered rings.
* Proof: induction on the cyclic cross-product sum.
* Theorems (`Props/Winding`): `C31_winding_is_area_sign`, `C31_reverse`, `C31_flip_axis`, `C31_rotate`, `C31_translate`, `C31_closing_point`.
* Note: Over any linearly ordered commutative ring; float rounding not modelled.

### C32 RectifyPolygon postcondition (proved)

* Modelled: `RectifyPolygon` with in-place reversal.
* Proof: ring-wise winding lemmas; the mutation of the caller is stated.
* Theorems (`Props/Winding`): `C32_rectify`, `C32_rectify_windings`, `C32_rectify_idempotent`, `C32_rectify_mutates_argument`.
* Note: Over any linearly ordered commutative ring; float rounding not modelled.

### C33 Tile families partition the tile grid (proved)

* Modelled: tile families of `slippy/tile.go`.
* Proof: division and power arithmetic.
* Theorems (`Props/Slippy`): `C33_callback`, `C33_descendants`, `C33_ancestor`, `C33_down_up`, `C33_partition`.
* Note: Zoom differences up to 62 and tiles of the grid.

### C34 Tile ordering is a strict total order (proved)

* Modelled: tile `Less`.
* Proof: lexicographic order.
* Theorems (`Props/Slippy`): `C34_order`, `C34_irrefl`, `C34_trans`, `C34_total`.

### C35 FromBounds covers the bounds with a full rectangle of tiles (proved)

* Modelled: `FromBounds` over any grid.
* Proof: loop invariant for the two loops.
* Theorems (`Props/Slippy`): `C35_rectangle`, `C35_corner_order`, `C35_error_iff`.
* Note: Grid is any pair of conversion functions.

### C36 Douglas-Peucker keeps end points, order and the tolerance (proved)

* Modelled: `DouglasPeucker` on float patterns, any distance.
* Proof: strong induction on the length.
* Theorems (`Props/Simplify`): `C36_simplify`, `C36_total`.
* Note: Distances and tolerance are float64 bit patterns (NaN included), the distance function is any function.

### C37 Segment intersection is sound and complete (proved)

* Modelled: `SegmentIntersect`.
* Proof: parametric equations, both directions.
* Theorems (`Props/Planar`): `C37_segment_intersect`, `C37_no_report`.
* Note: Over any linearly ordered field.

### C38 Sweep finds every intersecting pair exactly once (proved)

* Modelled: event queue and sweep of `planar/intersect`.
* Proof: invariant over the event list, for any sort allowed by Less.
* Theorems (`Props/Intersect`): `C38_every_meeting_once`, `C38_cancelled`.
* Note: Exact arithmetic; the sort is any arrangement allowed by Less; cancellation covered.

### C39 Kd-tree holds exactly the inserted points (proved)

* Modelled: kd-tree insert.
* Proof: tree invariant over histories.
* Theorems (`Props/KdTree`): `C39_is_a_set`, `C39_well_formed`, `C39_duplicate`.
* Note: Coordinates from any linear order (float64 without NaN, zeros identified); stored values carry any payload. With NaN coordinates the code stores duplicates, outside the model.

### C40 Nearest-neighbour iteration is complete and sorted (proved)

* Modelled: best-first iterator with two heaps.
* Proof: iteration invariant: remaining items bounded below by the queue.
* Theorems (`Props/KdTree`): `C40_sorted_complete`, `C40_terminates`, `C40_runs`, `C40_end_is_final`, `C40_euclidean`.
* Note: All trees reachable by inserts, all distance functions that bound boxes below, all valid heap behaviours; instance for EuclideanDistance over the reals (no rounding).

### C41 R-tree search returns exactly the overlapping objects (partial)

* Modelled: R-tree insert, delete, split, condense, bulk load, search.
* Proof: tree invariant over histories with parent links; witnesses for two panics.
* Theorems (`Props/RTree`): `C41_search_exact_partial`, `C41_delete_answers_partial`, `C41_inserts_partial`, `C41_new_tree_partial`, `C41_violated`, `C41_bulk_insert_violated`.
* Note: Exact for every history that does not panic and for bulk-loaded trees with deletes; inserts alone never panic. Violated: after deleting everything an insert can panic, and an insert after a bulk load can lose objects.

### C42 R-tree limit search is bounded (proved)

* Modelled: limited search.
* Proof: prefix lemma.
* Theorems (`Props/RTree`): `C42_limit_is_prefix`, `C42_limit_bounded`.
* Note: All reached trees; the limited search is a prefix of the unlimited one.

### C43 Quad-edge algebra is preserved by every topological operation (partial)

* Modelled: quad-edge store with splice, connect, swap, delete.
* Proof: the four laws are preserved by splice of edges of one kind; invariant over histories.
* Theorems (`Props/QuadEdge`): `C43_algebra_partial`, `C43_apply`, `C43_violated`.
* Note: Holds for every history in which only edges of the same kind (two edges or two dual edges) are spliced, which is how the library uses Splice. C43_full allows any two edges and is refuted by C43_violated: splicing an edge with its own dual edge breaks the structure at the next splice. Nil edges are not modelled.

### C44 Distance to a line segment is the minimum distance (proved)

* Modelled: `DistanceToLineSegment`.
* Proof: projection arithmetic over the reals.
* Theorems (`Props/Planar`): `C44_segment_distance`.
* Note: Over the reals.

### C45 Triangle built for an extent covers it (partial)

* Modelled: `NewTriangleForExtent`.
* Proof: linear arithmetic; witness.
* Theorems (`Props/Shapes`): `C45_violated`, `C45_covers_partial`.
* Note: Violated for buffers below 1 (C45_violated); C45_covers_partial for buffers of at least 1, every point of the extent.

### C46 Circumscribed circle passes through its points (proved)

* Modelled: `CircleFromPoints`.
* Proof: field arithmetic in every branch.
* Theorems (`Props/Shapes`): `C46_circle`, `C46_never_loops`, `C46_radius`, `C46_contains`.
* Note: Over any linearly ordered field; radius over the reals.

### C47 Destructured segments are unique (partial)

* Modelled: `Destructure` with slice aliasing of `unique`.
* Proof: array model of the in-place compaction; witness.
* Theorems (`Props/Destructure`): `C47_nodup_partial`, `C47_front_partial`, `C47_violated`.
* Note: Proved when no two edges overlap; otherwise the slice begins with all its segments, each once, but its tail repeats some (C47_violated).

### C48 Cutting a ring splits it without loss (proved)

* Modelled: `cut`.
* Proof: list algebra of the two runs.
* Theorems (`Props/Walker`): `C48_cut`, `C48_panics`.
* Note: Exact for every pair of indices in range (the run going round, and the points at the other places in order); the panic condition is exact.

### C49 UTM zone numbers and letters (partial)

* Modelled: zone number and letter tables.
* Proof: case analysis over rationals; witnesses.
* Theorems (`Props/Utm`): `C49_zone_partial`, `C49_violated`, `C49_violated_north`, `C49_letter`.
* Note: Exact arithmetic. Violated at longitude 180 (zone 61, C49_violated) and at latitude 84 (zone 32X, C49_violated_north); C49_zone_partial covers all other places, C49_letter all latitudes. float64 rounding of lng+180 also gives 61 just below 180, outside the model.

### C50 Clip keeps multipoints inside and never leaves the box (proved)

* Modelled: clipping of points, lines and multi-lines.
* Proof: case analysis of each step of the loop with its state as invariant.
* Theorems (`Props/Clip`): `C50_points`, `C50_line`, `C50_parts`, `C50_lines`.
* Note: Exact arithmetic. C50_line for every box with ordered sides and any comparison of points; C50_parts (direction, order) for exact comparison. Geometry dispatch in clip.go not modelled.

### C51 Emptiness looks at every vertex (proved)

* Modelled: `IsEmpty`.
* Proof: structural induction.
* Theorems (`Props/Gpkg`): `C51_isEmptyGeo_iff`, `C51_isEmptyGeo_known`.

### C52 GeoPackage envelope order (partial)

* Modelled: `NewBinary`.
* Proof: unfolding; witness.
* Theorems (`Props/Gpkg`): `C52_envelope_partial`, `C52_violated`.
* Note: Violated: NewBinary stores minx, miny, maxx, maxy (C52_violated); C52_envelope_partial shows the four numbers are right.

### C53 Decoding MVT geometry words never panics (partial)

* Modelled: decoder with index checks as panics.
* Proof: induction over commands; witnesses.
* Theorems (`Props/Mvt`): `C53_point_never_panics_partial`, `C53_violated`, `C53_commands_never_panic_partial`.
* Note: Violated: linestring and polygon decoding panic on short input (C53_violated); points never panic, and neither do messages of complete commands with a LineTo among them.

### C54 Cancelling tile encoding is all or nothing (proved)

* Modelled: encoding polled by a context.
* Proof: induction over features.
* Theorems (`Props/MvtLayer`): `C54_cancel_all_or_nothing`, `C54_cancel_noticed`.
* Note: The context is any function from the feature index to done or not.

### C55 MVT point messages are accepted exactly when complete (proved)

* Modelled: `decodePoint`.
* Proof: exact acceptance condition by induction over words.
* Theorems (`Props/Mvt`): `C55_point_accepts_iff`, `C55_point_count`.

### C56 Polygon equality does not depend on how the polygon is written (partial)

* Modelled: `PolygonEqual` with its in-place sort.
* Proof: sorted-permutation uniqueness; witness where the order is not determined.
* Theorems (`Props/Cmp`): `C56_violated`, `C56_descriptions_equal_partial`, `C56_sound`, `C56_refl`, `C56_reorders`, `C56_mutates`, `C56_panics`.
* Note: Violated when two interior rings of one length share their least vertex (C56_violated); C56_descriptions_equal_partial otherwise.

### C57 Concurrent changes of the default comparison are swaps (partial)

* Modelled: `SetDefault` as loads and stores of goroutines.
* Proof: induction over interleavings; witness schedule.
* Theorems (`Props/Cmp`): `C57_violated`, `C57_no_stray_value`, `C57_serial_swaps_partial`.
* Note: Violated by overlapping calls (C57_violated); C57_serial_swaps_partial for calls that do not overlap, C57_no_stray_value for every interleaving.

### C58 A tile's corner is found in that tile (partial)

* Modelled: slippy maths over the reals.
* Proof: floor arithmetic and monotony of the Mercator function; rational bounds for the witness.
* Theorems (`Props/SlippyMath`): `C58_corner_iff`, `C58_violated`, `C58_corner_partial`, `C58_column_contains`, `C58_row_contains`.
* Note: Over exact reals. Violated for row 1 of zoom 22 (C58_violated); C58_corner_iff says exactly where it holds.

### C59 Looking up a place always gives an existing tile (partial)

* Modelled: as C58.
* Proof: bounds of floor; witness.
* Theorems (`Props/SlippyMath`): `C59_violated`, `C59_row_in_grid`, `C59_in_grid_partial`.
* Note: Over exact reals. Violated just west of 180 degrees (C59_violated); C59_in_grid_partial elsewhere.

### C60 The smallest covering tile covers the extent (partial)

* Modelled: `NewTileMinMaxer`.
* Proof: loop invariant; witness.
* Theorems (`Props/Slippy`): `C60_violated`, `C60_min_corner_partial`.
* Note: Violated (C60_violated); the result contains the minimum corner (C60_min_corner_partial).

### C61 Tile rectangles nest like the tiles (proved)

* Modelled: tile extents over the reals.
* Proof: exact halving of the grid.
* Theorems (`Props/SlippyMath`): `C61_nested`.
* Note: Over exact reals.

### C62 WKT decoder accepts exactly the grammar (proved)

* Modelled: the WKT reader.
* Proof: equivalence with an inductive grammar, determinism of the grammar.
* Theorems (`Props/Wkt`): `C62_accepts_exactly`, `C62_unambiguous`, `C62_terminates`.
* Note: Exact acceptance against an independent grammar; unambiguity; the recursion bound of the model is never reached.

### C63 WKT encoder refuses exactly what it documents (proved)

* Modelled: the WKT writer.
* Proof: exact acceptance by structural induction.
* Theorems (`Props/Wkt`): `C63_accepts_exactly`, `C63_strict_same_text`.
* Note: Exact acceptance; strict mode never changes the text.

### C64 WKT decoder reads whatever the encoder writes (partial)

* Modelled: writer and reader together.
* Proof: from C62 and C63; witnesses.
* Theorems (`Props/Wkt`): `C64_violated`, `C64_violated_ring`, `C64_reads_iff_partial`.
* Note: Violated: POINT EMPTY and rings [a,b,a] are written and not read; C64_reads_iff_partial says exactly which texts are read.

### C65 GeoJSON features round trip (partial)

* Modelled: features and collections.
* Proof: induction; witnesses.
* Theorems (`Props/GeoJson`): `C65_violated`, `C65_violated_read`, `C65_writes_iff`, `C65_feature_partial`, `C65_collection_partial`, `C65_wraps_partial`.
* Note: Violated for features without geometry. Proved for all others, collections and slices.

### C66 GeoJSON decoding never panics (partial)

* Modelled: decoder with panics.
* Proof: induction over documents; witnesses.
* Theorems (`Props/GeoJson`): `C66_violated`, `C66_violated_more`, `C66_no_panic_partial`.
* Note: Violated: nulls under type/coordinates/geometries panic. Proved for documents without such nulls.

### C67 GeoJSON positions have two numbers (partial)

* Modelled: position decoding.
* Proof: exact acceptance; witnesses.
* Theorems (`Props/GeoJson`): `C67_violated`, `C67_position_partial`.
* Note: Violated: missing and null coordinates read as 0. Exact acceptance proved.

### C68 Foreign GeoJSON members and member order do not matter (proved)

* Modelled: object member lookup.
* Proof: permutation invariance.
* Theorems (`Props/GeoJson`): `C68_foreign`, `C68_order`.
* Note: Order: names distinct up to ASCII case.

### C69 Perpendicular distance is the distance to the line (partial)

* Modelled: `PerpendicularDistance`.
* Proof: projection arithmetic; witness.
* Theorems (`Props/Planar`): `C69_violated`, `C69_line_distance_partial`.
* Note: Violated when the two line points coincide (C69_violated); C69_line_distance_partial otherwise. Over the reals.

### C70 Cancelled simplification never passes off a partial result (proved)

* Modelled: polled Douglas–Peucker.
* Proof: strong induction with the poll counter.
* Theorems (`Props/Simplify`): `C70_cancel`.
* Note: The context is any monotone sequence of poll answers.

### C71 Simplify keeps the shape of a geometry (proved)

* Modelled: `planar.Simplify`.
* Proof: structural induction.
* Theorems (`Props/Simplify`): `C71_shape`.
* Note: The simplifer is any partial function.

### C72 Simplified polygons have real rings (partial)

* Modelled: as C71.
* Proof: length lemmas; witness.
* Theorems (`Props/Simplify`): `C72_violated`, `C72_rings_partial`.
* Note: Violated: flat rings become empty rings (C72_violated); C72_rings_partial: every ring is empty or has three points.

### C73 Line intersection is sound and complete (proved)

* Modelled: `LineIntersect`.
* Proof: determinant arithmetic.
* Theorems (`Props/Planar`): `C73_line_intersect`, `C73_no_report`.
* Note: Over any linearly ordered field.

### C74 Colinear lines are recognised (partial)

* Modelled: `AreLinesColinear`.
* Proof: exact meaning of the test; witnesses both ways.
* Theorems (`Props/Planar`): `C74_violated`, `C74_violated_missed`, `C74_exact_partial`.
* Note: Violated in both directions (C74_violated, C74_violated_missed); C74_exact_partial says what the test decides.

### C75 Point on line and on segment tests are exact (proved)

* Modelled: `IsPointOnLine`, `IsPointOnLineSegment`.
* Proof: field arithmetic.
* Theorems (`Props/Planar`): `C75_on_segment`, `C75_on_line`.
* Note: Exact comparison of numbers.

### C76 Point at a distance along a line (proved)

* Modelled: `PointOnLineAt`.
* Proof: field arithmetic over the reals.
* Theorems (`Props/Planar`): `C76_point_on_line_at`.
* Note: Over the reals.

### C77 Centre of points (partial)

* Modelled: `PointsCentriod`.
* Proof: exact factor; witness.
* Theorems (`Props/Planar`): `C77_violated`, `C77_centroid_is_mean`, `C77_scaled_partial`.
* Note: Violated (C77_violated): divides by the last area term. C77_scaled_partial says by which factor the result is off.

### C78 In-circle test agrees with the circumscribed circle (proved)

* Modelled: `Circle.ContainsPoint`.
* Proof: in-circle determinant identity.
* Theorems (`Props/Shapes`): `C78_within_circle`, `C78_agrees_with_circle`.
* Note: Over any linearly ordered field.

### C79 Circle segments form a closed chain (partial)

* Modelled: `AsSegments`.
* Proof: index arithmetic; witness.
* Theorems (`Props/Shapes`): `C79_violated`, `C79_closed_partial`.
* Note: Violated for k = 0 (C79_violated, index panic); C79_closed_partial for k from 3 on.

### C80 Third corner of a triangle (proved)

* Modelled: `ThirdPoint`.
* Proof: case analysis.
* Theorems (`Props/Shapes`): `C80_third_point`.

### C81 Point containment of a line (partial)

* Modelled: `Line.ContainsPoint`.
* Proof: exact meaning (box); witness.
* Theorems (`Props/Shapes`): `C81_violated`, `C81_box_partial`.
* Note: Violated (C81_violated): it is a box test; C81_box_partial.

### C82 Circle points lie on the circle (proved)

* Modelled: `AsPoints`.
* Proof: trigonometric identity.
* Theorems (`Props/Shapes`): `C82_as_points`.
* Note: Over the reals.

### C83 Centre and area of a triangle (proved)

* Modelled: `Center`, `Area` of a triangle.
* Proof: field arithmetic.
* Theorems (`Props/Shapes`): `C83_center`.
* Note: Over any linearly ordered field.

### C84 EuclideanDistance is the distance to the nearest point of an extent (proved)

* Modelled: `EuclideanDistance`.
* Proof: minimum over the box by clamping.
* Theorems (`Props/KdTree`): `C84_distance_to_extent`.
* Note: Exact arithmetic over the reals.

### C85 Point in ring is the even-odd rule (proved)

* Modelled: ring containment by crossings, with and without index.
* Proof: both sides count the same crossings; the index returns a superset that crosses the ray.
* Theorems (`Props/Intersect`, `Props/SegIndex`): `C85_even_odd`, `C85_even_odd_small`, `C85_even_odd_indexed`.
* Note: Exact arithmetic and exact point equality; with and without the segment index.

### C86 R-tree filters leave out and stop (partial)

* Modelled: filters of the R-tree search.
* Proof: tree induction; witness for abort.
* Theorems (`Props/RTree`): `C86_filters_partial`, `C86_violated`.
* Note: Proved for filters that never abort, for any order. Violated: an abort only ends the loop over the current leaf.

### C87 Segment index returns exactly the near segments (proved)

* Modelled: segment index over the R-tree.
* Proof: exactness of search on bulk-loaded trees.
* Theorems (`Props/SegIndex`): `C87_index_exact`, `C87_finds_all_meeting`, `C87_small`.
* Note: Exact coordinate arithmetic; box sizes (float64) are arbitrary, as are the height, the slices and the sorts of the bulk load.

### C88 Nearest neighbour is a nearest stored object (proved)

* Modelled: `NearestNeighbor` with pruning.
* Proof: branch-and-bound invariant.
* Theorems (`Props/RTreeNearest`): `C88_nearest`.
* Note: Exact arithmetic over any ordered field; objects with lower ends not above upper ends.

### C89 K nearest neighbours are the k nearest, in order (partial)

* Modelled: `NearestNeighbors`.
* Proof: branch-and-bound invariant on the sorted list of k; witness for k = 0.
* Theorems (`Props/RTreeNearest`): `C89_k_nearest_partial`, `C89_no_panic_partial`, `C89_no_panic_loaded_partial`, `C89_abort_partial`, `C89_violated`.
* Note: Proved for k at least 1 (no panic needs MaxChildren at least 2 and, for bulk-loaded trees, a computed height that is enough). Violated: k = 0 panics on trees of more than one level.

### C90 A splice joins two rings or cuts one in two (proved)

* Modelled: `Splice` of the quad-edge store.
* Proof: a transposition joins or cuts cycles of a permutation.
* Theorems (`Props/QuadEdge`): `C90_splice_rings`, `C90_rings`.
* Note: Every structure reached by making, splicing, connecting, swapping, deleting edges; C90_rings shows that being on one ring is an equivalence.

### C91 Deleting an edge takes out that edge only (proved)

* Modelled: `Delete`.
* Proof: two splices, links computed.
* Theorems (`Props/QuadEdge`): `C91_delete`.

### C92 Connecting two edges adds one edge in the face between them (proved)

* Modelled: `Connect`.
* Proof: links computed after two splices.
* Theorems (`Props/QuadEdge`): `C92_connect`.
* Note: For the edge ResolveEdge chose at the far end; the choice itself is not part of this claim. The new edge and its place are stated exactly.

### C93 Swapping an edge turns it inside its quadrilateral (proved)

* Modelled: `Swap`.
* Proof: links computed after four splices.
* Theorems (`Props/QuadEdge`): `C93_swap`.
* Note: Needs another edge before the swapped edge at each of its ends (Turnable), which every edge between two triangles has.

### C94 All edges around a vertex have that vertex as origin (proved)

* Modelled: end points under all operations.
* Proof: invariant over histories.
* Theorems (`Props/QuadEdge`): `C94_origins`.

### C95 Walking and searching around a vertex sees every edge once (partial)

* Modelled: walks round a vertex.
* Proof: the orbit is a finite cycle; witness with a loop.
* Theorems (`Props/QuadEdge`): `C95_once_round`, `C95_walk_partial`, `C95_violated`, `C95_find_destination`.
* Note: The walks are proved complete where no edge has both ends at the origin. C95_full is refuted by C95_violated: the walk marks quad-edges, not edges, and stops early at a loop. FindONextDest is proved without that restriction.

### C96 The edge stack is last in first out (proved)

* Modelled: stack.
* Proof: list lemmas.
* Theorems (`Props/QuadEdge`): `C96_stack`.

### C97 Normalized longitudes (partial)

* Modelled: `NormalizeLng`.
* Proof: floor arithmetic; witness.
* Theorems (`Props/Utm`): `C97_normalize_partial`, `C97_violated`.
* Note: Violated west of -180 (C97_violated); C97_normalize_partial covers the rest. int64 overflow not modelled.

### C98 Degrees, minutes and seconds say the angle (proved)

* Modelled: degrees, minutes, seconds.
* Proof: floor arithmetic.
* Theorems (`Props/Utm`): `C98_dms`.
* Note: Over any ordered field with floor; float64 rounding not modelled.

### C99 Conversion to UTM does not panic (partial)

* Modelled: `FromLngLat` with letters as indexed tables.
* Proof: exact panic condition; witness.
* Theorems (`Props/Utm`): `C99_panics_partial`, `C99_violated`.
* Note: Violated (C99_violated); C99_panics_partial says exactly where it panics. Over the reals.

### C100 NATO columns go up from west to east (partial)

* Modelled: NATO column letters.
* Proof: table reasoning; witness.
* Theorems (`Props/Utm`): `C100_columns_partial`, `C100_violated`.
* Note: Violated in zones divisible by 3 (C100_violated); C100_columns_partial for the others. Over the reals.

### C101 The projection is symmetric (proved)

* Modelled: the projection series over the reals.
* Proof: parity of sine and cosine in the series.
* Theorems (`Props/Utm`): `C101_mirror`.
* Note: Over the reals.

### C102 To UTM and back (partial)

* Modelled: `ToLngLat` after `FromLngLat` over the reals.
* Proof: exact on the central meridian of a sphere; numeric bound for the witness.
* Theorems (`Props/Utm`): `C102_round_trip_partial`, `C102_violated`.
* Note: Violated (C102_violated): more than half a degree off at 60N 3E on a sphere; C102_round_trip_partial: exact on central meridians of a sphere.

### C103 Clipping a line loses nothing inside the box (partial)

* Modelled: line clipping.
* Proof: every interior point of a segment is in a returned line; witness.
* Theorems (`Props/Clip`): `C103_covered_partial`, `C103_violated`.
* Note: Violated (C103_violated): a segment through the corner (maxx,miny) is dropped. C103_covered_partial for segments through no corner.

### C104 Clipping a line returns lines (partial)

* Modelled: line clipping.
* Proof: length invariant of the loop; witnesses.
* Theorems (`Props/Clip`): `C104_two_points_partial`, `C104_violated`, `C104_violated_twice`.
* Note: Violated (C104_violated): a line leaving from a point of the border gives a one-point line. C104_two_points_partial for lines with no vertex on the border.

### C105 Untangling a ring always ends with well formed rings (partial)

* Modelled: `PolygonForRing`.
* Proof: strong induction on ring length; witness.
* Theorems (`Props/Walker`): `C105_rings_partial`, `C105_simple`, `C105_violated`.
* Note: Proved for rings whose neighbouring points differ (and for rings without repeated points the exact result); a ring whose last point repeats the leftmost first point panics (C105_violated).

### C106 Untangling a ring loses no area (partial)

* Modelled: as C105.
* Proof: the cyclic area is additive under cuts; witness.
* Theorems (`Props/Walker`): `C106_area_partial`, `C106_violated`.
* Note: Proved whenever rings are returned; a triangle with a spike to the left is dropped as a whole (C106_violated).

### C107 Rings after untangling do not touch themselves (partial)

* Modelled: as C105.
* Proof: multiplicity of points under cuts; witness.
* Theorems (`Props/Walker`): `C107_nodup_partial`, `C107_no_panic`, `C107_violated`.
* Note: Proved for rings in which no point comes more than twice and the leftmost point once; a point that comes three times stays twice (C107_violated).

### C108 A walk over triangles covers exactly the connected triangles (proved)

* Modelled: `RingForTriangle` and the walk.
* Proof: exact invariant of the work list: what is marked is what is connected.
* Theorems (`Props/WalkerRing`): `C108_walk`, `C108_stopped`.
* Note: Exact set of marked triangles, number and origin of the points of the ring; what a cancelled walk has marked.

### C109 The ring of a walk encloses the area of its triangles (proved)

* Modelled: as C108.
* Proof: the ring area changes by the area of each triangle added.
* Theorems (`Props/WalkerRing`): `C109_area`.

### C110 The polygons made from triangles have the area of the triangles (partial)

* Modelled: `MultiPolygon` of the walker.
* Proof: sum over walks; witness.
* Theorems (`Props/WalkerRing`): `C110_area_partial`, `C110_simple_partial`, `C110_violated`.
* Note: Proved when the rings of the walks untangle into an outer ring first and holes after it, in particular when they visit no point twice; five triangles round a hole that touches the leftmost point give hole and outside the wrong way round (C110_violated).

### C111 Polygons made from triangles are well formed (proved)

* Modelled: as C110.
* Proof: from C105 under its conditions.
* Theorems (`Props/WalkerRing`): `C111_polygons`.

### C112 Destructured segments do not cross (proved)

* Modelled: `Destructure`: splitting at all crossings.
* Proof: after splitting at all sweep results two pieces meet in ends only.
* Theorems (`Props/Destructure`): `C112_crossings`, `C112_apart`.
* Note: Exact arithmetic.

### C113 Destructured segments cover the input (proved)

* Modelled: as C112.
* Proof: each edge is the union of its consecutive pieces.
* Theorems (`Props/Destructure`): `C113_cover`, `C113_cover_clipped`.
* Note: Exact arithmetic.

### C114 Destructured segments are directed parts of edges (proved)

* Modelled: as C112.
* Proof: direction along the edge.
* Theorems (`Props/Destructure`): `C114_parts`.
* Note: Exact arithmetic.

### C115 An ended context is reported (partial)

* Modelled: as C112 with a context.
* Proof: poll cases; witness.
* Theorems (`Props/Destructure`): `C115_all_or_nothing_partial`, `C115_violated`.
* Note: What is returned is complete or nothing at all; but nothing is returned without an error (C115_violated).

### C116 The hit map tells what is inside (partial)

* Modelled: `hitmap`.
* Proof: even-odd rule per ring, order of rings by area; witnesses.
* Theorems (`Props/HitMap`): `C116_exact_partial`, `C116_polygons_partial`, `C116_single_partial`, `C116_near_partial`, `C116_violated`, `C116_rounding_violated`.
* Note: Exact arithmetic. Proved for points of at most 20 significant bits and rings of which no smaller one of another polygon decides first; an island in a hole of another polygon is labelled Outside (C116_violated), and points are rounded to 20 bits (C116_rounding_violated).

### C117 A clip box does not change labels within it (partial)

* Modelled: as C116 with clip box.
* Proof: witness.
* Theorems (`Props/HitMap`): `C117_outside_partial`, `C117_violated`.
* Note: Points outside the box are Outside; but with a clip box nearly everything is Outside (C117_violated).

### C118 The hit map of a collection is the union (proved)

* Modelled: `OrderedHM`.
* Proof: list induction.
* Theorems (`Props/HitMap`): `C118_collection`, `C118_new`.
* Note: Exact arithmetic.

### C119 Labels do not depend on how the polygons are written (proved)

* Modelled: as C116.
* Proof: permutation and rotation invariance of the even-odd rule.
* Theorems (`Props/HitMap`): `C119_same_label`.
* Note: Exact arithmetic.

### C120 Making polygons valid keeps the inside (partial)

* Modelled: `Makevalid` with the triangulation as parameter.
* Proof: areas and labels of triangles composed with C109; witness.
* Theorems (`Props/Makevalid`): `C120_area_partial`, `C120_violated`.
* Note: Proved for walks that come to no point twice; a hole that touches the leftmost point turns the polygon inside out (C120_violated). The triangulation is taken as given.

### C121 Makevalid reports an ended context (partial)

* Modelled: as C120 with a context.
* Proof: poll cases; witness.
* Theorems (`Props/Makevalid`): `C121_labelling_partial`, `C121_violated`.
* Note: Proved for contexts that end while triangles are labelled; before that a nil multipolygon is returned without error (C121_violated).

### C122 What Makevalid returns can be used (partial)

* Modelled: as C120.
* Proof: exact condition of the typed nil.
* Theorems (`Props/Makevalid`): `C122_shape_partial`, `C122_violated`.
* Note: Exactly when no triangle is inside a nil *MultiPolygon is returned (C122_violated).

### C123 Makevalid says whether it clipped (proved)

* Modelled: as C120.
* Proof: case analysis.
* Theorems (`Props/Makevalid`): `C123_triangulation_error`, `C123_not_clipped`, `C123_clipped`, `C123_unknown`.
* Note: The clipper and the triangulation are taken as given.

### C124 The lines of a triangulated ring form triangles (proved)

* Modelled: `pseudopolygon.Triangulate`.
* Proof: strong induction: every triangle made has its three sides among the lines.
* Theorems (`Props/PseudoPolygon`): `C124_triangulation`, `C124_line`.
* Note: Exact arithmetic; the circle test may answer anything.

### C125 Simple rings can be triangulated (partial)

* Modelled: as C124.
* Proof: induction with the flatness condition; witness.
* Theorems (`Props/PseudoPolygon`): `C125_violated`, `C125_sound_partial`, `C125_convex_partial`.
* Note: Proved for rings of which no part is flat, convex ones in particular; a simple pentagon is refused as colinear (C125_violated).

### C126 Triangulating a ring does not panic (proved)

* Modelled: as C124.
* Proof: strong induction, indices in range.
* Theorems (`Props/PseudoPolygon`): `C126_total`.
* Note: Exact arithmetic; the circle test may answer anything.

### C127 The sides of the ring are among the lines (partial)

* Modelled: as C124.
* Proof: induction over the ring split; witness.
* Theorems (`Props/PseudoPolygon`): `C127_violated`, `C127_sides_partial`.
* Note: Proved when no point comes back; the ring at the end of a tail is lost (C127_violated).

### C128 A point is placed between two edges around a vertex (partial)

* Modelled: `ResolveEdge`, `Classify`.
* Proof: angular order in the plane by wedge signs; the case table of the code is checked against it.
* Theorems (`Props/Resolve`): `C128_resolve_partial`, `C128_violated`, `C128_same_point`.
* Note: Exact arithmetic. Proved unless the point is on the straight line of two successive edges; there the wrong edge is named (C128_violated).

### C129 Sides of an edge (proved)

* Modelled: `RightOf`, `LeftOf`, `OnEdge`.
* Proof: sign of the wedge product.
* Theorems (`Props/Resolve`): `C129_right_of`, `C129_classify`.
* Note: Exact arithmetic.

### C130 WalkAllEdges visits each edge once (proved)

* Modelled: `WalkAllEdges`.
* Proof: work-list invariant on the finite set of quad-edges.
* Theorems (`Props/SubWalk`): `C130_every_edge_once`, `C130_order`.

### C131 The vertex index finds the vertices (proved)

* Modelled: `VertexIndex`.
* Proof: fold over the walk of C130.
* Theorems (`Props/SubWalk`): `C131_new_index`, `C131_remove`.
* Note: For any rounding; vertices must not round to one point.

### C132 A point is put where it lies (proved)

* Modelled: `locate` and `testEdge`.
* Proof: loop invariant; what the returned edge says about the point.
* Theorems (`Props/Subdivision`): `C132_located`.
* Note: Exact arithmetic. That an edge is found at all is not claimed.

### C133 New makes a triangle (proved)

* Modelled: `New`.
* Proof: links of the store computed.
* Theorems (`Props/Subdivision`): `C133_new_panics`, `C133_new_triangle`.
* Note: Exact arithmetic.

### C134 Putting points into a subdivision keeps it a triangulation of its frame (partial)

* Modelled: `InsertSite` whole: search, edge split, fan, edge flips.
* Proof: mesh invariant (rings around vertices, faces of three sides, orientation, area sum) preserved by splicing, by each new spoke and by each flip; termination of the search by a lexicographic potential (power with respect to circumscribed circles, then barycentric coordinates at the corner inserted last).
* Theorems (`Props/Delaunay`, `Props/InsertSite`): `C134_accepts_partial`, `C134_violated`, `C134_violated_on_side`, `C134_new`, `C134_insert_one_partial`, `C134_history_partial`.
* Note: Exact arithmetic. Proved in full for points that are not on a side of the frame (C134_accepts_partial): InsertSite says yes to just the points inside the frame. The full claim is violated on the sides: the origin of the first edge is refused, and a point on the first edge takes that edge out of the subdivision.

### C135 The triangles of a subdivision cover its frame exactly once (proved)

* Modelled: as C134.
* Proof: area argument: the faces sum up to the frame and every face that holds a point is found.
* Theorems (`Props/Delaunay`): `C135_cover`.
* Note: Exact arithmetic; for points not on a side of the frame, as the claim says.

### C136 Putting points into a subdivision keeps it Delaunay (partial)

* Modelled: as C134.
* Proof: only edges opposite the new point are suspect (in-circle identities), the flip loop empties the suspects, local legality gives the global empty-circle property by a walk.
* Theorems (`Props/Delaunay`): `C136_insert_one_partial`, `C136_violated`, `C136_history_partial`.
* Note: Exact arithmetic. Proved for all sequences of points not on a side of the frame. The full claim is violated by a point on the first side of the frame, which is lost.

### C137 Triangles lists the Delaunay triangulation, each triangle once (partial)

* Modelled: `Triangles`, `WalkAllTriangles` and `IsFramePoint` on top of C134.
* Proof: edges with the same origin point lie on one ring (sectors round a vertex do not overlap), so each vertex is walked round once; loop invariant counting each triangle by its rotations: once if one of its corners is seen, else never; every vertex is reached by induction over the order of the seen points; fuel bounded by the edges ahead.
* Theorems (`Props/Triangles`): `C137_violated`, `C137_triangles_partial`.
* Note: Exact arithmetic; points not on a side of the frame. Triangles(false) is exact. The full claim is violated by Triangles(true), which also lists the outside of the frame as a triangle turning the wrong way; with this one taken out the list is the triangulation.

### C138 NewForPoints triangulates all points it is given (proved)

* Modelled: `NewForPoints` whole (rounding, extent, frame triangle, seen points, cancellation).
* Proof: all points are strictly inside the frame (weights computed), so C134 applies to the list without doubles.
* Theorems (`Props/DelaunayPoints`): `C138_rounds`, `C138_newForPoints`.
* Note: Exact arithmetic (the rounding to thousandths is modelled, the rounding of float64 is not).

### C139 The triangulation of points covers their convex hull (partial)

* Modelled: `Constrained.Triangles` and `GeomConstrained.Triangles` with constraints not enabled.
* Proof: C137 and C138; completeness by comparing the powers of the middle of a triangle with respect to two circles, their difference being affine.
* Theorems (`Props/DelaunayPoints`): `C139_violated`, `C139_points_partial`, `C139_constrained_partial`, `C139_geom_partial`.
* Note: Exact arithmetic, constraints not enabled. The full claim (the convex hull is covered) is violated: the frame is finite, and flat triangles with a corner of the frame in their circle are not listed. Proved: never an error, triangles turn the right way, do not overlap, have empty circles, and three points the closed circle of which has no other point and no corner of the frame are listed.

### C140 Triangulating leaves the points of the caller alone (partial)

* Modelled: the slice of `Constrained.Triangles` with its spare capacity.
* Proof: case split on whether append fits.
* Theorems (`Props/DelaunayPoints`): `C140_points_partial`, `C140_violated`.
* Note: The full claim is violated: points are rounded in place. Proved: just when they stay the same, and what they become otherwise.

### C141 Preparing a geometry for a tile maps it to pixels (proved)

* Modelled: `PrepareGeo` with its helpers over an ordered field; the comparison of pixel positions is a parameter.
* Proof: the line loop is `List.destutter`; area of an affine image for the directions.
* Theorems (`Props/MvtPrepare`): `C141_point`, `C141_inside`, `C141_points`, `C141_line`, `C141_lines`, `C141_polygon`, `C141_directions`, `C141_polygons`, `C141_other`.
* Note: Exact arithmetic; the comparison of pixel positions is a parameter. Rings that collapse to one position make the call panic (C142) and are left out.

### C142 Preparing a geometry never panics (partial)

* Modelled: as C141; indexing a nil slice is `none`.
* Proof: the ring loop is `none` just if the thinned ring has one point.
* Theorems (`Props/MvtPrepare`): `C142_panics_iff_partial`, `C142_violated`.
* Note: The full claim is violated: a ring of two or more points that collapses to one pixel position makes PrepareGeo panic. Proved: just those do.

### C143 The outer ring of a prepared polygon comes from the outer ring (partial)

* Modelled: as C141.
* Proof: the first ring with two points is the first kept.
* Theorems (`Props/MvtPrepare`): `C143_outer_partial`, `C143_violated`.
* Note: The full claim is violated: an outer ring of a single point is skipped and the first hole takes its place. Proved for outer rings of two or more points.

### C144 The spatial index of a GeoPackage table follows its rows (partial)

* Modelled: the six triggers of the template on lists of rows and entries; `ST_IsEmpty` and the box are parameters; `recursive_triggers` off.
* Proof: each operation against the set {(key, box)} of the visible rows, trigger order arbitrary (permutation); induction over the history.
* Theorems (`Props/GpkgDb`): `C144_statement_partial`, `C144_history_partial`, `C144_violated`, `C144_replace_violated`.
* Note: The full claim is violated: an update of the key that does not name the geometry column, and a replacing insert of a row without geometry, leave the index out of step. Proved: every other statement, and every history without those, keeps it in step (iff for one statement).

### C145 A registered table has its index and its metadata (partial)

* Modelled: the 13 statements of `AddGeometryTable` on metadata tables and tables of the user.
* Proof: closed form of the file after a successful call.
* Theorems (`Props/GpkgDb`): `C145_tables_partial`, `C145_index_partial`, `C145_metadata_partial`, `C145_violated`, `C145_second_column_violated`, `C145_index_lasts_partial`.
* Note: The full claim is violated: rows that are there before the call do not get into the index, and a second geometry column does not get into the metadata. Proved: exactly what tables and metadata are afterwards, and when the index is in step.

### C146 AddGeometryTable takes every description that fits (partial)

* Modelled: as C145.
* Proof: each statement succeeds just if its condition holds; conditions do not change on the way.
* Theorems (`Props/GpkgDb`): `C146_succeeds_iff_partial`, `C146_violated`, `C146_clash_violated`.
* Note: The full claim is violated: names that want quotes and index names that coincide are refused. Proved: exactly when the call succeeds.

### C147 Registering a table can be repeated after a crash (partial)

* Modelled: as C145, stopped after n statements.
* Proof: the first five statements leave nothing to do for themselves (idempotent and stable); the index name is taken from the sixth on.
* Theorems (`Props/GpkgDb`): `C147_early_partial`, `C147_late_partial`, `C147_violated`.
* Note: The full claim is violated: once the index is made, a second call fails for ever. Proved: before that point the second call does all that the first would have done; after it, that it fails and changes nothing.

### C148 The metadata tables stay consistent (proved)

* Modelled: all calls of the handle but those on the schema.
* Proof: invariant, with what is known before each statement for crashes in between.
* Theorems (`Props/GpkgDb`): `C148_metadata_sound`.

### C149 UpdateSRS inserts or updates (partial)

* Modelled: `UpdateSRS` and `initHandle` on the rows of the table; the order of `KnownSRS` is a parameter.
* Proof: induction over the list.
* Theorems (`Props/GpkgDb`): `C149_first_wins_partial`, `C149_kept_partial`, `C149_open_again_partial`, `C149_violated`.
* Note: The full claim is violated: a system that is in the file is not updated. Proved: exactly what the file has afterwards, and that opening it again changes nothing.

### C150 The stored extent of a table is the union of what was given (proved)

* Modelled: `UpdateGeometryExtent` on rows with NULL; floats as bit patterns.
* Proof: invariant: bounds are the join of the extents so far.
* Theorems (`Props/GpkgDb`): `C150_extent_is_union`, `C150_extent_grows`, `C150_call`, `C150_nan`.
* Note: Extents with NaN or with their bounds out of order are left out.

### C151 CalculateGeometryExtent is the tightest box around the geometries (partial)

* Modelled: `CalculateGeometryExtent` with the scanner that keeps its last value; bytes decoded by the model of C14.
* Proof: invariant: the extent is the least box around the points so far, the kept geometry adds nothing new.
* Theorems (`Props/GpkgDb`): `C151_extent_partial`, `C151_violated`, `C151_unknown`.
* Note: The full claim is violated: a NaN in a vertex of a geometry that has numbers too makes the extent NaN. Proved for geometries without such vertices.

### C152 Setters store exactly what they are given (proved)

* Modelled: slices as headers (array, offset, length, capacity) into arrays; `append((*x)[:0], input...)` with the growth of the array as parameter.
* Proof: `append` reads first and writes then, case split on whether the input fits.
* Theorems (`Props/Memory`): `C152_stores`, `C152_error_iff`.
* Note: Memory is modelled by arrays and slice headers.

### C153 Geometries behave as values (partial)

* Modelled: programs of `set`, `keep`, `write`, `cut` over geometry variables.
* Proof: simulation of value semantics: variables of programs without `keep` never share an array; induction over the program; negation by a program of three steps.
* Theorems (`Props/Memory`): `C153_separate_partial`, `C153_violated`, `C153_effect_partial`.
* Note: The full claim is violated: after b = a (or through an S type, or a kept result of a getter) a setter of a changes b. Proved for programs without such assignments, and the exact effect of a setter on any other slice.

### C154 Clone is deep (proved)

* Modelled: `Clone` on a heap of arrays of points, of slices, and of slices of slices.
* Proof: new arrays lie behind all old ones; both directions by induction over the edits.
* Theorems (`Props/Memory`): `C154_deep`, `C154_error_iff`.

### C155 A geometry does not change when the argument of its setter is changed later (partial)

* Modelled: the setters of C152 on that heap.
* Proof: elements live in an array apart; negation by one shared ring.
* Theorems (`Props/Memory`): `C155_elements_partial`, `C155_violated`.
* Note: The full claim is violated: the setters copy rings and lines without their points. Proved for the elements of the argument.

### C156 Hull is the smallest region around two places on the sphere (proved)

* Modelled: `Hull` and `Extent` over any ordered field.
* Proof: case split on the sign and size of the difference; minimality since any arc around both has a width equal to the difference up to full turns.
* Theorems (`Props/Spherical`): `C156_hull`, `C156_beyond`.
* Note: Exact arithmetic; longitudes at most 360 degrees apart, and what happens beyond is proved too.

### C157 NormalizeUniqueLines gives each segment once (partial)

* Modelled: `NormalizeLines`, `LinesByXY.Less` and the loop of `NormalizeUniqueLines` on bit patterns; `sort.Sort` is any arrangement allowed by `Less`.
* Proof: the loop keeps the first of each run; sorted by the key of four coordinates when points are separated; negation by a chain of three.
* Theorems (`Props/Lines`): `C157_given_partial`, `C157_unique_partial`, `C157_violated`.
* Note: The full claim is violated: of a chain of segments, each within tolerance of the one before, all but the first are dropped. Proved for segments whose points are the same or not within tolerance.

### C158 The edges of polygons with Z, M or an SRID (partial)

* Modelled: `AsSegments` of the seven polygon types, one definition for points of any kind.
* Proof: induction over rings and points.
* Theorems (`Props/Dims`): `C158_edges_partial`, `C158_srid_partial`, `C158_violated`.
* Note: The full claim is violated: a polygon without rings gives SRID 0. Proved for all others.

### C159 Leaving out Z and M changes nothing else (proved)

* Modelled: `LineString`, `MultiPoint`, `AsLineStringZs` and their M and ZM variants, `AsSegments`.
* Proof: induction over the lists.
* Theorems (`Props/Dims`): `C159_edges`, `C159_flat`, `C159_lines`.

### C160 FindIntersectingEdges returns just the edges that a segment crosses, in order (partial)

* Modelled: `FindIntersectingEdges`, with `ResolveEdge` and `SegmentIntersect`, on top of C134.
* Proof: the segment leaves its first point between two edges (C128) and goes through the triangles one after the other: signed areas show which side of a triangle it leaves by, and that the place of the crossing increases; each point of the segment is in the open triangle between two crossings, so no other edge is crossed; the end is recognised because only one triangle at the last point faces the first; induction over the number of edges still ahead.
* Theorems (`Props/Constrained`): `C160_violated`, `C160_crossed_partial`.
* Note: The full claim is violated: when a point of the subdivision is on the segment, edges that only touch it are returned and others are left out; and more than 21 edges are an error. Proved for segments with no other point on them, with the limit of 21 in the statement.

### C161 Inserting a constraint gives a triangulation with that edge (partial)

* Modelled: `InsertConstraint`, `ResolveStartingEndingEdges`, `insertEdge`, the collector of points, `VertexIndex` and `pseudopolygon.Triangulate`, on top of C160.
* Proof: with one edge crossed the two triangles beside it are found from the walk of C160; deleting it leaves a quadrilateral (the hole lemma of C134), around its other two corners nothing is changed, so `ResolveEdge` gives the two edges the new one has to go between; the edges of the sides are there already and are found by going round their origins; connecting cuts the quadrilateral in two triangles. The violation is computed by the kernel.
* Theorems (`Props/InsertConstraint`): `C161_violated`, `C161_insert_partial`, `C161_sites`.
* Note: The full claim is violated: where several edges are crossed, the triangulation of the two sides can put in an edge that lies outside them, and the subdivision is not a triangulation afterwards though no error is returned. Proved for points that are missing, edges that exist, more than 21 edges crossed, and for one edge crossed.

### C162 Validate accepts every triangulation that was built, and what its verdict on other subdivisions means (partial)

* Modelled: `Verif/Model/Validate.lean`: `quadedge.Validate` with the stateful walk, its two counts and its (void) search for self-intersections, and `sd.Validate` with the sweep over the lines of all edges; the arrangement of the events is any function `mkq` with `IsQueue`.
* Proof: the walk is reduced to a fold over the ring; the counts are shown to be left turns minus right turns; the walk over all edges is shown to visit each ring of two or more edges from inside (`walk_ring`), so every ring is tested; the sweep is C38. For triangulations, `edges_apart`, `vertex_edge_apart` and `edge_unique` give the tests. Refutations by a star of seven and one of four edges..
* Theorems (`Props/Validate`): `C162_decides_partial`, `C162_ends`, `C162_edge_ends`, `C162_context`, `C162_accepts_partial`, `C162_order_violated`, `C162_apart_violated`, `C162_returns_violated`.
* Note: Exact characterisation of the verdict (C162_decides_partial) and no false alarm for built triangulations (C162_accepts_partial). The stronger claims that nil means counterclockwise order, or that edges meet only at ends, are refuted (C162_order_violated, C162_apart_violated). Exact arithmetic; structures with a nil end or with an edge both of whose ends are in one ring are left out of the exact characterisation; C162_ends and C162_edge_ends say that nil means no nil ends, C162_context what the context does, C162_returns_violated that a nil end may make it panic.

### C163 GeometryEqual tells geometries apart by kind and parts, returns, and leaves its arguments as they were (partial)

* Modelled: `Verif/Model/GeoEqual.lean`: the type switch of `GeometryEqual`, the seven comparers it calls, the order of multipolygons, what the arguments hold afterwards, panics.
* Proof: induction over geometries and lists of geometries (`good_all`): the answer against an inductive relation `Agree`, definedness against `Harmless`, the arguments afterwards against `Moved`; sorted lists of polygons with different keys are unique, so the order does not matter; four refutations by computed witnesses.
* Theorems (`Props/GeoEqual`): `C163_decides_partial`, `C163_returns_partial`, `C163_quiet_partial`, `C163_self`, `C163_order_partial`, `C163_permuted_partial`, `C163_type_violated`, `C163_order_violated`, `C163_quiet_violated`, `C163_returns_violated`.
* Note: A yes is sound for all geometries and exact where no multipolygon is involved (C163_decides_partial); returns without panic, reflexivity, what can change in the arguments, independence of the order of polygons that differ in size or lowest vertex. The full claims are refuted: Point equals PointZ (C163_type_violated), order of polygons that tie (C163_order_violated), arguments are reordered (C163_quiet_violated), nil *PointZ and empty interior rings panic (C163_returns_violated). Sorting is modelled for up to twelve polygons or rings; types of other packages and arguments that share memory are left out.

### C164 Triangulating with constraints gives triangles that have every constraint as a side (partial)

* Modelled: both Triangles with EnableConstraints true, on top of NewForPoints (C138), VertexIndex (C131), InsertConstraint (C160, C161) and Triangles.
* Proof: the triangles of any triangulation store cover the frame once (area sum, no Delaunay property needed) and their sides are the edges; induction over the constraints with the exact effect of one InsertConstraint; violations by kernel evaluation of one input.
* Theorems (`Props/ConstrainedTriangles`): `C164_witness_wellPosed`, `C164_violated`, `C164_geom_violated`, `C164_cover_violated`, `C164_constrained_partial`, `C164_geom_partial`, `C164_kept`, `C164_too_many`, `C164_geom_too_many`.
* Note: The full claim is violated for both types (C164_violated: an error for a constraint that crosses several edges; C164_geom_violated: no error and the constraint is not a side; C164_cover_violated: the triangles have a hole). Proved: if each constraint is a side already or crosses one side when its turn comes, the result is exactly the triangulation in which it has taken its place (C164_constrained_partial, C164_geom_partial), a constraint not crossed by a later one is kept (C164_kept), and a constraint that crosses more than 21 sides is an error for Constrained and silently dropped by GeomConstrained (C164_too_many, C164_geom_too_many). Exact arithmetic; the frame corners must be on the grid of a thousandth.

### C165 An extent is one rectangle, however it is looked at (proved)

* Modelled: `Verif/Model/Extent.lean`: the accessors, vertices, edges, polygon, containment and constructors of `Extent`.
* Proof: bounds of finite floats from their keys; the vertices are tight in the sense of C20; direct computation for order and edges; error of `NewExtentFromGeometry` by induction over geometries (`coords_err`).
* Theorems (`Props/ExtentShape`): `C165_nil`, `C165_corners`, `C165_around`, `C165_edges`, `C165_line_iff`, `C165_addPointers`, `C165_universe_iff`, `C165_universe_geom`, `C165_error_iff`.

### C166 Lists of floats are equal just if they can be paired off (partial)

* Modelled: `Verif/Model/Cmp.lean`: `FloatSlice` with any sorting function, `Float`.
* Proof: two sorts of one list agree up to the two zeros; soundness by carrying the pairing through the sorting permutations; completeness by exchanging partners (`pair_sorted`), induction over the sorted lists.
* Theorems (`Props/FloatSlice`): `C166_order_irrelevant`, `C166_permutations`, `C166_sound`, `C166_nonzero_partial`, `C166_violated`.
* Note: Soundness, independence of order, and permutations for all numbers; in full where no float is zero (C166_nonzero_partial). In full it is refuted (C166_violated): near zero the comparison is absolute and elsewhere by bits, so pairing the sorted lists can miss a pairing.

### C167 The winding of points with integer coordinates (partial)

* Modelled: `OfInt64Points`, `Orientation`, `Orient`, `xprod` over the rationals with every result rounded to 53 bits, ties to even (Model/Rounded). Range of exponents and fused multiply-add not modelled; C167_near holds with fusion as well since every intermediate result is exact there..
* Proof: Numbers of at most p bits are kept by rounding; integers bounded by 2^53 stay exact through the loop (induction with the bound as invariant). Error bound: monotone rounding keeps the running sum below 2·k·4^d, so each step errs by at most 2^-53 of that. Triangle: rounding is monotone, and two of the three products are zero..
* Theorems (`Props/RoundedWinding`): `C167_near_partial`, `C167_large_partial`, `C167_triangle_partial`, `C167_violated`.
* Note: For arbitrary int64 coordinates refuted (C167_violated): a triangle of area 1/2 with coordinates about 2^27 is said to be colinear. Proved with the rounding of float64 modelled: right whenever 2·D²·n ≤ 2^53 (C167_near_partial); right whenever the area exceeds a bound on the accumulated rounding (C167_large_partial); triangles never get the opposite winding (C167_triangle_partial).

### C168 Where lines and segments meet, in floating point (partial)

* Modelled: `LineIntersect`, `SegmentIntersect` with results rounded to 53 bits, `LineIntersectBigFloat` with 110 bits and its test of the denominator as a float64 (Model/Rounded)..
* Proof: Multiples of a power of two are closed under the operations, with bounds; all results before the division are exact. Rounding gives a nearest number (proved of roundTo) and keeps the order; a quotient above one of small integers is above one by more than the last bit. Then the theorems in exact arithmetic (C37, C73) apply..
* Theorems (`Props/RoundedLines`): `C168_line_partial`, `C168_big_partial`, `C168_segment_partial`, `C168_violated`, `C168_violated_big`, `C168_violated_segment`.
* Note: For arbitrary float64 refuted for all three functions: nearly parallel lines with coordinates about 2^27 (LineIntersect, SegmentIntersect), lines of length 2^-600 (LineIntersectBigFloat looks at the denominator as a float64). Proved with rounding modelled for coordinates that are multiples up to n of a common power of two, 8·n³ ≤ 2^53 (2^110 for big floats): report exactly if not parallel, coordinates nearest to the exact ones, segments decided exactly.

### C169 Containment of a point given by big floats (partial)

* Modelled: `ContainsPointBigFloat` with numbers rounded to 20 bits; the argument after the call is part of the result, since `SetPrec` works in place..
* Proof: Rounding is monotone, errs by at most 2^-20 of the number, gives a nearest number and keeps exactly the numbers of 20 bits..
* Theorems (`Props/RoundedLines`): `C169_found_partial`, `C169_near_partial`, `C169_short_partial`, `C169_caller_partial`, `C169_violated`, `C169_violated_kept`.
* Note: The full claims are refuted: a point beyond the box by 2^-30 is accepted (C169_violated), and the argument of the caller is rounded to 20 bits (C169_violated_kept). Proved: nothing inside is missed, what is accepted is within 2^-20, exact for numbers of 20 bits, and exactly what becomes of the argument.

### C170 Geometries as values of a database column (partial)

* Modelled: `Value`, `Scan`, `Extent`, `Encode` of `StandardBinary` with nil receivers, nil headers and values of all types a driver hands over (Model/GpkgScan); the receiver after the call is part of the result. The scanned bytes are taken not to be changed by the driver afterwards..
* Proof: Headers that were made or read are written and read as they are (decode_again, weaker hypotheses than in C14), then the round trip of WKB (C01); the rest by cases..
* Theorems (`Props/GpkgScan`): `C170_roundtrip_partial`, `C170_update_partial`, `C170_accepts_iff`, `C170_failed_scan_keeps`, `C170_value_error_iff`, `C170_extent`, `C170_violated`.
* Note: Storing and reading back is not the identity (C170_violated): the field SRSID is ignored by Value, which writes the id in the header. Proved for values whose srs id is that of the header and whose rings are open, and for any row that was read, altered and stored (C170_update_partial); what Scan accepts, that a failed Scan changes nothing, when Value fails and what Extent gives are proved in full.

### C171 Types of geometry columns (partial)

* Modelled: The type switches of `TypeForGeometry` (on the geometries as the interfaces see them, Model/GeoEqual) and `Empty`, and `String`..
* Proof: By cases; the number at the start of WKB through the wire relation of C05..
* Theorems (`Props/GpkgScan`): `C171_type`, `C171_wkb`, `C171_empty_partial`, `C171_names`, `C171_violated`.
* Note: Empty has no case for multipoint (C171_violated); for all other types, and for the numbers and names, proved in full.

### C172 Rounding to a number of decimals (partial)

* Modelled: `RoundToPrec` with `math.Pow10` (its tables) and `math.Round`, on finite `float64`s as rationals with correct rounding, subnormals and overflow (`Verif/Model/Float64.lean`). The sign of a zero is left out..
* Proof: `toFloat64` is shown to be the nearest `float64`, monotone and odd; 10^k is exact up to k = 22; then the error of the product is carried through the rounding. The violations are computed..
* Theorems (`Props/Float64`): `C172_violated`, `C172_violated_finite`, `C172_violated_nan`, `C172_decimal_partial`, `C172_order`, `C172_sign`, `C172_kept_partial`, `C172_again_partial`.
* Note: Violated as stated: 1.45 (a little less as a float64) is rounded to 1.5 (C172_violated), a large number becomes infinite (C172_violated_finite), a precision below -323 gives NaN (C172_violated_nan). Proved: for up to 22 decimals the answer is the float64 of a decimal that is next to the number but for the rounding of the product; order and sign for every precision; decimals are kept and rounding is idempotent within 2^53 and 2^50 units.

### C173 Expanding and scaling an extent (partial)

* Modelled: `ExpandBy`, `ScaleBy` and `NewExtent` of two points on the same floats; a nil extent (which stays nil) and infinities are left out..
* Proof: Monotonicity of the rounding and the case analysis of `NewExtent`; on a common grid all sums are exact..
* Theorems (`Props/Float64`): `C173_violated`, `C173_expand_partial`, `C173_expand_edges`, `C173_scale_edges`, `C173_scale_points`, `C173_in_order`, `C173_violated_back`, `C173_back_partial`.
* Note: Violated as stated: the unit square expanded by -3 grows (C173_violated), and a large expansion cannot be taken back (C173_violated_back). Proved: growth for every positive distance, shrinking as long as minus the distance is at most the width and the height; exact place of each edge; scaling with either sign; order of the result; taking back on a common grid.

### C174 A subdivision made of lines has the lines as its edges, and puts them in order around their ends (partial)

* Modelled: `NewSubdivisionFromGeomLines` with its map from points to edges, the choice of the neighbour by `ResolveEdge`, and the four ways a new edge is linked (`Verif/Model/FromLines.lean`); exact arithmetic, no tolerances; `NormalizeUniqueLines` is `Verif.Lines`.
* Proof: An invariant of the loop: every point of the map has one ring, whose edges start in the point and go to points of the map along lines seen so far, no two of them to the same point; a lemma says what linking a new edge does to all rings (by the theorem about `Splice`), and `ResolveEdge` always finds a neighbour. Connectivity of edges is then connectivity along lines. The refutations are concrete lines..
* Theorems (`Props/FromLines`): `C174_violated`, `C174_violated_order`, `C174_violated_frame`, `C174_edges_partial`, `C174_walk_partial`, `C174_frame_partial`.
* Note: The edges, the rings, the count and the box the frame stands on are proved for all lines. The claims about the order of the edges around a point, the order kept and the frame are refuted (C174_violated, C174_violated_order, C174_violated_frame).

### C175 Which documents the GeoJSON decoder takes (proved)

* Modelled: `Geometry.UnmarshalJSON` and `Unmarshal` of encoding/geojson over parsed documents (`Verif/Model/GeoJson*.lean`); numbers are read by a parameter; the grammar of the documents is `Verif/Spec/GeoJsonRead.lean`.
* Proof: The last member with a name is what the fold over the members finds; the decoders of positions and of nested arrays accept just the grammar, by cases and by induction on the arrays; the kinds are told apart by their names.
* Theorems (`Props/GeoJsonRead`): `C175_type`, `C175_coordinates`, `C175_collection`, `C175_null_geometries`, `C175_top`.
* Note: Equivalences for all geometry types; the two documents that make the decoder panic are named by C175_null_geometries.

### C176 New never harms a file, and makes a GeoPackage where there is none (partial)

* Modelled: `New`, `Open`, `nonZeroFileExists` and the statements of `initHandle` (`Verif/Model/GpkgOpen.lean`): what is under the name when it is looked up and when it is opened, a crash after any statement.
* Proof: Cases on what is under the name; every statement of `initHandle` leaves nothing to do for itself, and later ones keep that, so what ran before a crash is the identity the second time.
* Theorems (`Props/GpkgOpen`): `C176_violated`, `C176_violated_race`, `C176_new_partial`, `C176_open_partial`, `C176_crash_partial`, `C176_violated_crash`.
* Note: Violated: a name that cannot be looked up makes New panic (C176_violated), a file made after the look is changed (C176_violated_race), and New cannot be made again after a crash (C176_violated_crash). Proved: the answer and the effect of New for every kind of file if no one else is there, of Open for every kind, and that Open ends what a crash cut short.

### C177 Open may be called from several goroutines (partial)

* Modelled: the check and the registration of `drivername` by any number of goroutines, one step at a time in any order (`Verif/Model/GpkgOpen.lean`).
* Proof: A schedule has no goroutine twice, or has a first that comes twice; the state at that point is computed, and from there on an induction over the rest of the schedule says who panics.
* Theorems (`Props/GpkgOpen`): `C177_violated`, `C177_panics_partial`, `C177_safe_partial`.
* Note: Violated: two goroutines that both look before one registers (C177_violated). Proved: just which goroutines panic for every schedule, and that there is no panic once a call has been through.

### C178 The pixel ratio of a zoom holds for all its tiles (partial)

* Modelled: `PixelRatioForZoom`, `MvtPixelRationForZoom` and `Extent` of a tile over the reals (`Verif/Model/PixelRatio.lean`); `proj.Convert` is taken to be the spherical Mercator projection.
* Proof: The columns are 360/2^z degrees apart; the Mercator ordinate of the latitude of a row is linear in the row because arsinh (tan (arctan (sinh n))) = n.
* Theorems (`Props/PixelRatio`): `C178_violated`, `C178_width_partial`, `C178_mercator_partial`, `C178_arguments_partial`.
* Note: Violated: in degrees tiles are not as high as the ratio says (C178_violated). Proved: widths in degrees, widths and heights in Web Mercator, the defaults of the arguments, and when the answer is infinite.

### C179 The scale factor of UTM is 0.9996 in the middle of every zone (partial)

* Modelled: `ScalarFactor` over the reals (`Verif/Model/UtmScale.lean`)..
* Proof: The value on the equator is a polynomial with positive coefficients in the longitude. On a sphere the series is compared with 1/sqrt(1 - cos^2 sin^2): the square of the series times the radicand differs from 1 by the eighth power times a polynomial, bounded by compactness; the sine by its Taylor polynomial with remainder..
* Theorems (`Props/UtmScale`): `C179_equator_partial`, `C179_only_greenwich_partial`, `C179_symmetric_partial`, `C179_sphere_partial`, `C179_violated`.
* Note: Violated: longitudes are taken from Greenwich and not from the middle of the zone (C179_violated). Proved: the polynomial on the equator, that it is 0.9996 there only at Greenwich, the symmetries, and on a sphere that the series agrees with the exact scale up to the eighth power of the longitude. Not stated: an exact scale on an ellipsoid off the equator.

### C180 A tile becomes a message with all its layers (partial)

* Modelled: `VTile`, `VTileLayer`, `VTileFeature`, `encodeGeometry`, `SetExtent` (`Verif/Model/Mvt.lean`, `Verif/Model/MvtLayer.lean`), with an error and a panic as results..
* Proof: Induction over layers and features: the kind of outcome is that of the first feature that cannot be written..
* Theorems (`Props/MvtTile`): `C180_outcome_partial`, `C180_layers_partial`, `C180_extent_partial`, `C180_violated`.
* Note: Violated: a line without points panics (C180_violated). Proved: exactly when there is a message and exactly when there is a panic, what layers a message has, and the extent.

### C181 The winding of float64 points does not depend on how the ring is written (partial)

* Modelled: `xprod`, `Orient` and `Orientation` with the rounding of every operation to 53 bits (`Verif/Model/Rounded.lean`)..
* Proof: Rounding goes along with a change of sign and with powers of two, so a map that does so with every side goes along with the whole sum; a repeated point adds an exact zero to a sum that is a float. The witness is a triangle of floats, evaluated..
* Theorems (`Props/RoundedTurn`): `C181_violated`, `C181_violated_start`, `C181_mirror_partial`, `C181_scale_partial`, `C181_repeated_partial`, `C181_swap_partial`.
* Note: Violated: read backwards a thin triangle keeps its winding, and started elsewhere it changes it (C181_violated, C181_violated_start). Proved for all rings, with rounding: mirrored, turned, scaled and repeated points, and the last two corners of a triangle swapped. Infinities and the least exponents are not modelled.

### C182 Every tile message that the format allows is read (partial)

* Modelled: `DecodeByte` after `proto.Unmarshal` (trusted), `decodeLayer`, `decodeFeature`, `DecodeGeometry`; nil dereferences and the panic of the default case are a result of their own (`Verif/Model/MvtDecode.lean`)..
* Proof: Both loops are one scheme that stops at the first item not read; two inductions say when it succeeds and when it panics, the cases of a feature and a layer fill it in..
* Theorems (`Props/MvtDecode`): `C182_violated`, `C182_reads_partial`, `C182_panics_partial`, `C182_allowed_partial`.
* Note: Violated: a layer without extent, a feature without type and one of the unknown type panic (C182_violated). Proved: exactly which messages are read and as what, exactly which ones panic, and that what is allowed and leaves nothing out is read.

### C183 A tile written and read again is the same tile (partial)

* Modelled: `VTile` (C180) and the reader of C182; the wire carries the fields that the writer sets..
* Proof: The round trip of each kind of geometry is C07 and C08; it shows that no feature is dropped, and an induction over features and layers puts them together..
* Theorems (`Props/MvtDecode`): `C183_round_trip_partial`, `C183_violated`, `C183_collection_partial`.
* Note: Violated: the tags do not come back (C183_violated). Proved: names, ids, order, geometries and extents that fit in 32 bits come back, and the collection of all geometries.

### C184 Tolerant equality of floats is closeness of the numbers (partial)

* Modelled: The number that a bit pattern stands for, `Float64bits`, the sum with 1 rounded to 53 bits, `BitToleranceFor`, `New`, `NewForNumPrecision` (`Verif/Model/CmpNew.lean`), and `Compare.Float` of C26..
* Proof: The step from one pattern to the next is between 2^-53 and 2^-52 of the number; induction over the distance of two patterns gives bounds for the distance of the numbers. Rounding 1 + t rounds t to a multiple of 2^-52..
* Theorems (`Props/CmpNew`): `C184_violated`, `C184_violated_digits`, `C184_bits_partial`, `C184_equal_close_partial`, `C184_close_equal_partial`, `C184_zero_partial`, `C184_new_partial`, `C184_self_partial`.
* Note: Violated: floats closer than the tolerance may differ (C184_violated), and with sixteen digits no number equals itself (C184_violated_digits). Proved: the bit tolerance is the tolerance in units of 2^-52 to the nearest; equal numbers are closer than about the tolerance, numbers closer than about half of it are equal, next to zero exactly, and exactly when a number equals itself. Not modelled: tolerances that are not finite or below -1.

### C185 The extent of a hit map is the least box around its polygons (partial)

* Modelled: `Extent` and `Area` of the hit map of polygons and of a collection, on top of the hit maps of C116-C119, in exact arithmetic..
* Proof: Boxes are merged from the least boxes around rings; each of these starts from the zero extent, so the result is the least box around the origin and all vertices. By mutual induction over nested collections, as merging does not depend on the order. The claim without the origin holds exactly if the vertices reach to both sides of it. A point that is labelled inside was tested against the box first..
* Theorems (`Props/HitMapExtent`): `C185_extent_partial`, `C185_around_origin_partial`, `C185_inside_partial`, `C185_violated`.
* Note: The extent always includes the origin (C185_violated): it is the least box around the origin and the vertices, and right exactly if the vertices reach to both sides of it.

### C186 The parts of a collection's hit map are tried from the largest to the smallest (proved)

* Modelled: `New` for a collection with `ByAreaDec` and `NewOrderedHM`; the sort is any function that gives a permutation in which no later element is less than an earlier one..
* Proof: The reversed result of the sort is non-increasing in area, and consists of the hit maps of the members..
* Theorems (`Props/HitMapExtent`): `C186_largest_first`.
* Note: For every sort that only guarantees the order.

### C187 The orders of lines are orders (partial)

* Modelled: `LinesByXY.Less` and `LinesByLength.Less` with `cmp.PointLess` and `Line.LengthSquared`, in exact arithmetic; the tolerant equality of points is any function..
* Proof: If equality of starts is exact on the lines at hand, both orders are lexicographic and total, so that there is exactly one sorted list. A shorter line is less whatever the tolerance. Three lines whose starts form a chain within tolerance make a cycle..
* Theorems (`Props/LineOrders`): `C187_orders_partial`, `C187_by_points_partial`, `C187_by_length_partial`, `C187_shorter_partial`, `C187_violated`, `C187_violated_points`.
* Note: Refuted in full: starts that are within tolerance of a common one, but not of each other, make a cycle (C187_violated, C187_violated_points). Proved for lines whose starts are the same or apart.

### C188 The sign of a triangle's area tells its winding, in floats (partial)

* Modelled: `Triangle.Area` with the rounding of each operation to 53 bits, without over- and underflow and without fused operations..
* Proof: Rounding is monotone, so that if the differences to the first corner are exact the two products cannot change their order: the sign is never the opposite one. On a grid of 26 bits all steps are exact. Rounding commutes with the sign and with powers of two, which gives the symmetries. The thin triangle that refutes the full claim is computed by the kernel..
* Theorems (`Props/RoundedArea`): `C188_violated`, `C188_never_opposite_partial`, `C188_exact_partial`, `C188_symmetry_partial`.
* Note: Refuted in full by a thin triangle whose differences are rounded (C188_violated). Never the opposite sign if the differences to the first corner are floats; exact on a grid of 2^25; symmetries for all floats.

### C189 The circle test is right in floats (partial)

* Modelled: `Point.WithinCircle` with the rounding of each operation to 53 bits, as C188..
* Proof: On a grid of at most 3000 steps all products and sums are exact, and the determinant is the area times the difference of the squared distances from the centre of the circle, which exists for every triangle that is not flat. Two cases next to 2^26, one wrong each way, are computed by the kernel..
* Theorems (`Props/RoundedArea`): `C189_violated`, `C189_violated_centre`, `C189_grid_partial`, `C189_clockwise_partial`, `C189_scale_partial`.
* Note: Refuted in full for whole coordinates next to 2^26 (C189_violated, C189_violated_centre). Proved for coordinates on a grid of 3000 steps; scaling by powers of two for all floats.

### C190 The centre of a triangle is in the box around it, in floats (partial)

* Modelled: `Triangle.Center` with the rounding of each operation to 53 bits, as C188..
* Proof: On a grid of 2^51 the sums are exact and only the division rounds; rounding is monotone and keeps the corners, which are floats, so the result stays between them. For all floats the three rounding errors are added up. The triangle whose centre is left of it is computed by the kernel..
* Theorems (`Props/RoundedArea`): `C190_violated`, `C190_grid_partial`, `C190_near_partial`.
* Note: Refuted in full next to 2^53 (C190_violated). Proved for corners on a grid of 2^51 steps, where the centre is the float next to the centroid; a bound of three roundings for all floats.

### C191 The ends of a segment are on it, in floats (partial)

* Modelled: `Slope`, `IsPointOnLine` and `IsPointOnLineSegment` with the rounding of each operation to 53 bits, as C188; the comparison of numbers is a parameter..
* Proof: Forward error analysis: every intermediate is bounded by multiples of B, every rounding by a unit of it, and the errors are added up (16 for the ends, 9 for soundness, 4 for the slope). The violating segment is computed by the kernel..
* Theorems (`Props/RoundedOnLine`): `C191_violated`, `C191_ends_partial`, `C191_straight_partial`, `C191_sound_partial`, `C191_slope_partial`.
* Note: Refuted in full: a steep segment at x = 20000121 is off by eleven at its own end (C191_violated). Proved with an explicit error bound in terms of the slope for all segments, exactly for vertical and horizontal ones, and soundness with the same bound.

### C192 The triangle around points has them inside, in floats (partial)

* Modelled: `NewTriangleForExtent` and `NewTriangleContainingPoints` with the rounding of each operation to 53 bits, as C188..
* Proof: Each of the ten roundings is bounded absolutely, so the corners are within a half of the exact ones; that is less than the margin of the exact triangle, and the weights that put a point inside are written down. The flat triangle is computed by the kernel..
* Theorems (`Props/RoundedFrame`): `C192_violated`, `C192_inside_partial`, `C192_no_points_partial`, `C192_corners_partial`.
* Note: Refuted in full at 2^60, where adding the constant 10 does nothing and the triangle is flat (C192_violated). Proved for all lists of points with coordinates of up to 2^44, with a bound on how far the corners are off.

### C193 The square of a distance, in floats (partial)

* Modelled: `PointDistance2` on finite `float64`s with all exponents, also the subnormal ones (Model/Float64.lean); `none` is the infinity..
* Proof: Rounding is monotone, odd and keeps powers of two, which gives symmetry, sign, order and the limits of what is lost; the errors of the five roundings are added up for the accuracy..
* Theorems (`Props/Float64Distance`): `C193_too_near_partial`, `C193_violated`, `C193_not_zero_partial`, `C193_symmetric_partial`, `C193_monotone_partial`, `C193_right_partial`.
* Note: Refuted in full by underflow: different points nearer than 2^-538 have the distance zero (C193_violated, C193_too_near_partial). Symmetry, sign and monotonicity proved for all floats; finite, not zero and right up to six units of rounding for distances between 2^-500 and 2^510 along the axes.

### C194 Positions in a tile are right in floats, except just beyond the right and the lower side (partial)

* Modelled: preparept with each subtraction, division and product rounded to 53 bits (Model/RoundedPixel)..
* Proof: Rounding keeps order and sign and leaves 53-bit numbers alone, so the quotient of a point in the tile is at most one; the error bound is composed from the four relative errors. The full claim is refuted by a tile of size 2^53..
* Theorems (`Props/RoundedPixel`): `C194_violated`, `C194_inside_partial`, `C194_sign_partial`, `C194_sides_partial`, `C194_order_partial`, `C194_near_partial`.
* Note: The full equivalence is refuted: a point just right of the tile may get the pixel of its right side. Proved: points in the tile stay in the square; sides go to sides exactly; the sign at the left and upper side is exact; order is kept; the error is at most five units of 2^-53.

### C195 A triangle of a subdivision intersects just the points in it (partial)

* Modelled: IntersectsPoint with its loop over the store of edges, with Classify of C129 (Model/SubTriangle); exact arithmetic..
* Proof: A point is in the triangle just if it is on the inner side of the three lines; each classification decides the matter or gives one of the three signs. The violation is a new subdivision with the y axis down..
* Theorems (`Props/SubTriangle`): `C195_up_partial`, `C195_down_partial`, `C195_violated`.
* Note: Proved for a y axis that points up. Refuted for one that points down: Classify does not know of the direction of the axis, and every point inside is then said to be outside (also proved).

### C196 The neighbours of a triangle are found (partial)

* Modelled: SharedEdge with both loops (the inner edge is not set back), OppositeVertex, OppositeTriangle (Model/SubTriangle)..
* Proof: RNext on the right is LNext on the left of the reversed edge, so the ends of the three sides are known and three steps lead back; the loops are then evaluated for all outcomes. The violation is a subdivision of three triangles made by New and InsertSite..
* Theorems (`Props/SubTriangle`): `C196_shared_edge_partial`, `C196_violated`, `C196_own_vertex_partial`, `C196_opposite_triangle_partial`.
* Note: SharedEdge and OppositeTriangle are proved exactly. OppositeVertex is refuted: it gives the corner of the triangle itself, not of the other one (proved for all pairs).

### C197 The geometry of a triangle of a subdivision is its corners, counterclockwise (proved)

* Modelled: AsGeom with its loop over the store of edges (Model/SubTriangle), Area as in C78..
* Proof: The ends of the three sides as for C196; turning round a triangle keeps its sense..
* Theorems (`Props/SubTriangle`): `C197_as_geom`.
* Note: For every triangle to the right of an edge.

### C198 Eastings and northings for NATO are the metres in the square (partial)

* Modelled: NatoEasting, NatoNorthing over the reals: conversion towards zero, remainder with the sign of the dividend (Model/UtmNato)..
* Proof: Floor and remainder of numbers that are not negative; the metres in a square are unique. Negative numbers by mirroring..
* Theorems (`Props/UtmNato`): `C198_violated`, `C198_metres_partial`, `C198_negative_partial`.
* Note: Refuted for negative coordinates, where the results are negative (the mirrored metres, proved). Proved exactly for all coordinates that are not negative. Numbers beyond the range of int are left out.

### C199 The bounding boxes of an R-tree are layers of groups (proved)

* Modelled: `GetAllBoundingBoxes` with the recursion over nodes and the loop over entries, on the tree of C41 (`Model/RTreeBoxes.lean`).
* Proof: the well-formedness invariant of C41 holds for every reachable tree; by induction on the level the boxes are a permutation of as many layers as there are inner levels, each layer partitions the stored objects and has the least box around each group (the box around boxes is the box around what is in them).
* Theorems (`Props/RTreeBoxes`): `C199_layers`, `C199_boxes`.
* Note: For trees reached by histories or bulk load as in C41, over any linear order of coordinates; the order in which the boxes are listed is left open.

### C200 The tiles of bounds are the tiles of the places in them (partial)

* Modelled: `FromBounds` with a `Grid4326`, on the real-number model of the degree formulas of C58 (`Model/SlippyBounds.lean`).
* Proof: columns grow with the longitude up to the nudge at 180 degrees and rows fall with the latitude (floors of monotone maps, with the clamps at the edges); conversely the corner of a column or row strictly between those of the corners lies in the bounds and is found in it (C58); for row 1 of zoom 22 a latitude just below the limit is taken, with bounds on exp and sin.
* Theorems (`Props/SlippyBounds`): `C200_violated`, `C200_covered_partial`, `C200_needed`, `C200_exact_partial`.
* Note: Over exact reals. Violated for bounds that reach 180 degrees east (C200_violated): places within a millionth of a pixel west of it get a tile that is not listed. C200_covered_partial: all other places are covered; C200_needed: no tile is listed needlessly; C200_exact_partial: the full claim for bounds that end before 180 degrees.

### C201 The size of a zoom counts the tiles that can be found (partial)

* Modelled: `Zoom.TileSize` and `Size` of both grids (`Model/SlippySize.lean`), with the degree formulas of C58.
* Proof: tiles found for places lie in the grid (C59); conversely the column edge and the row edge (or a latitude just below the limit for row 1 of zoom 22) are found in their tile; the corner by evaluating the formulas at `2^z`.
* Theorems (`Props/SlippySize`): `C201_violated`, `C201_size_partial`, `C201_corner`.
* Note: Over exact reals. Violated just west of 180 degrees (C201_violated), where a column beyond the size is found. C201_size_partial: exact for all other places; C201_corner: the tile named by the size has the lower right corner of the map.

### C202 Colinear lines in floats are what they are in exact arithmetic (partial)

* Modelled: `AreLinesColinear` with each operation rounded to 53 bits (`Model/RoundedColinear.lean`).
* Proof: the rounded difference of two products is zero exactly if the rounded products are equal, so equal products give zero when the differences are exact; on a grid all operations are exact; the comparisons of the box do not round.
* Theorems (`Props/RoundedColinear`): `C202_violated`, `C202_found_partial`, `C202_box_partial`, `C202_exact_partial`.
* Note: Floats without over- and underflow. Violated (C202_violated) by two lines from the origin whose directions differ by less than the rounding. C202_found_partial: none is missed if differences are floats; C202_box_partial: the box test is never wrong; C202_exact_partial: the full claim on grids of 2^25.

## Where the code does not do what it says

Found while modelling.  "Proved" means that a theorem of the named property
contains the concrete witness (a `_violated` theorem or one that states the
behaviour exactly).

### Proved

* **extent**: `ContainsGeom` starts from the zero extent, so the box always
  includes the origin (C23).  `NewExtent` of a NaN first point contains nothing.
* **gpkg**: magic bytes unchecked without envelope (C15); `NewBinary` writes the
  envelope in the wrong order (C52).
* **mvt**: `RemoveFeature` is a no-op (C12); `int` and `uint` tags are written
  empty (C09); decoding short line and polygon messages panics (C53); a flat
  exterior ring is dropped while its holes stay (C08).
* **winding**: `RectifyPolygon` reverses the caller's rings (C32).
* **cmp**: `MultiLineEqual` is not symmetric (C30); `PolygonEqual` reorders its
  arguments, panics for two empty interior rings and depends on the order of
  rings (C56); `LineStringEqual` is rotation invariant only with a unique least
  vertex (C29); tolerant equality is not transitive, and not symmetric for the
  smallest bit tolerance (C26); `SetDefault` is no atomic swap (C57).
* **wkb**: rings that start with NaN gain a point (C01).
* **wkt**: numbers written as `e+NN` are refused (C16); `EMPTY` and rings
  `[a,b,a]` are written but not read (C64); trailing commas in collections and
  trailing garbage are accepted (C62).
* **geojson**: `Marshal` changes the caller's polygon and corrupts rings that
  share an array (C18); nil slices become null and panic when read (C19);
  features without geometry (C65); null members panic (C66); missing numbers
  read as 0 (C67).
* **slippy**: `NewTileMinMaxer` compares the extent with itself (C60); `lon2Num`
  can return a column outside the grid (C59); the corner of row 1 of zoom 22 is
  found in row 0 (C58).
* **planar**: `PerpendicularDistance` is 0 for a degenerate line (C69);
  `Simplify` leaves empty rings (C72); `PointsCentriod` divides by the last term
  (C77); `AreLinesColinear` is wrong both ways (C74).
* **shapes**: `AsSegments` panics for small counts (C79); `Line.ContainsPoint` is
  a box test (C81); `NewTriangleForExtent` misses corners for buffers below 1
  (C45).
* **clip**: a segment through the corner (maxx, miny) is dropped (C103);
  one-point lines and repeated points at the border (C104).
* **R-tree**: bulk load and then insert corrupts the tree; deleting everything
  and then inserting panics (C41); abort of a filter ends only the loop over one
  leaf (C86); `NearestNeighbors(0)` panics (C89).
* **walker**: closed ring with leftmost first point panics (C105); a spike to the
  left loses the area (C106); a point visited three times stays twice (C107);
  hole and outside swapped (C110).
* **makevalid**: duplicates left by `unique` (C47); ended context gives
  `(nil, nil)` (C115, C121); a polygon is turned inside out (C120); typed nil
  (C122).
* **hitmap**: island in the hole of another polygon is Outside (C116); points are
  rounded to 20 bits (C116); a clip box makes nearly everything Outside (C117).
* **utm**: zone 61 at 180° and 32X at 84° (C49); longitudes below −180 (C97);
  panic in the first kilometre of every 2000 km (C99); column letter X twice
  (C100); `*720` instead of `/720` in `ToLngLat` (C102).
* **quadedge**: splicing an edge with a dual edge breaks the algebra (C43); walks
  stop early at a loop (C95); `ResolveEdge` names the wrong edge for a point
  beyond the end of the first half of a straight pair (C128).
* **subdivision**: `Triangles(true)` also lists the outside of the frame, as a
  triangle that turns the wrong way and covers all others (C137).
* **subdivision**: `InsertSite` refuses the origin of the starting edge, and a
  point on the starting edge takes that edge out of the subdivision (C134,
  C136).
* **delaunay**: the finite frame loses flat triangles of the hull, so three points
  that are nearly in line get no triangle (C139); `Constrained.Triangles` rounds
  the caller's points in place (C140).
* **pseudopolygon**: a simple ring is refused as colinear (C125); edges of a
  sub-ring are dropped (C127).

### Seen while reading, no theorem

* `Extent.Area` on nil; `gpkg.EncodeTo` on a nil header returns an error.
* `FromBounds` does not end when the last tile is the largest unsigned number.
* mvt: NaN float tags are an error; keys of nil values are added; `encodeGeometry`
  panics on an empty line string; counts from 2^29 on are cut; `preparePolygon`
  panics when `preparelinestr` returns nil.
* kd-tree: points with NaN are stored repeatedly.
* hitmap: `LabelFor` panics on NaN; the ring box includes the origin; `didClip` is
  always true for polygons.
* R-tree: `condenseTree` re-attaches underfull nodes whole; `boundingBoxN` panics
  on no boxes; `chooseNode` panics when all enlargements are infinite or NaN;
  negative k panics; the margin 1e-5 of `rectForSegment` vanishes for large
  coordinates; `MaxChildren` 1.
* segment index: results unsorted on abort; an index over fewer than two segments
  is nil.
* quadedge: `ErrCoincidentalEdges` never given for rows 20 and 21; the comment of
  `Classify` names the wrong point; the brute-force fallback of `locate` is
  discarded; `FindIntersectingEdges` gives up after 21 steps; `NewForPoints` rounds
  the caller's points in place; `startingEdge` is never updated.
* utm: the south-pole test is impossible; letter `I` is accepted.
* parsing: `GetSeq1` cuts multi-byte characters; `EncodeSymbol` panics from 2^56 on.
* walker: dead branches in `RingForTriangle`.
* mvt `PrepareGeo`: a polygon ring of two or more points that collapses to one pixel
  position makes the call panic (prepare.go:132, index into a nil slice; C142); an
  outer ring of one point is skipped and the first hole becomes the outer ring (C143).
* gpkg triggers: the trigger `update3` is `AFTER UPDATE OF` the geometry column, so
  changing the key alone leaves the index wrong; `INSERT OR REPLACE` of a row without
  geometry leaves the old entry (C144).
* gpkg `AddGeometryTable`: does not index the rows that are there (C145); drops a
  second geometry column from the metadata silently (C145); index and trigger names
  are not quoted in the triggers, and `rtree_T_C` is ambiguous (C146); no transaction,
  and once the index exists the call cannot be repeated (C147).
* gpkg `UpdateSRS`: documented to insert or update, but does nothing on conflict (C149).
* gpkg `CalculateGeometryExtent`: drops the error of `Scan` (harmless, C151); one NaN
  makes the extent NaN (C151).
* Setters write into the array of the receiver: after `b = a`, or when an S type or a
  getter's result shares the array, setting `a` changes the other (C153).
* `SetLinearRings`, `SetLineStrings`, `SetPolygons` copy the inner slices without their
  points, so later changes of the argument change the geometry (C155).
* `spherical.Hull`: with longitudes more than 360 degrees apart the region is up to 220
  degrees wide (C156).
* `planar.NormalizeUniqueLines`: drops all of a chain of close segments but the first,
  compares with the dropped segment before (C157); it sorts and overwrites the slice of
  the caller.
* `AsSegments` of PolygonS, PolygonZS, PolygonMS, PolygonZMS: SRID 0 for a polygon
  without rings (C158).
* `FindIntersectingEdges`: with a point of the subdivision on the segment it returns edges
  that the segment only touches (for (0,0)-(40,0) with (20,0) between them, four edges,
  of which none is crossed), which `InsertConstraint` then deletes (C160).
* `InsertConstraint`: with (2,1), (4,3), (-3,-3), (3,3), (1,0), (4,1), the constraint (-3,-3)-(4,3)
  gives no error and a subdivision that is not a triangulation: `pseudopolygon.Triangulate`
  returns an edge outside the points on one side (C161).
- **C162** quadedge/edge.go:321 `segs = append(segs, e.AsLine())` adds the line of the edge `Validate` was called with, once per round, instead of the line of `ee`; the search for self-intersections that follows compares a line with itself and finds nothing. (With the right line it would find nothing either: all lines share the origin, and `connected` is true.) `C162_apart_violated` has the consequence.
- **C162** quadedge/edge.go:349-362 only the sums of left and right turns are tested, so edges in the wrong order round a point pass if there are enough others (`C162_order_violated`).
- quadedge/edge.go:327, 335 the destinations of the next and the previous edge are used without a test for nil, before the walk comes to them: the error "dest is nil" can only be given for the first edge, others panic.
- **C163** cmp/compare.go:300 `GeometryEqual` is documented to check that the geometries are of the same type; it checks that they satisfy the same interface, so a `Point` equals a `PointZ` or `PointM` with any z or m, a `Line` a `LineString`, an `*Extent` the line string of its corners, a `Triangle` a `Polygon` (`C163_type_violated`).
- **C163** cmp/by_xy.go:45-57 polygons with exterior rings of one length and with the same lowest vertex tie, so two orders of a multipolygon with such polygons do not compare equal (`C163_order_violated`); and line 46 makes `Less` true both ways for two polygons without rings.
- **C163** cmp/compare.go:190-191, 268-269 sort the caller's rings and polygons (`C163_quiet_violated`); two goroutines comparing the same polygon write to it both.
- **C163** cmp/compare.go:202, 231, 250 `geo == NilPoint` is false of a nil `*PointZ` or `*PointM`, likewise nil `*Line`, `*Triangle`: the method call that follows panics (`C163_returns_violated`); cmp/by_xy.go:37 panics for two empty interior rings.
- **C162** quadedge/edge.go:327-335 dereference the destination of the next and previous edge: `Validate` panics on an edge without an end that follows one with both, instead of reporting it (`C162_returns_violated`).
- **C164** planar/triangulate/delaunay/constrained.go:87-95 `GeomConstrained.Triangles` only logs an error of `InsertConstraint`, which has taken the crossed edges out by then: for the points (4,4), (0,-3), (-2,-3), (-2,0), (-2,-4), (-1,2) and the constraint (-2,-4)-(4,4) the triangles returned have a hole round (5/2,5/2), no error is returned, and the constraint is not a side (`C164_geom_violated`, `C164_cover_violated`). `Constrained.Triangles` returns an error for the same valid input (`C164_violated`).
- **C164** a constraint that crosses more than 21 edges is an error of `Constrained.Triangles` and is dropped without an error by `GeomConstrained.Triangles` (`C164_too_many`, `C164_geom_too_many`).
- **C166** cmp/compare.go:63-82 `FloatSlice` pairs the sorted lists in order, while `Float` is absolute next to zero and relative elsewhere: `[0, 1e-300]` and `[1e-300, 0.00005]` are not equal under a tolerance of 0.0001 although 0 equals 0.00005 and 1e-300 equals 1e-300 (`C166_violated`).
- **C167** winding/winding.go:181-190 the sum for integer points is made in floats; the ring (0,0), (2^27, 2^27-1), (2^27+1, 2^27) has area 1/2 and is said to be colinear (`C167_violated`); encoding/mvt/feature.go:202 drops such rings. Tiles of 4096 units are far from it.
- **C168** planar/line_intersect.go:95 `LineIntersectBigFloat` tests the denominator as a float64, where it underflows: two lines of length 2^-600 at a right angle are said not to meet (`C168_violated_big`).
- **C169** line.go:65 `ContainsPointBigFloat` calls `SetPrec(20)` on the floats of the caller, which are rounded for good (`C169_violated_kept`); 20 bits are fewer than a float64 has, so the function with big floats is less exact than the one without (`C169_violated`).
- **C170** encoding/gpkg/binary_header.go:316-328 `Encode` and `Value` write the srs id and the envelope of the header: setting the exported fields `SRSID` or `Geometry` of a `StandardBinary` stores the old id and the old envelope (`C170_violated`, `C170_update_partial`).
- **C171** encoding/gpkg/gpkg_no_cgo.go:105-123 `Empty` lacks a case for `MultiPoint` and returns the error "need concreate geometry" (`C171_violated`).

- **RoundToPrec** (geom.go:549-558): the product with the power of ten is rounded before `math.Round`, so 1.45 (1.4499999…) becomes 1.5; a number above about 1e286 becomes infinite with 22 decimals; a precision above 308 or below -323 gives NaN (C172).
- **Extent.ExpandBy** (bbox.go:314-322): a negative distance larger than the width turns the extent inside out and `NewExtent` puts it back in order, so the result grows instead of being empty (C173).
- `NewSubdivisionFromGeomLines` (C174): when both ends of a line are known, the new edge is made by `Connect(oe.Sym(), de, order)`, which splices it in before `oe` at the origin (`a.LNext()` is `oe.OPrev()`), while `ResolveEdge` chose `oe` because the new edge comes after it. With two or more edges at the origin the ring is out of order (`C174_violated`: lines (0,0)-(1,0), (0,0)-(2,1), (1,0)-(2,-1), (1,0)-(2,1)).
- `NewSubdivisionFromGeomLines` does not set the field `Order` of the subdivision, so a subdivision made with `YPositiveDown` behaves as one without (`C174_violated_order`).
- `NewSubdivisionFromGeomLines` makes the frame with a margin of 0, so that it does not contain the upper corners of the extent (`C174_violated_frame`).
- **C176** `nonZeroFileExists` uses the result of `os.Stat` unless the error is `IsNotExist`; for any other error (a part of the path is a file, or may not be searched) `info` is nil and `New` panics (`C176_violated`). The look and the opening are two steps, so a file made in between is opened and changed (`C176_violated_race`); after a crash in the first call the file is not empty and `New` refuses it (`C176_violated_crash`). `Open` writes 10201 over the version of any GeoPackage (example beside `C176_open_partial`).
- **C177** `drivername` looks for the driver and registers it in two steps; with two goroutines in `Open` for the first time the second registration panics (`C177_violated`).
- **C178** `PixelRatioForZoom` says "the ratio of pixels to projected units" but returns units for each pixel, from the width alone; in EPSG 4326 tiles are not square, so the value does not hold along the y axis (`C178_violated`). An error of the grid is dropped and gives +Inf (`C178_arguments_partial`).
- **C179** planar/coord/utm/utm.go:20 `l0 = 0`: `ScalarFactor` takes longitudes from Greenwich and not from the central meridian of the zone, so the scale is right only where a caller has already subtracted it (`C179_violated`). It squares its argument `e`, while the field `Eccentricity` of `Ellipsoid` holds the square already: the two must not be mixed.
- **C180** encoding/mvt/feature.go:313-326 `encodeGeometry` takes `points[0]` of a line without looking: an empty line, also among several lines, panics and with it the whole tile (`C180_violated`).
- **C181** winding/winding.go:151-168 `Orientation` subtracts the first point and sums products, each rounded: the triangle (-1 0, 1 1, 10578094473700376 12263323356261706) is called counter-clockwise read from either end, and clockwise when it starts at its last corner (`C181_violated`, `C181_violated_start`).
- **C182** encoding/mvt/decode.go:65 and 83: `*pb.Extent` and `*pb.Type` are dereferenced although the message may leave both out (the format gives 4096 and UNKNOWN as defaults, and the generated code has `GetExtent` and `GetType` for it): such tiles panic, and so do features of the type UNKNOWN, which the format allows (`C182_violated`).
- **C183** encoding/mvt/decode.go:79-85 drops all tags, keys and values (a TODO in the code; `C183_violated`).
- **C184** cmp/compare.go:28-31 `NewForNumPrecision` with 16 or more digits gives a bit tolerance of 0, with which no number but the zeros and the infinities equals itself (`C184_violated_digits`, `C184_self_partial`). The tolerance of `New` is worth between the tolerance and half of it, depending on where in its binade a number is (`C184_violated`).
- **C185** `planar/makevalid/hitmap`: the extent of a hit map (`PolygonHM.Extent`, `OrderedHM.Extent`) starts from the zero extent (`new(geom.Extent)`), as does that of a ring, so it always includes the origin; area and the order by area are those of the enlarged box. `ByAreaDec` sorts in ascending order in spite of its name; only the reversal in `NewOrderedHM` puts the largest first.
- **C187** planar/line_helpers.go:22-27, 45-55: the orders `LinesByXY` and `LinesByLength` decide by a tolerant equality which pair of points to compare exactly. Three lines of the same length, starting within tolerance of the next, can make a cycle (`C187_violated`), for which the result of `sort.Sort` depends on the order given.
- **C188** triangle.go:74-77 `Triangle.Area`: for corners whose differences are rounded the sign can be the opposite one; (1.5 0.75, 9007199254740991 9007199254740986, 9007199254740990 9007199254740985) has twice the area -17/4 and gives 2^53 (`C188_violated`).
- **C189** point.go:91-102 `Point.WithinCircle` multiplies areas by squared distances from the origin: next to 2^26 (the size of Web Mercator coordinates in steps of 0.3 m) it says that the centre of a circle of radius 1 is outside of it, and that a point outside is inside (`C189_violated`, `C189_violated_centre`). Taking differences to the tested point first would avoid it.
- **C190** triangle.go:34-38 `Triangle.Center` adds first and divides then: the centre of (9007199254740975 0, 9007199254740974 3, 9007199254740974 6) is left of all three corners (`C190_violated`); about one float in six is not the centre of three times itself.
- **C191** planar/planar.go:35-79 `Slope` and `IsPointOnLine` go through the intercept with the y axis: for a steep segment far from the axis, as in Web Mercator, the terms cancel. The end (20000121 11) of the segment to (20000121.0009765625 10000120) is computed at 0 instead of 11 and so is not on the segment for a tolerance of one (`C191_violated`). Taking differences to one end would avoid it.
- **C192** triangle.go:101-123 `NewTriangleForExtent`: the buffer is an absolute 10, which is lost on coordinates from 2^57 on; for a single point at (2^60 0) the triangle is flat (`C192_violated`). Harmless for coordinates in metres.
- **C193** planar/distance.go:20-24 `PointDistance2`: without scaling (as `math.Hypot` does) the squares underflow to zero for different points nearer than 2^-538 and overflow from 2^512 on (`C193_violated`). Of no concern for coordinates on the earth.
- **C194** A point that lies outside the tile, less than half a unit of rounding beyond its right or lower side, is given the pixel of that side, so it counts as inside. Left and upper sides are exact.
- **C195** Triangle.IntersectsPoint (subdivision/triangle.go:16) uses Classify, which takes the y axis to point up. In a subdivision whose order has y pointing down it is false for every point inside the triangle.
- **C196** Triangle.OppositeVertex (subdivision/triangle.go:50) is documented to give the vertex of the other triangle. SharedEdge walks with RNext and so has the triangle on the right of the edge it returns, not on the left as its comment says; `ae.Sym().ONext().Dest()` is then the third corner of the triangle itself.
- **C198** NatoEasting and NatoNorthing are negative for negative coordinates (a coordinate one metre before the beginning of a square gives -1, not 99999).
- **C200** `FromBounds` with bounds that end at 180 degrees east does not list the tile that `FromNative` gives for places less than a millionth of a pixel west of 180 degrees: the nudge puts them into column `2^z`, while 180 degrees itself is clamped to column `2^z - 1` (slippy/maths.go:109-118).
- **C201** the same nudge yields a column equal to the size of the zoom, for which there is no tile.
- **C202** `AreLinesColinear` calls the lines from (0,0) to (134217728, 134217727) and from (0,0) to (134217729, 134217728) colinear, which meet only in the origin: both products round to the same float (planar/line_intersect.go:24).

## Trusted base

* The Lean kernel, and of its axioms at most `propext`, `Classical.choice`
  and `Quot.sound` (listed below).  No axioms are added, no `sorry`,
  `native_decide`, `bv_decide`, `implemented_by` or `unsafe` is used.
* The hand translation from Go to Lean, documented by the citations.
* Behaviour of the Go standard library and of vendored libraries where a
  parameter stands for it: `strconv` (number formatting and parsing, with a
  read-back hypothesis), `encoding/json` (text layer), `sort` (any arrangement
  allowed by `Less`), `container/heap` (any valid heap), protobuf (the
  message struct is the output), `math` transcendental functions (real
  functions), `context`.

### Not modelled

* SQLite and SpatiaLite themselves (`encoding/gpkg/gpkg.go` is modelled by what its
  statements do to the tables; opening files is not), `cmd`, `internal/debugger`,
  `internal/test`, `testing`, `*/debug.go`, generated protobuf code, the fuzz
  and test-case helpers of wkb and wkt.
* Of the geometry types with Z, M and SRID (`pointz.go`, …) the plain field getters and
  setters.
* `planar/clip/clip.go` dispatch on geometry type, `slippy` `Grid`,
  `geojson.MarshalIndent`.
* `delaunay/constrained.go` with `EnableConstraints` set: the
  triangulation is a parameter wherever `makevalid` uses it.
* Memory limits, integer overflow of lengths (unless a property names it).

### Axioms each theorem depends on

* no axioms: `C11_nil`, `C12_remove_is_noop`, `C21_contains_nil`, `C27_nan`, `C165_addPointers`, `C165_around`, `C171_names`.
* propext: `C05_wkb_bad_bom`, `C18_closed_meaning`, `C18_violated`, `C18_violated_shared`, `C21_contains_refl`, `C22_intersect_universe`, `C23_containsGeom_point`, `C23_containsGeom_violated`, `C24_extractLines_error_iff`, `C24_getCoordinates`, `C24_getCoordinates_error_iff`, `C25_applyToPoints_fails`, `C25_applyToPoints_visits`, `C25_not_simple`, `C33_callback`, `C34_irrefl`, `C40_end_is_final`, `C41_violated`, `C43_violated`, `C48_panics`, `C51_isEmptyGeo_known`, `C60_violated`, `C65_violated_read`, `C66_violated_more`, `C72_violated`, `C80_third_point`, `C130_order`, `C149_kept_partial`, `C149_violated`, `C152_error_iff`, `C153_violated`, `C154_error_iff`, `C158_violated`, `C159_edges`, `C165_edges`, `C165_error_iff`, `C165_line_iff`, `C165_universe_geom`, `C176_violated`, `C176_violated_crash`, `C176_violated_race`.
* propext, Quot.sound: `C01_wkb_nan_ring_not_preserved`, `C04_wkb_any_writer`, `C04_wkb_encode_some_iff`, `C04_wkb_no_write_after_failure`, `C06_command_count_mod`, `C09_violated`, `C10_call`, `C10_layers_stay`, `C10_names_unique`, `C11_flatten`, `C12_dropped_list`, `C12_feature_list_partial`, `C12_violated`, `C13_flags_faithful`, `C13_flags_injective`, `C14_newHeader_iff`, `C15_header_accepts_partial`, `C15_violated`, `C18_again_partial`, `C18_multi_partial`, `C18_rings_partial`, `C20_extent_order_irrelevant`, `C20_newExtent_tight`, `C21_contains_antisymm`, `C21_contains_iff_points`, `C21_contains_trans`, `C22_intersect_comm`, `C22_intersect_none`, `C23_containsGeom_unknown`, `C24_extractLines`, `C24_lineString_asSegments`, `C24_multiLineString_asSegments`, `C24_multiPolygon_asSegments`, `C24_polygon_asSegments`, `C24_ring_closed`, `C25_applyToPoints_comp`, `C25_applyToPoints_id`, `C25_applyToPoints_map`, `C25_applyToPoints_shape`, `C25_clone_eq`, `C26_not_transitive`, `C26_symm_needs_bit`, `C26_zero`, `C27_irrefl`, `C29_rotation`, `C29_unique_needed`, `C30_meaning`, `C30_violated`, `C31_closing_point`, `C31_flip_axis`, `C31_rotate`, `C31_translate`, `C35_error_iff`, `C39_duplicate`, `C39_is_a_set`, `C39_well_formed`, `C40_sorted_complete`, `C41_bulk_insert_violated`, `C43_apply`, `C50_lines`, `C53_point_never_panics_partial`, `C53_violated`, `C54_cancel_all_or_nothing`, `C54_cancel_noticed`, `C56_mutates`, `C56_violated`, `C57_no_stray_value`, `C60_min_corner_partial`, `C62_accepts_exactly`, `C62_terminates`, `C62_unambiguous`, `C64_violated`, `C64_violated_ring`, `C66_violated`, `C68_order`, `C86_violated`, `C87_small`, `C95_violated`, `C96_stack`, `C123_clipped`, `C123_not_clipped`, `C123_triangulation_error`, `C128_same_point`, `C140_points_partial`, `C141_other`, `C144_replace_violated`, `C149_first_wins_partial`, `C149_open_again_partial`, `C150_call`, `C150_nan`, `C151_unknown`, `C151_violated`, `C155_violated`, `C157_given_partial`, `C158_edges_partial`, `C158_srid_partial`, `C159_flat`, `C162_context`, `C163_order_violated`, `C163_quiet_violated`, `C163_returns_violated`, `C163_type_violated`, `C165_corners`, `C170_accepts_iff`, `C170_failed_scan_keeps`, `C170_value_error_iff`, `C170_violated`, `C171_empty_partial`, `C171_type`, `C171_violated`, `C176_crash_partial`, `C176_new_partial`, `C176_open_partial`, `C177_panics_partial`, `C177_violated`, `C180_extent_partial`, `C180_layers_partial`, `C182_violated`, `C186_largest_first`, `C187_shorter_partial`.
* propext, Classical.choice, Quot.sound: `C01_wkb_roundtrip`, `C01_wkb_roundtrip_open`, `C02_wkb_stream`, `C03_wkb_truncated`, `C04_wkb_limited_writer`, `C05_wkb_bad_code`, `C05_wkb_bad_member`, `C05_wkb_decode_iff_wire`, `C06_command_roundtrip`, `C06_zigzag_lossy`, `C06_zigzag_onto`, `C06_zigzag_roundtrip`, `C06_zigzag_standard`, `C07_lineString`, `C07_multiLineString`, `C07_multiPoint`, `C07_point`, `C08_degenerate_exterior_lost`, `C08_multiPolygon`, `C08_polygon`, `C08_windings`, `C09_tags_resolve_partial`, `C09_values_distinct`, `C10_error_iff`, `C14_blob_roundtrip`, `C14_header_roundtrip`, `C14_newBinary_roundtrip`, `C15_header_reencode`, `C16_plus_refused`, `C16_round_trip`, `C16_round_trip_general`, `C17_prefix_refused`, `C19_nil_panics_partial`, `C19_roundtrip_partial`, `C19_violated`, `C19_writes_iff`, `C20_addPoints_tight`, `C20_add_join`, `C20_newExtentFromGeometry_tight`, `C22_intersect_common`, `C23_containsGeom_partial`, `C26_inf`, `C26_near`, `C26_refl`, `C26_symm`, `C27_less_iff`, `C27_total`, `C27_trans`, `C28_permutation_invariant`, `C28_permutations_equal`, `C28_sound`, `C29_idempotent`, `C29_least_first`, `C29_rotations_equal`, `C29_sound`, `C29_symm_refl`, `C30_permutation`, `C30_symm_partial`, `C31_reverse`, `C31_winding_is_area_sign`, `C32_rectify`, `C32_rectify_idempotent`, `C32_rectify_mutates_argument`, `C32_rectify_windings`, `C33_ancestor`, `C33_descendants`, `C33_down_up`, `C33_partition`, `C34_order`, `C34_total`, `C34_trans`, `C35_corner_order`, `C35_rectangle`, `C36_simplify`, `C36_total`, `C37_no_report`, `C37_segment_intersect`, `C38_cancelled`, `C38_every_meeting_once`, `C40_euclidean`, `C40_runs`, `C40_terminates`, `C41_delete_answers_partial`, `C41_inserts_partial`, `C41_new_tree_partial`, `C41_search_exact_partial`, `C42_limit_bounded`, `C42_limit_is_prefix`, `C43_algebra_partial`, `C44_segment_distance`, `C45_covers_partial`, `C45_violated`, `C46_circle`, `C46_contains`, `C46_never_loops`, `C46_radius`, `C47_front_partial`, `C47_nodup_partial`, `C47_violated`, `C48_cut`, `C49_letter`, `C49_violated`, `C49_violated_north`, `C49_zone_partial`, `C50_line`, `C50_parts`, `C50_points`, `C51_isEmptyGeo_iff`, `C52_envelope_partial`, `C52_violated`, `C53_commands_never_panic_partial`, `C55_point_accepts_iff`, `C55_point_count`, `C56_descriptions_equal_partial`, `C56_panics`, `C56_refl`, `C56_reorders`, `C56_sound`, `C57_serial_swaps_partial`, `C57_violated`, `C58_column_contains`, `C58_corner_iff`, `C58_corner_partial`, `C58_row_contains`, `C58_violated`, `C59_in_grid_partial`, `C59_row_in_grid`, `C59_violated`, `C61_nested`, `C63_accepts_exactly`, `C63_strict_same_text`, `C64_reads_iff_partial`, `C65_collection_partial`, `C65_feature_partial`, `C65_violated`, `C65_wraps_partial`, `C65_writes_iff`, `C66_no_panic_partial`, `C67_position_partial`, `C67_violated`, `C68_foreign`, `C69_line_distance_partial`, `C69_violated`, `C70_cancel`, `C71_shape`, `C72_rings_partial`, `C73_line_intersect`, `C73_no_report`, `C74_exact_partial`, `C74_violated`, `C74_violated_missed`, `C75_on_line`, `C75_on_segment`, `C76_point_on_line_at`, `C77_centroid_is_mean`, `C77_scaled_partial`, `C77_violated`, `C78_agrees_with_circle`, `C78_within_circle`, `C79_closed_partial`, `C79_violated`, `C81_box_partial`, `C81_violated`, `C82_as_points`, `C83_center`, `C84_distance_to_extent`, `C85_even_odd`, `C85_even_odd_indexed`, `C85_even_odd_small`, `C86_filters_partial`, `C87_finds_all_meeting`, `C87_index_exact`, `C88_nearest`, `C89_abort_partial`, `C89_k_nearest_partial`, `C89_no_panic_loaded_partial`, `C89_no_panic_partial`, `C89_violated`, `C90_rings`, `C90_splice_rings`, `C91_delete`, `C92_connect`, `C93_swap`, `C94_origins`, `C95_find_destination`, `C95_once_round`, `C95_walk_partial`, `C97_normalize_partial`, `C97_violated`, `C98_dms`, `C99_panics_partial`, `C99_violated`, `C100_columns_partial`, `C100_violated`, `C101_mirror`, `C102_round_trip_partial`, `C102_violated`, `C103_covered_partial`, `C103_violated`, `C104_two_points_partial`, `C104_violated`, `C104_violated_twice`, `C105_rings_partial`, `C105_simple`, `C105_violated`, `C106_area_partial`, `C106_violated`, `C107_no_panic`, `C107_nodup_partial`, `C107_violated`, `C108_stopped`, `C108_walk`, `C109_area`, `C110_area_partial`, `C110_simple_partial`, `C110_violated`, `C111_polygons`, `C112_apart`, `C112_crossings`, `C113_cover`, `C113_cover_clipped`, `C114_parts`, `C115_all_or_nothing_partial`, `C115_violated`, `C116_exact_partial`, `C116_near_partial`, `C116_polygons_partial`, `C116_rounding_violated`, `C116_single_partial`, `C116_violated`, `C117_outside_partial`, `C117_violated`, `C118_collection`, `C118_new`, `C119_same_label`, `C120_area_partial`, `C120_violated`, `C121_labelling_partial`, `C121_violated`, `C122_shape_partial`, `C122_violated`, `C123_unknown`, `C124_line`, `C124_triangulation`, `C125_convex_partial`, `C125_sound_partial`, `C125_violated`, `C126_total`, `C127_sides_partial`, `C127_violated`, `C128_resolve_partial`, `C128_violated`, `C129_classify`, `C129_right_of`, `C130_every_edge_once`, `C131_new_index`, `C131_remove`, `C132_located`, `C133_new_panics`, `C133_new_triangle`, `C134_accepts_partial`, `C134_history_partial`, `C134_insert_one_partial`, `C134_new`, `C134_violated`, `C134_violated_on_side`, `C135_cover`, `C136_history_partial`, `C136_insert_one_partial`, `C136_violated`, `C137_triangles_partial`, `C137_violated`, `C138_newForPoints`, `C138_rounds`, `C139_constrained_partial`, `C139_geom_partial`, `C139_points_partial`, `C139_violated`, `C140_violated`, `C141_directions`, `C141_inside`, `C141_line`, `C141_lines`, `C141_point`, `C141_points`, `C141_polygon`, `C141_polygons`, `C142_panics_iff_partial`, `C142_violated`, `C143_outer_partial`, `C143_violated`, `C144_history_partial`, `C144_statement_partial`, `C144_violated`, `C145_index_lasts_partial`, `C145_index_partial`, `C145_metadata_partial`, `C145_second_column_violated`, `C145_tables_partial`, `C145_violated`, `C146_clash_violated`, `C146_succeeds_iff_partial`, `C146_violated`, `C147_early_partial`, `C147_late_partial`, `C147_violated`, `C148_metadata_sound`, `C150_extent_grows`, `C150_extent_is_union`, `C151_extent_partial`, `C152_stores`, `C153_effect_partial`, `C153_separate_partial`, `C154_deep`, `C155_elements_partial`, `C156_beyond`, `C156_hull`, `C157_unique_partial`, `C157_violated`, `C159_lines`, `C160_crossed_partial`, `C160_violated`, `C161_insert_partial`, `C161_sites`, `C161_violated`, `C162_accepts_partial`, `C162_apart_violated`, `C162_decides_partial`, `C162_edge_ends`, `C162_ends`, `C162_order_violated`, `C162_returns_violated`, `C163_decides_partial`, `C163_order_partial`, `C163_permuted_partial`, `C163_quiet_partial`, `C163_returns_partial`, `C163_self`, `C164_constrained_partial`, `C164_cover_violated`, `C164_geom_partial`, `C164_geom_too_many`, `C164_geom_violated`, `C164_kept`, `C164_too_many`, `C164_violated`, `C164_witness_wellPosed`, `C165_nil`, `C165_universe_iff`, `C166_nonzero_partial`, `C166_order_irrelevant`, `C166_permutations`, `C166_sound`, `C166_violated`, `C167_large_partial`, `C167_near_partial`, `C167_triangle_partial`, `C167_violated`, `C168_big_partial`, `C168_line_partial`, `C168_segment_partial`, `C168_violated`, `C168_violated_big`, `C168_violated_segment`, `C169_caller_partial`, `C169_found_partial`, `C169_near_partial`, `C169_short_partial`, `C169_violated`, `C169_violated_kept`, `C170_extent`, `C170_roundtrip_partial`, `C170_update_partial`, `C171_wkb`, `C172_again_partial`, `C172_decimal_partial`, `C172_kept_partial`, `C172_order`, `C172_sign`, `C172_violated`, `C172_violated_finite`, `C172_violated_nan`, `C173_back_partial`, `C173_expand_edges`, `C173_expand_partial`, `C173_in_order`, `C173_scale_edges`, `C173_scale_points`, `C173_violated`, `C173_violated_back`, `C174_edges_partial`, `C174_frame_partial`, `C174_violated`, `C174_violated_frame`, `C174_violated_order`, `C174_walk_partial`, `C175_collection`, `C175_coordinates`, `C175_null_geometries`, `C175_top`, `C175_type`, `C177_safe_partial`, `C178_arguments_partial`, `C178_mercator_partial`, `C178_violated`, `C178_width_partial`, `C179_equator_partial`, `C179_only_greenwich_partial`, `C179_sphere_partial`, `C179_symmetric_partial`, `C179_violated`, `C180_outcome_partial`, `C180_violated`, `C181_mirror_partial`, `C181_repeated_partial`, `C181_scale_partial`, `C181_swap_partial`, `C181_violated`, `C181_violated_start`, `C182_allowed_partial`, `C182_panics_partial`, `C182_reads_partial`, `C183_collection_partial`, `C183_round_trip_partial`, `C183_violated`, `C184_bits_partial`, `C184_close_equal_partial`, `C184_equal_close_partial`, `C184_new_partial`, `C184_self_partial`, `C184_violated`, `C184_violated_digits`, `C184_zero_partial`, `C185_around_origin_partial`, `C185_extent_partial`, `C185_inside_partial`, `C185_violated`, `C187_by_length_partial`, `C187_by_points_partial`, `C187_orders_partial`, `C187_violated`, `C187_violated_points`, `C188_exact_partial`, `C188_never_opposite_partial`, `C188_symmetry_partial`, `C188_violated`, `C189_clockwise_partial`, `C189_grid_partial`, `C189_scale_partial`, `C189_violated`, `C189_violated_centre`, `C190_grid_partial`, `C190_near_partial`, `C190_violated`, `C191_ends_partial`, `C191_slope_partial`, `C191_sound_partial`, `C191_straight_partial`, `C191_violated`, `C192_corners_partial`, `C192_inside_partial`, `C192_no_points_partial`, `C192_violated`, `C193_monotone_partial`, `C193_not_zero_partial`, `C193_right_partial`, `C193_symmetric_partial`, `C193_too_near_partial`, `C193_violated`, `C194_inside_partial`, `C194_near_partial`, `C194_order_partial`, `C194_sides_partial`, `C194_sign_partial`, `C194_violated`, `C195_down_partial`, `C195_up_partial`, `C195_violated`, `C196_opposite_triangle_partial`, `C196_own_vertex_partial`, `C196_shared_edge_partial`, `C196_violated`, `C197_as_geom`, `C198_metres_partial`, `C198_negative_partial`, `C198_violated`, `C199_boxes`, `C199_layers`, `C200_covered_partial`, `C200_exact_partial`, `C200_needed`, `C200_violated`, `C201_corner`, `C201_size_partial`, `C201_violated`, `C202_box_partial`, `C202_exact_partial`, `C202_found_partial`, `C202_violated`.

### Lines of the code that are modelled

Collected from the citations in `lean/Verif/Model`.

* `Clip`: bbox.go 35-42, 48-59; clip.go 18-43; compare.go 106-111; linestring.go 12-38, 45-190; point.go 10-28.
* `Cmp`: by_xy.go 29-38; compare.go 11-16, 39-60, 63-82, 85-88, 96-103, 106-111, 114-132, 136-152, 155-169, 172-198; default_compare.go 16-31; helper.go 14-21, 24-29, 33-44, 47-55, 59-62.
* `CmpNew`: cmp.go 20-22; compare.go 18-31.
* `Constrained`: edge.go 69-79; errors.go 7-15; resolve_edge.go 267-272; subdivision.go 667-672, 763-889; subdivision_constrained.go 19-217, 220-306, 310-320, 324-361, 372-401.
* `ConstrainedTriangles`: constrained.go 33-113, 121-148.
* `Delaunay`: bbox.go 176-204; constrained.go 24-148; subdivision.go 26, 99-194; subdivision_constrained.go 19-25; triangle.go 91-99.
* `Destructure`: bbox.go 236-249, 253-265, 278-283; makevalid.go 31-72, 78-80, 87-150, 153-165.
* `Dims`: line_stringm.go 30-41; line_stringz.go 30-41; line_stringzm.go 30-41; multi_line_stringm.go 27-39; multi_line_stringz.go 27-39; multi_line_stringzm.go 27-39; multi_pointm.go 27-38; multi_pointz.go 27-38; multi_pointzm.go 27-38; polygonm.go 38-67; polygonms.go 20-23, 45-74; polygons.go 20-23, 45-74; polygonz.go 38-67; polygonzm.go 38-67; polygonzms.go 20-23, 45-74; polygonzs.go 20-23, 45-74.
* `Empty`: empty.go 7-141.
* `Extent`: bbox.go 28-29, 35-42, 48-59, 62-67, 70-75, 78-83, 86-91, 121-123, 128-136, 139-153, 156-160, 163-165, 168, 176-204, 207-233, 236-250, 253-265, 268-275, 278-283, 286-300, 325-330, 347-383, 386-389; geom.go 323-388, 394-398, 402-458; point.go 48-57.
* `F64`: bbox.go 62-91, 139-153, 190-201, 261-264; compare.go 42-48; decode.go 26-46; empty.go 7-9; hitmap.go 30; point.go 11; winding.go 143.
* `Float64`: bbox.go 29, 176-204, 303-311, 314-322; geom.go 549-558.
* `Float64Distance`: distance.go 20-24.
* `FromLines`: bbox.go 139-153; geom.go 26-114; subdivision.go 29-37.
* `GeoEqual`: bbox.go 35-42; by_xy.go 45-57; compare.go 201-206, 213-215, 230-235, 249-331; geom.go 11, 14-17; line.go 32; line_string.go 33; point.go 20; pointm.go 19; pointz.go 20; polygon.go 23-25; triangle.go 41-43.
* `GeoJson`: geojson.go 26-42, 52-146, 208-287, 297-446; polygon.go 23-25.
* `Geom`: collection.go 9; geom.go 323-388; line_string.go 14; multi_line_string.go 9; multi_point.go 9; multi_polygon.go 9; point.go 17; polygon.go 20.
* `Gpkg`: binary_header.go 35-50, 91-96, 99-105, 108, 111-126, 129-136, 139-149, 152-190, 249-283, 293-357.
* `GpkgDb`: gpkg.go 31-92, 120-196, 275-648; gpkg_no_cgo.go 59-80, 126-135.
* `GpkgOpen`: gpkg.go 26, 31-92, 102-110, 198-295.
* `GpkgScan`: binary_header.go 256-275, 293-297, 316-328, 359-396; gpkg_no_cgo.go 84-123.
* `HitMap`: bbox.go 128-136, 171-173; hitmap.go 44-53, 88-136; interfaces.go 24-29; line_intersect.go 78-113; polygon_hitmap.go 15-21, 33-89, 92-127; ring.go 21-26, 29-32, 62-70, 77-83.
* `HitMapExtent`: bbox.go 68-91, 171-173; hitmap.go 37-40, 56-62, 65-67; polygon_hitmap.go 130, 133.
* `Intersect`: bbox.go 268-275; ring.go 18, 52-60, 73-154; xsweep.go 15, 35-39, 52-63, 69-89, 104-179.
* `KdTree`: bbox.go 22, 139-153, 176-204, 268-275; kdnode.go 15-21, 24-31; kdtree.go 22-24, 33-77; nearest_neighbor_iterator.go 32, 57-105, 126-131, 134-144, 150-170, 173-184.
* `LineOrders`: compare.go 106-111; line.go 82-85; line_helpers.go 22-27, 45-55.
* `Lines`: line.go 15; line_helpers.go 10-16, 22-39.
* `Makevalid`: makevalid.go 167-235; triangulate.go 16-56, 59-84.
* `Memory`: collection.go 9, 12-14, 17-24; line_string.go 14, 33, 36-43; line_stringm.go 20-27; line_strings.go 20-41; line_stringz.go 20-27, 33; line_stringzm.go 20-27; multi_line_string.go 9, 12-14, 17-24; multi_line_stringm.go 17-24; multi_line_stringz.go 17-24; multi_line_stringzm.go 17-24; multi_point.go 9, 12-14, 17-24; multi_pointm.go 17-24; multi_points.go 15-36; multi_pointz.go 17-24; multi_pointzm.go 17-24; multi_polygon.go 9, 12-14, 17-24; point.go 17; polygon.go 20, 23-25, 28-35; polygonm.go 28-35; polygons.go 26-43; polygonz.go 28-35; polygonzm.go 28-35; utils.go 113-192.
* `Mvt`: decode.go 87-304; feature.go 94-135, 153-166, 176-279, 282-284, 287-289, 298-357; pb.go 32.
* `MvtDecode`: decode.go 17-99; feature.go 28-33, 84-90; layer.go 15-22, 65-74; pb.go 34-39, 176-190, 229-246.
* `MvtLayer`: feature.go 28-33, 48-92, 360-702; layer.go 15-22, 33-76, 81-86, 89-94, 98-104, 108-116, 120-192; mvt.go 37-38; pb.go 100, 176, 229; tile.go 17-35, 45-63.
* `MvtPrepare`: bbox.go 27-29, 105-118; compare.go 40-61, 101-103; prepare.go 21-150.
* `PixelRatio`: bbox.go 70-75, 139-153; tile.go 147-170; tile_grid.go 26-31, 48-58, 122-130, 162-166.
* `Planar`: centriod.go 4-22; distance.go 10-12, 20-24, 32-50; line.go 15, 82-88; line_intersect.go 18-42, 47-71, 141-178; planar.go 19-32, 35-46, 49-62, 65-79, 83-92.
* `PseudoPolygon`: circle.go 25-93, 119-126; compare.go 106-111; edgemap.go 12-20, 32-36; errors.go 7-9; planar.go 26-28; pseudo_polygon.go 13-71, 75-340.
* `QuadEdge`: edge.go 20-26, 29-32, 35-39, 50-55, 58-60, 63-67, 85-116, 119-124, 127-129, 132-134, 137-139, 142-144, 147-149, 152-154, 157-159, 167-180, 198-219, 222-232; quadedge.go 26-46; stack.go 7-12, 15-22; topo.go 21-37, 43-120, 124-132, 135-146; topo_operations.go 4-18, 21-57.
* `RTree`: rtree.go 207-213.
* `RTreeBoxes`: rtree.go 404-418, 654-662.
* `Resolve`: edge.go 209-219; point.go 63-86; qtype.go 9-27, 51-73; resolve_edge.go 46-64, 71-226, 272-277; topo.go 165-189.
* `Rounded`: line.go 53-79; line_intersect.go 47-73, 78-135, 141-178; winding.go 108-128, 135-147, 151-168, 181-190.
* `RoundedArea`: point.go 91-102; triangle.go 34-38, 74-77.
* `RoundedColinear`: line_intersect.go 18-42.
* `RoundedFrame`: triangle.go 81-123.
* `RoundedOnLine`: planar.go 35-46, 49-62, 65-79.
* `RoundedPixel`: bbox.go 105-118; prepare.go 81-87.
* `Shapes`: circle.go 12-15, 18-21, 25-93, 119-140, 153-165; line.go 35-50; point.go 91-102; triangle.go 28, 31, 34-38, 46-57, 74-77, 101-123.
* `Simplify`: douglaspeucker.go 19-22, 31-111; planar.go 15; simplify.go 9-22, 26-88.
* `Slippy`: tile.go 11-13, 16, 19, 32-39, 44-46, 49-60, 76-102, 111-145; tile_grid.go 12-31, 48-95, 118-119.
* `SlippyBounds`: tile.go 106-145; tile_grid.go 132-166.
* `SlippyMath`: maths.go 21-25, 38, 42-44, 47-49, 55-118, 124-135, 141-153; tile.go 21; tile_grid.go 153-166.
* `SlippySize`: tile.go 21-29; tile_grid.go 103-108.
* `Spherical`: extent.go 11-28, 31-39.
* `SubTriangle`: geom.go 15-21; triangle.go 16-36, 50-56, 70-80, 97-110.
* `Subdivision`: stack.go 4-25; subdivision.go 29-37, 40-67, 196-198, 204-218, 224-454, 468-484, 544, 553-582, 585-611, 620-651, 675-761, 891-896, 900-942, 969-1017; subdivision_constrained.go 19-25; topo.go 43-120, 149-160; triangle.go 34-38; winding.go 250-267.
* `Traverse`: geom.go 462-528; line.go 12; line_string.go 24-30, 46-61; multi_line_string.go 27-40; multi_polygon.go 27-41; polygon.go 38-67; utils.go 6-192.
* `Utm`: coord.go 18-23, 26-31, 40-52, 55-67, 70-72, 75-77, 81-86, 89-95, 98-103; utm.go 18, 55, 58, 68-70, 76-89, 93-106, 109, 121-169, 172-175, 181, 184, 194-221, 227-292, 298-305, 308-313, 354-429, 432-438, 441-514, 519-522.
* `UtmNato`: utm.go 516-522.
* `UtmScale`: utm.go 20, 315-349.
* `Validate`: edge.go 69-79, 83-115, 209-219, 235-399; line.go 82-85; subdivision.go 488-531.
* `Walker`: compare.go 96-98; cut.go 6-56; helper.go 24-29, 33-44, 47-62; walker.go 213-357.
* `WalkerRing`: compare.go 106-111; walker.go 16-43, 77-105, 108-112, 117-210.
* `Winding`: winding.go 18-29, 69-71, 108-128, 135-147, 151-168, 203-236.
* `Wkb`: consts.go 5-13; decode.go 12, 16, 26-202; encode.go 12-38, 47-124, 127-149; wkb.go 42-45, 48-97.
* `Wkt`: wkt.go 15-24, 37-47; wkt_decode.go 24-47, 51-66, 93-124, 128-541; wkt_encode.go 58-67, 75-132, 144-572, 587-604.
