{"id": "C01", "title": "WKB encode/decode round trip", "statement": "Encoding any point, multipoint, linestring, multilinestring, polygon, multipolygon or (arbitrarily nested) collection as WKB in either byte order and decoding the bytes gives back the same geometry with bit-identical coordinates; the only change allowed is that a ring whose last vertex repeats its first comes back without the repeated vertex.", "quantifier": "for all geometries of the seven kinds with fewer than 2^32 elements per level and whose ring-start vertices contain no NaN, at any nesting depth, and for both byte orders", "why_tests_cant": "The geometry type is recursive and unbounded, the coordinates range over all 2^64 bit patterns, and both byte orders must agree at every nesting level.", "anchors": ["encoding/wkb/wkb.go: Encode, EncodeWithByteOrder, Decode, DecodeBytes", "encoding/wkb/internal/encode/encode.go", "encoding/wkb/internal/decode/decode.go"]}
{"id": "C02", "title": "WKB decoding is exact about stream boundaries", "statement": "Decoding a WKB geometry from a reader consumes exactly the bytes its encoding produced, so any sequence of geometries written one after another into a stream is read back as the same sequence, whatever bytes follow.", "quantifier": "for all finite sequences of encodable geometries, all byte orders per element and all trailing bytes", "why_tests_cant": "The claim quantifies over every continuation of the stream and every sequence of values.", "anchors": ["encoding/wkb/wkb.go: Decode, EncodeWithByteOrder", "encoding/wkb/internal/decode/decode.go"]}
{"id": "C03", "title": "A truncated WKB value is never decoded successfully", "statement": "If a WKB encoding is cut short at any byte before its end, decoding reports an error rather than returning a geometry.", "quantifier": "for all encodable geometries, byte orders and all cut points strictly before the end", "why_tests_cant": "Every cut point of every encoding is a separate case; the number is unbounded.", "anchors": ["encoding/wkb/wkb.go: Decode", "encoding/wkb/internal/decode/decode.go"]}
{"id": "C04", "title": "WKB encoding to a failing writer is fail-stop", "statement": "If the destination writer accepts only the first n bytes and then fails, Encode returns a non-nil error exactly when the full encoding is longer than n, and what reached the writer is a prefix of the full encoding; nothing is written after the first failure.", "quantifier": "for all geometries, byte orders and all failure points n", "why_tests_cant": "Requires considering a failure injected at each byte of each possible encoding.", "anchors": ["encoding/wkb/internal/encode/encode.go: Write, Conti, Geometry", "encoding/wkb/wkb.go: EncodeWithByteOrder"]}
{"id": "C05", "title": "WKB decoder accepts only well-formed input", "statement": "Whenever decoding succeeds, the consumed bytes begin with a byte-order mark 0 or 1 followed by a known geometry code 1 to 7, and every member of a multi-geometry carries its own valid mark and the matching member code; any other byte-order byte, code or member code yields an error.", "quantifier": "for all byte strings", "why_tests_cant": "All byte strings cannot be enumerated, and acceptance of a single malformed string would be a silent corruption.", "anchors": ["encoding/wkb/wkb.go: Decode", "encoding/wkb/internal/decode/decode.go: ByteOrderType, MultiPoint, MultiLineString, MultiPolygon"]}
{"id": "C06", "title": "MVT zig-zag and command words are lossless on their documented range", "statement": "Decoding the zig-zag word of any signed 32-bit delta returns that delta; unpacking a packed command word returns the original command id (0 to 7) and count for every count below 2^29; outside those ranges information is necessarily lost.", "quantifier": "for all 2^32 deltas, all command ids and all counts", "why_tests_cant": "The ranges are of size 2^32 and the words are produced by shifts and xors whose sign behaviour at the boundaries is easily got wrong.", "anchors": ["encoding/mvt/feature.go: encodeZigZag, NewCommand, Command.ID, Command.Count", "encoding/mvt/decode.go: decodeZigZag"]}
{"id": "C07", "title": "MVT point and line geometry round trip", "statement": "Encoding a point, multipoint, linestring or multilinestring with integral coordinates as an MVT command sequence and decoding the sequence returns the same coordinates in the same order, single-element multi geometries coming back as their single counterpart.", "quantifier": "for all non-empty geometries of those kinds whose successive coordinate differences fit in 32 bits and whose parts have at least two vertices", "why_tests_cant": "Cursor state is threaded through all preceding vertices and parts, so an error can appear only after an arbitrary prefix.", "anchors": ["encoding/mvt/feature.go: encodeGeometry, encodeCmd, GetDeltaPointAndUpdate", "encoding/mvt/decode.go: DecodeGeometry, decodePoint, decodeLineString"]}
{"id": "C08", "title": "MVT polygon encoding enforces and preserves ring structure", "statement": "Encoding a polygon or multipolygon with integral, non-degenerate rings and decoding it again returns the same polygons ring for ring, each ring unchanged or reversed; every first ring is wound clockwise on screen and every other ring counter-clockwise.", "quantifier": "for all multipolygons whose rings have at least three vertices and non-zero area, with coordinate differences in 32-bit range", "why_tests_cant": "Decoding re-groups rings into polygons from their computed winding only; the grouping must be right for every arrangement of rings.", "anchors": ["encoding/mvt/feature.go: encodePolygon, encodeLinearRing", "encoding/mvt/decode.go: decodePoly"]}
{"id": "C09", "title": "MVT tag tables resolve to the original tags", "statement": "In the layer produced for a list of features, looking up each feature's emitted tag index pairs in the layer's key and value tables yields exactly that feature's non-nil tags, each once, and the key table contains no duplicates, regardless of map iteration order.", "quantifier": "for all feature lists, all tag maps with supported non-NaN value types, and all iteration orders of every map", "why_tests_cant": "Go's map iteration order is randomised per run; the tables are shared across all features.", "anchors": ["encoding/mvt/feature.go: keyvalMapsFromFeatures, keyvalTagsMap", "encoding/mvt/layer.go: VTileLayer"]}
{"id": "C10", "title": "Layer names in a tile stay unique", "statement": "After any sequence of AddLayers calls no two layers of the tile share a name, layers already present are never changed or reordered, and a call that reports an error has added precisely the layers before the offending one.", "quantifier": "for all histories of AddLayers calls with arbitrary (also nil) layers", "why_tests_cant": "Property of all call histories.", "anchors": ["encoding/mvt/tile.go: AddLayers, Layers"]}
{"id": "C11", "title": "NewFeatures flattens collections in order", "statement": "NewFeatures yields one feature per non-collection, non-nil geometry of its argument in depth-first order, each carrying the same tags, and none for nil.", "quantifier": "for all geometries at any nesting of collections", "why_tests_cant": "Unbounded nesting.", "anchors": ["encoding/mvt/feature.go: NewFeatures"]}
{"id": "C12", "title": "Layer feature list behaves like an indexed list", "statement": "After any history of AddFeatures and RemoveFeature calls on a layer, Features returns the features added so far, in order, minus the ones removed by index.", "quantifier": "for all histories of AddFeatures and RemoveFeature", "why_tests_cant": "Property of all call histories. (The code violates it for RemoveFeature.)", "anchors": ["encoding/mvt/layer.go: AddFeatures, RemoveFeature, Features"]}
{"id": "C13", "title": "GeoPackage header flags are faithful", "statement": "The flag byte built from byte order, envelope type, extended and empty markers reports exactly those four values back, and reserved bits are zero.", "quantifier": "for all byte orders, the five valid envelope types and both booleans", "why_tests_cant": "Bit-field overlaps only show for particular combinations; decoding must be right for all 256 bytes.", "anchors": ["encoding/gpkg/binary_header.go: EncodeHeaderFlags, headerFlags"]}
{"id": "C14", "title": "GeoPackage header and blob round trip", "statement": "Encoding any header built by NewBinaryHeader, followed by arbitrary payload bytes, decodes to the same header with its size equal to the number of header bytes; a full GeoPackage geometry blob decodes to the same srs id, envelope and geometry.", "quantifier": "for all srs ids, envelopes (any float bit patterns), envelope types, byte orders, flags, geometries and trailing bytes", "why_tests_cant": "Unbounded payloads and all float bit patterns.", "anchors": ["encoding/gpkg/binary_header.go: NewBinaryHeader, EncodeTo, DecodeBinaryHeader, Size, StandardBinary.Encode, DecodeGeometry"]}
{"id": "C15", "title": "GeoPackage header decoding rejects malformed headers", "statement": "Decoding succeeds only on at least as many bytes as the header claims to need, with a valid envelope code and with the magic bytes 'GP'.", "quantifier": "for all byte strings", "why_tests_cant": "All byte strings. (The code skips the magic test for headers without envelope.)", "anchors": ["encoding/gpkg/binary_header.go: DecodeBinaryHeader"]}
{"id": "C16", "title": "WKT encode/decode round trip", "statement": "Encoding a geometry as WKT text and decoding the text returns the same geometry, provided the number formatter emits text the number parser reads back.", "quantifier": "for all geometries that are non-empty at every level, without NaN or consecutive duplicate vertices, linestrings of at least 2 and rings of at least 3 vertices, at any nesting depth, and every number format accepted by the decoder's character set", "why_tests_cant": "Unbounded recursive grammar.", "anchors": ["encoding/wkt/wkt_encode.go: Encoder.encode", "encoding/wkt/wkt_decode.go: Decoder.readGeometry"]}
{"id": "C17", "title": "WKT never decodes a text cut short", "statement": "Decoding any proper prefix of an encoder-produced WKT text reports an error.", "quantifier": "for all encodable geometries and all cut points", "why_tests_cant": "Every cut point of every text.", "anchors": ["encoding/wkt/wkt_decode.go", "encoding/wkt/wkt_encode.go"]}
{"id": "C18", "title": "GeoJSON rings are closed exactly once", "statement": "Marshalling makes every non-empty polygon ring end with its first vertex, adding at most one vertex and never changing others; marshalling again does not add more; the caller's geometry is left unchanged.", "quantifier": "for all polygons and multipolygons", "why_tests_cant": "All ring lists, and aliasing of the caller's slices. (The code mutates the caller's polygon.)", "anchors": ["encoding/geojson/geojson.go: closePolygon, Geometry.MarshalJSON"]}
{"id": "C19", "title": "GeoJSON object round trip", "statement": "The JSON object written for a geometry is read back as the same geometry with closed rings, for every nesting of collections.", "quantifier": "for all geometries at any nesting depth with finite coordinates", "why_tests_cant": "Recursive, unbounded.", "anchors": ["encoding/geojson/geojson.go: MarshalJSON, UnmarshalJSON"]}
{"id": "C20", "title": "Extent of points is the tightest box", "statement": "The extent computed from points contains all of them and is contained in every extent that contains all of them, whatever the order in which points are given or whether they are added in one go or piecemeal.", "quantifier": "for all non-empty lists of non-NaN points and all ways of splitting and ordering them", "why_tests_cant": "All orders and splits of unbounded lists.", "anchors": ["bbox.go: NewExtent, NewExtentFromPoints, AddPoints, Add"]}
{"id": "C21", "title": "Extent containment is a partial order matching point sets", "statement": "For extents with min not above max, Contains holds exactly when every point of the argument is a point of the receiver, and it is reflexive, antisymmetric and transitive.", "quantifier": "for all pairs/triples of extents and points", "why_tests_cant": "Universal statement over reals/floats.", "anchors": ["bbox.go: Contains, ContainsPoint"]}
{"id": "C22", "title": "Extent intersection is the common region", "statement": "When Intersect reports an intersection the result contains exactly the points common to both extents and has positive width and height; when it reports none the common region has empty interior; the result does not depend on argument order.", "quantifier": "for all pairs of extents including the nil (universe) extent", "why_tests_cant": "Universal statement; boundary cases have measure zero and are missed by sampling.", "anchors": ["bbox.go: Intersect"]}
{"id": "C23", "title": "ContainsGeom agrees with vertex containment", "statement": "ContainsGeom reports true exactly if every vertex of the geometry lies in the extent.", "quantifier": "for all extents and geometries", "why_tests_cant": "Universal. (The code is wrong: it also requires the origin.)", "anchors": ["bbox.go: ContainsGeom, AddGeometry", "geom.go: getExtent"]}
{"id": "C24", "title": "GetCoordinates and ExtractLines visit each vertex and edge once", "statement": "GetCoordinates lists every vertex of a geometry once per occurrence in order, and ExtractLines lists every edge of linestrings and rings once, in order, with rings closed. AsSegments lists the edges line by line, ring by ring and polygon by polygon, and fails exactly for a line of one vertex.", "quantifier": "for all geometries at any nesting", "why_tests_cant": "Recursive, unbounded.", "anchors": ["geom.go: GetCoordinates, ExtractLines", "line_string.go: LineString.AsSegments", "multi_line_string.go: MultiLineString.AsSegments", "polygon.go: Polygon.AsSegments", "multi_polygon.go: MultiPolygon.AsSegments"]}
{"id": "C25", "title": "ApplyToPoints is a structure-preserving map", "statement": "ApplyToPoints with a total function returns a geometry of the same kind and shape with the function applied to each vertex; with the identity it returns an equal geometry; applying two functions in turn equals applying their composition; an error of the function on any vertex makes the whole call fail.", "quantifier": "for all geometries (other than collections) and all functions", "why_tests_cant": "Quantifies over functions.", "anchors": ["utils.go: ApplyToPoints, Clone"]}
{"id": "C26", "title": "Tolerant float equality is reflexive and symmetric", "statement": "Comparing two floats with tolerances gives the same answer in either order; any non-NaN finite or infinite number equals itself under positive tolerances; infinities equal only themselves; it is not transitive in general.", "quantifier": "for all pairs of 64-bit patterns and all tolerances", "why_tests_cant": "2^128 pairs.", "anchors": ["cmp/compare.go: Compare.Float"]}
{"id": "C27", "title": "Point ordering is a strict total order", "statement": "XYLessPoint/PointLess is irreflexive, transitive and total on points without NaN, so sorting by it is well defined.", "quantifier": "for all triples of non-NaN points", "why_tests_cant": "Universal; sort correctness depends on it.", "anchors": ["cmp/helper.go: XYLessPoint", "cmp/compare.go: PointLess"]}
{"id": "C28", "title": "Multipoint equality ignores order", "statement": "MultiPointEqual gives the same answer when either list is permuted, and holds between any list of non-NaN points and any of its permutations.", "quantifier": "for all lists and all permutations", "why_tests_cant": "n! permutations for each unbounded list.", "anchors": ["cmp/compare.go: MultiPointEqual"]}
{"id": "C29", "title": "RotateToLeftMostPoint is a rotation that puts the least vertex first", "statement": "RotateToLeftMostPoint keeps the cyclic sequence of vertices and makes a least vertex first; two linestrings with the same cyclic sequence and a unique least vertex compare equal.", "quantifier": "for all vertex lists and all rotations of them", "why_tests_cant": "All lists and rotations.", "anchors": ["cmp/helper.go: RotateToIdx, RotateToLeftMostPoint, FindMinPointIdx", "cmp/compare.go: LineStringEqual"]}
{"id": "C30", "title": "Multiline equality is symmetric", "statement": "MultiLineEqual(a,b) equals MultiLineEqual(b,a).", "quantifier": "for all pairs of multilines", "why_tests_cant": "Universal over unbounded lists. (The code violates it.)", "anchors": ["cmp/compare.go: MultiLineEqual"]}
{"id": "C31", "title": "Winding reacts correctly to reversal, rotation, translation and axis flip", "statement": "Reversing a ring or flipping the y-axis convention inverts its winding; rotating the start vertex or translating the ring leaves it unchanged; the winding is colinear exactly if the signed area is zero.", "quantifier": "for all rings over exact arithmetic", "why_tests_cant": "All rings of any length.", "anchors": ["winding/winding.go: Orient, Orientation, Order.OfPoints"]}
{"id": "C32", "title": "RectifyPolygon postcondition", "statement": "The result's first ring is clockwise and all others counter-clockwise, each result ring is an input ring or its reverse in order, exactly the colinear ones being dropped (a colinear first ring drops the polygon); rectifying twice equals rectifying once.", "quantifier": "for all polygons over exact arithmetic and both axis conventions", "why_tests_cant": "All polygons.", "anchors": ["winding/winding.go: RectifyPolygon"]}
{"id": "C33", "title": "Tile families partition the tile grid", "statement": "At a deeper zoom, FamilyAt yields exactly the tiles lying inside the given tile, each once, 4^k of them; at a shallower zoom it yields exactly the one ancestor; descending from a tile and coming back up returns the tile; iteration stops at once when the callback returns false.", "quantifier": "for all tiles, zooms and callbacks", "why_tests_cant": "4^k tiles for unbounded k and arbitrary callbacks.", "anchors": ["slippy/tile.go: FamilyAt, RangeFamilyAt"]}
{"id": "C34", "title": "Tile ordering is a strict total order", "statement": "Tile.Less is irreflexive, transitive and total with respect to Equal.", "quantifier": "for all triples of tiles", "why_tests_cant": "Universal over uint triples.", "anchors": ["slippy/tile.go: Less, Equal"]}
{"id": "C35", "title": "FromBounds covers the bounds with a full rectangle of tiles", "statement": "FromBounds returns each tile of the rectangle spanned by the tiles of the two corners exactly once, and nothing else, whatever the order of the corners.", "quantifier": "for all corner tile coordinates", "why_tests_cant": "Unbounded rectangles.", "anchors": ["slippy/tile.go: FromBounds"]}
{"id": "C36", "title": "Douglas-Peucker keeps end points, order and the tolerance", "statement": "The simplified line is a subsequence of the input that keeps the first and last point, and every dropped point is within the tolerance of the line through the two kept points around it; a non-positive tolerance returns the input.", "quantifier": "for all lines, tolerances and distance functions used by the algorithm", "why_tests_cant": "Recursive subdivision on unbounded inputs.", "anchors": ["planar/simplify/douglaspeucker.go: Simplify"]}
{"id": "C37", "title": "Segment intersection is sound and complete", "statement": "SegmentIntersect reports a point exactly if the two non-parallel segments share one, and the reported point is the shared one.", "quantifier": "for all pairs of segments over exact arithmetic", "why_tests_cant": "Continuum of inputs; boundary cases have measure zero.", "anchors": ["planar/line_intersect.go: SegmentIntersect, LineIntersect"]}
{"id": "C38", "title": "Sweep finds every intersecting pair exactly once", "statement": "FindIntersects reports every pair of segments with a reported intersection exactly once and no other pair, for whatever order ties are sorted in.", "quantifier": "for all segment lists", "why_tests_cant": "Quadratic pairs on unbounded lists; sorting ties.", "anchors": ["planar/intersect/xsweep.go: NewEventQueue, FindIntersects"]}
{"id": "C39", "title": "Kd-tree holds exactly the inserted points", "statement": "After any sequence of inserts the kd-tree contains each distinct inserted point exactly once, inserting a present point reports a duplicate and changes nothing observable, and every subtree respects its splitting line and bounding box.", "quantifier": "for all insertion histories", "why_tests_cant": "All histories.", "anchors": ["planar/index/kdtree/kdtree.go: Insert"]}
{"id": "C40", "title": "Nearest-neighbour iteration is complete and sorted", "statement": "Iterating nearest neighbours of a query yields each point of the kd-tree exactly once in non-decreasing distance.", "quantifier": "for all trees reachable by inserts, all queries and all valid heap behaviours", "why_tests_cant": "Unbounded trees, priority-queue tie behaviour.", "anchors": ["planar/index/kdtree/nearest_neighbor_iterator.go: Next"]}
{"id": "C41", "title": "R-tree search returns exactly the overlapping objects", "statement": "After any history of inserts (and deletes) SearchIntersect returns exactly the stored objects whose rectangles overlap the query, each once per insertion; Size is the number of stored objects.", "quantifier": "for all histories and queries", "why_tests_cant": "Splits and reinsertion make behaviour depend on the whole history.", "anchors": ["internal/rtreego/rtree.go: Insert, Delete, SearchIntersect"]}
{"id": "C42", "title": "R-tree limit search is bounded", "statement": "SearchIntersectWithLimit returns at most k objects, all of them overlapping, and k of them if there are at least k.", "quantifier": "for all trees, queries and k", "why_tests_cant": "All trees.", "anchors": ["internal/rtreego/rtree.go: SearchIntersectWithLimit", "internal/rtreego/filter.go"]}
{"id": "C43", "title": "Quad-edge algebra is preserved by every topological operation", "statement": "After any sequence of edge creation and splice operations, rotating four times is the identity, next and previous around a vertex are inverse, and dual edges rotate oppositely; splicing the same two edges twice restores the structure.", "quantifier": "for all operation histories", "why_tests_cant": "All histories of pointer surgery.", "anchors": ["planar/triangulate/delaunay/quadedge/topo.go: Splice", "planar/triangulate/delaunay/quadedge/edge.go", "planar/triangulate/delaunay/quadedge/quadedge.go"]}
{"id": "C44", "title": "Distance to a line segment is the minimum distance", "statement": "DistanceToLineSegment (squared) is attained by a point of the segment and not exceeded by that of any other point of the segment.", "quantifier": "for all points and segments over exact arithmetic", "why_tests_cant": "Continuum of inputs.", "anchors": ["planar/distance.go: DistanceToLineSegment"]}
{"id": "C45", "title": "Triangle built for an extent covers it", "statement": "The super-triangle built for an extent contains all four corners of the extent.", "quantifier": "for all extents with min below max and positive buffers", "why_tests_cant": "Continuum.", "anchors": ["triangle.go: NewTriangleForExtent"]}
{"id": "C46", "title": "Circumscribed circle passes through its points", "statement": "The circle computed from three non-colinear points has a centre at equal distance (the radius) from all three.", "quantifier": "for all point triples over exact arithmetic", "why_tests_cant": "Continuum, division cases.", "anchors": ["circle.go: CircleFromPoints"]}
{"id": "C47", "title": "Destructured segments are unique", "statement": "The segments returned after splitting at intersections contain no duplicates.", "quantifier": "for all inputs", "why_tests_cant": "Universal. (The code's unique step does not shorten the slice.)", "anchors": ["planar/makevalid/makevalid.go: unique, Destructure"]}
{"id": "C48", "title": "Cutting a ring splits it without loss", "statement": "cut removes a contiguous run (cyclically) of the ring and keeps the rest in order: together they are exactly the original vertices.", "quantifier": "for all rings and index pairs", "why_tests_cant": "All rings and indices, including wrap-around.", "anchors": ["planar/makevalid/walker/cut.go: cut"]}
{"id": "C49", "title": "UTM zone numbers and letters", "statement": "Every longitude in [-180,180] and latitude in [-80,84] gets a zone number between 1 and 60 whose central meridian is within the zone, and a valid zone letter monotone in latitude.", "quantifier": "for all longitudes and latitudes", "why_tests_cant": "Continuum; boundary values. (The code returns 61 at 180.)", "anchors": ["planar/coord/utm/utm.go: ZoneNumberFromLngLat, ZoneLetterForLat, CentralMeridian"]}
{"id": "C50", "title": "Clip keeps multipoints inside and never leaves the box", "statement": "Clipping a multipoint keeps exactly the points in the box in order; every vertex of a clipped linestring lies in the box and on the input line.", "quantifier": "for all boxes and lines over exact arithmetic", "why_tests_cant": "Continuum.", "anchors": ["planar/clip/point.go", "planar/clip/linestring.go"]}
{"id": "C51", "title": "Emptiness looks at every vertex", "statement": "IsEmptyGeo reports a geometry as empty exactly when no vertex of it, at any depth of nested collections, has two numeric coordinates.", "quantifier": "for all geometries, nested to any depth", "why_tests_cant": "Unbounded nesting and vertex counts; the answer is a universally quantified statement about all vertices.", "anchors": ["cmp/empty.go: IsEmptyPoint, IsEmptyPoints, IsEmptyLines, IsEmptyGeo"]}
{"id": "C52", "title": "GeoPackage envelope order", "statement": "The envelope NewBinary stores in a GeoPackage blob is the tight bounding box of the geometry in the order of the GeoPackage specification (minx, maxx, miny, maxy).", "quantifier": "for all geometries with numeric coordinates", "why_tests_cant": "All coordinate values; equal spans hide the order. (The code stores minx, miny, maxx, maxy.)", "anchors": ["encoding/gpkg/binary_header.go: NewBinary", "bbox.go: NewExtentFromGeometry"]}
{"id": "C53", "title": "Decoding MVT geometry words never panics", "statement": "DecodeGeometry on any word sequence of type point, linestring or polygon returns a geometry or an error.", "quantifier": "for all word sequences", "why_tests_cant": "All byte-level inputs, including hostile ones. (The code panics on an empty linestring and on MoveTo with count 0.)", "anchors": ["encoding/mvt/decode.go: DecodeGeometry, decodeLineString, decodePoly, decodePoint"]}
{"id": "C54", "title": "Cancelling tile encoding is all or nothing", "statement": "When the context is cancelled while a layer is being encoded, VTileLayer either returns the same layer message as an undisturbed run or an error; it never returns a shortened layer, and a context that is done before some feature is reached always gives an error.", "quantifier": "for all layers and all points in time at which the context becomes done", "why_tests_cant": "The moment of cancellation is a schedule choice; tests can only cancel before or after the call.", "anchors": ["encoding/mvt/layer.go: VTileLayer", "encoding/mvt/feature.go: VTileFeature"]}
{"id": "C55", "title": "MVT point messages are accepted exactly when complete", "statement": "Decoding a point geometry succeeds exactly for the empty message and for a single MoveTo command followed by exactly two words for each point it announces, and yields as many points as announced.", "quantifier": "for all word sequences", "why_tests_cant": "All inputs, including hostile ones; a missing length check only shows on particular lengths.", "anchors": ["encoding/mvt/decode.go: DecodeGeometry, decodePoint, decodeNPoints"]}
{"id": "C56", "title": "Polygon equality does not depend on how the polygon is written", "statement": "PolygonEqual holds between two descriptions of the same polygon: interior rings in another order, every ring started at another vertex. A polygon equals itself. The rings handed in may come back reordered but are the same rings, exterior first.", "quantifier": "for all polygons with numeric vertices (at most twelve rings), all orders of the interior rings and all starting vertices", "why_tests_cant": "n! orders times all rotations of unbounded rings. (The code violates it when two interior rings of equal length share their least vertex.)", "anchors": ["cmp/compare.go: PolygonEqual", "cmp/by_xy.go: bySubRingSizeXY.Less"]}
{"id": "C57", "title": "Concurrent changes of the default comparison are swaps", "statement": "When several goroutines call SetDefault, the values returned together with the value left in place are the initial value and the values set, each exactly once; no value appears that nobody set.", "quantifier": "for all numbers of callers and all interleavings of their steps", "why_tests_cant": "Interleavings are not controlled by tests. (The code violates the swap part: it loads and stores separately.)", "anchors": ["cmp/default_compare.go: SetDefault, DefaultCompare"]}
{"id": "C58", "title": "A tile's corner is found in that tile", "statement": "Converting a tile to the longitude and latitude of its top-left corner and looking up the tile at that place and zoom gives the same tile; every longitude strictly inside the world lies between the edges of the column found for it, up to a millionth of a pixel.", "quantifier": "for all zooms up to MaxZoom, all tiles of the grid, all tile sizes", "why_tests_cant": "2^44 tiles at the deepest zoom. (The code violates it for the second row of zoom 22.)", "anchors": ["slippy/maths.go: lat2Num, lon2Num, x2deg, y2deg", "slippy/tile_grid.go: FromNative, ToNative"]}
{"id": "C59", "title": "Looking up a place always gives an existing tile", "statement": "The tile found for any longitude and latitude, inside or outside the world, has column and row below 2^zoom.", "quantifier": "for all points, zooms up to MaxZoom and tile sizes", "why_tests_cant": "The failing places are within a millionth of a pixel of the antimeridian. (The code violates it there.)", "anchors": ["slippy/maths.go: lat2Num, lon2Num", "slippy/tile_grid.go: FromNative"]}
{"id": "C60", "title": "The smallest covering tile covers the extent", "statement": "NewTileMinMaxer returns a tile that contains both corners of the extent it is given.", "quantifier": "for all grids and extents", "why_tests_cant": "All extents and grids. (The code violates it: it tests the minimum corner against itself.)", "anchors": ["slippy/tile_grid.go: NewTileMinMaxer"]}
{"id": "C61", "title": "Tile rectangles nest like the tiles", "statement": "The longitude/latitude rectangle of one tile lies inside that of another exactly when the first is a descendant (or the same tile) of the second; children neither overlap their parent's border nor leave gaps.", "quantifier": "for all pairs of tiles at all zooms", "why_tests_cant": "Infinitely many pairs; inequalities between transcendental numbers.", "anchors": ["slippy/maths.go: x2deg, y2deg", "slippy/tile.go: FamilyAt"]}
{"id": "C62", "title": "WKT decoder accepts exactly the grammar", "statement": "The WKT decoder accepts a text exactly when it begins with WKT text of some geometry (keyword in any case, white space around keywords, parentheses and commas, numbers over digits, '-', '.', 'e', 'E'; rings closed and of at least four vertices; collections may end with one comma); it returns that geometry, and no text begins with WKT text of two geometries.", "quantifier": "for all byte strings, at any nesting depth", "why_tests_cant": "Acceptance over all strings and unbounded nesting cannot be enumerated.", "anchors": ["encoding/wkt/wkt_decode.go: Decoder.readGeometry, Decoder.readPoints, Decoder.readLines, Decoder.readPolys, Decoder.readTag"]}
{"id": "C63", "title": "WKT encoder refuses exactly what it documents", "statement": "The WKT encoder succeeds exactly when every line is empty or has two distinct consecutive vertices, every written ring has three, and, in strict mode, nothing is empty or NaN; strict mode refuses more but never changes the text.", "quantifier": "for all geometries, both modes, every number format", "why_tests_cant": "Error conditions of a recursive encoder over all nested inputs.", "anchors": ["encoding/wkt/wkt_encode.go: Encoder.encode, Encoder.encodePoints, Encoder.encodeLines, Encoder.encodePolys"]}
{"id": "C64", "title": "WKT decoder reads whatever the encoder writes", "statement": "Every text the WKT encoder produces without error is accepted by the WKT decoder.", "quantifier": "for all geometries the encoder accepts and every number format the decoder's character set admits", "why_tests_cant": "Requires relating two recursive programs on all inputs, including empty parts.", "anchors": ["encoding/wkt/wkt_encode.go: Encoder.encode", "encoding/wkt/wkt_decode.go: Decoder.readGeometry"]}
{"id": "C65", "title": "GeoJSON features round trip", "statement": "Marshalling a feature, a feature collection, a geometry or a slice of geometries and unmarshalling the result gives the same features in the same order: same id, same properties, geometry with closed rings; a feature may have no geometry, as its documentation says.", "quantifier": "for all features with finite numbers, all property maps of JSON values, all collections and slices", "why_tests_cant": "Unbounded nesting of geometries, properties and collections. (A feature without geometry is neither written nor read.)", "anchors": ["encoding/geojson/geojson.go: Marshal, Unmarshal, Feature, FeatureCollection, isGeomGeometry, isGeomGeometrySlice"]}
{"id": "C66", "title": "GeoJSON decoding never panics", "statement": "Unmarshal returns a value or an error on every JSON document.", "quantifier": "for all JSON documents", "why_tests_cant": "All documents; nulls in any place. (null under type, coordinates or geometries, or as a collection member, panics.)", "anchors": ["encoding/geojson/geojson.go: decodeField, Geometry.UnmarshalJSON, Unmarshal"]}
{"id": "C67", "title": "GeoJSON positions have two numbers", "statement": "A position is accepted only if it starts with two numbers, and these become the point.", "quantifier": "for all JSON values in place of a position", "why_tests_cant": "All JSON values. (Missing and null coordinates silently become 0.)", "anchors": ["encoding/geojson/geojson.go: Geometry.UnmarshalJSON, decodeField"]}
{"id": "C68", "title": "Foreign GeoJSON members and member order do not matter", "statement": "Adding a member with an unknown name anywhere in a feature, collection or geometry object, or reordering members, does not change what is read.", "quantifier": "for all objects, all names, all values, all permutations", "why_tests_cant": "All objects, names and orders.", "anchors": ["encoding/geojson/geojson.go: Unmarshal, Geometry.UnmarshalJSON, Feature, FeatureCollection"]}
{"id": "C69", "title": "Perpendicular distance is the distance to the line", "statement": "PerpendicularDistance (the default distance of the line simplifier) is the distance from the point to the nearest point of the line through the two given points.", "quantifier": "for all points and all lines, including lines whose two points coincide", "why_tests_cant": "The nearest point ranges over a continuum, and the degenerate line is one input among infinitely many.", "anchors": ["planar/planar.go: PerpendicularDistance"]}
{"id": "C70", "title": "Cancelled simplification never passes off a partial result", "statement": "Whenever the context is cancelled while a line is being simplified, the call does not panic, an error is returned only if the context was cancelled, and a call that returns no error returned the complete simplification.", "quantifier": "for all lines, tolerances, distance functions and all moments at which the context is cancelled", "why_tests_cant": "Cancellation can strike between any two polls of a recursion of any depth; tests fix a few schedules.", "anchors": ["planar/simplify/douglaspeucker.go: DouglasPeucker.Simplify, DouglasPeucker.simplify"]}
{"id": "C71", "title": "Simplify keeps the shape of a geometry", "statement": "planar.Simplify returns a geometry of the same kind with the same number of parts at every level; points are unchanged, every line is replaced by what the simplifer returns for it and every ring likewise if more than two points remain; it fails exactly if the simplifer fails on a part.", "quantifier": "for all geometries of any nesting and all simplifers", "why_tests_cant": "Collections nest without bound and the simplifer is supplied by the user.", "anchors": ["planar/simplify.go: Simplify, simplifyPolygon"]}
{"id": "C72", "title": "Simplified polygons have real rings", "statement": "Simplifying a polygon whose rings have at least three points gives a polygon whose rings have at least three points.", "quantifier": "for all polygons, tolerances and distance functions", "why_tests_cant": "Whether a ring collapses depends on the tolerance and all coordinates.", "anchors": ["planar/simplify.go: simplifyPolygon", "planar/simplify/douglaspeucker.go: DouglasPeucker.Simplify"]}
{"id": "C73", "title": "Line intersection is sound and complete", "statement": "LineIntersect reports a point exactly if the two lines are not parallel, and the reported point is the one on both lines.", "quantifier": "for all pairs of lines over exact arithmetic", "why_tests_cant": "Pairs of lines form a continuum.", "anchors": ["planar/line_intersect.go: LineIntersect, LineIntersectBigFloat"]}
{"id": "C74", "title": "Colinear lines are recognised", "statement": "AreLinesColinear is true exactly if the two lines lie on one straight line and share a point.", "quantifier": "for all pairs of lines", "why_tests_cant": "False positives need parallel lines with overlapping boxes, false negatives need one line covering the other; tests sample neither systematically.", "anchors": ["planar/line_intersect.go: AreLinesColinear"]}
{"id": "C75", "title": "Point on line and on segment tests are exact", "statement": "With exact comparison IsPointOnLineSegment is true exactly for the points of the segment (degenerate segments included) and IsPointOnLine exactly for the points of the line through two different points.", "quantifier": "for all points and segments over exact arithmetic", "why_tests_cant": "Vertical, horizontal, sloped and degenerate lines over a continuum of points.", "anchors": ["planar/planar.go: Slope, IsPointOnLine, IsPointOnLineSegment"]}
{"id": "C76", "title": "Point at a distance along a line", "statement": "PointOnLineAt returns a point of the line at exactly the given distance from its start, on the side of its end if the distance is positive.", "quantifier": "for all lines of positive length and all distances over the reals", "why_tests_cant": "Distances and lines form a continuum.", "anchors": ["planar/planar.go: PointOnLineAt", "line.go: Line.LengthSquared"]}
{"id": "C77", "title": "Centre of points", "statement": "PointsCentriod of a closed triangle is the mean of its corners.", "quantifier": "for all non-degenerate triangles", "why_tests_cant": "An error in the divisor is invisible for triangles whose last area term equals the area.", "anchors": ["planar/centriod.go: PointsCentriod"]}
{"id": "C78", "title": "In-circle test agrees with the circumscribed circle", "statement": "For a counterclockwise triangle WithinCircle is true exactly for points strictly inside the circle through the corners, and this is the circle CircleFromPoints returns.", "quantifier": "for all counterclockwise triangles and all points over exact arithmetic", "why_tests_cant": "The boundary of the circle separates a continuum of points.", "anchors": ["point.go: Point.WithinCircle", "circle.go: CircleFromPoints", "triangle.go: Triangle.Area"]}
{"id": "C79", "title": "Circle segments form a closed chain", "statement": "AsSegments(k) returns one segment per point of AsPoints(k), each starting where the previous one ends, cyclically, for every k (values below 3 use the default of 30).", "quantifier": "for all circles and all k", "why_tests_cant": "k ranges over all unsigned numbers; the default case is a branch the point count and the index computation must agree on.", "anchors": ["circle.go: Circle.AsSegments, Circle.AsPoints"]}
{"id": "C80", "title": "Third corner of a triangle", "statement": "ThirdPoint of two corners of a triangle, in either order, is the remaining corner.", "quantifier": "for all triangles with pairwise different corners and all ordered pairs of corners", "why_tests_cant": "All triangles and a tolerant comparison that is not an equivalence.", "anchors": ["triangle.go: Triangle.ThirdPoint"]}
{"id": "C81", "title": "Point containment of a line", "statement": "Line.ContainsPoint is true exactly for the points of the segment, end points included.", "quantifier": "for all segments and points", "why_tests_cant": "Points off the segment but inside its box form a continuum.", "anchors": ["line.go: Line.ContainsPoint"]}
{"id": "C82", "title": "Circle points lie on the circle", "statement": "AsPoints(k) returns k points (30 if k is below 3), all at the radius from the centre, starting right of the centre.", "quantifier": "for all circles and all k over the reals", "why_tests_cant": "k and the circle are unbounded.", "anchors": ["circle.go: Circle.AsPoints"]}
{"id": "C83", "title": "Centre and area of a triangle", "statement": "Triangle.Center lies in the triangle, does not depend on the order of the corners and is the centroid of the outline; Triangle.Area is twice the signed area of the outline.", "quantifier": "for all triangles over exact arithmetic", "why_tests_cant": "Triangles form a continuum.", "anchors": ["triangle.go: Triangle.Center, Triangle.Area"]}
{"id": "C84", "title": "EuclideanDistance is the distance to the nearest point of an extent", "statement": "kdtree.EuclideanDistance of a point and an extent is the least distance from the point to any point of the extent: zero inside, attained on the border outside.", "quantifier": "every point and every extent with min <= max (exact arithmetic)", "why_tests_cant": "The claim compares with infinitely many points of the extent, for a query point in each of nine regions.", "anchors": ["planar/index/kdtree/nearest_neighbor_iterator.go: EuclideanDistance, distance"]}
{"id": "C85", "title": "Point in ring is the even-odd rule", "statement": "intersect.Ring.ContainsPoint on a ring made from any points answers IncludeBorder for a point on one of its segments and otherwise is true exactly if a ray from the point to the left crosses an odd number of segments, a segment counting when exactly one of its ends is below the ray.", "quantifier": "every list of ring points and every query point, both settings of IncludeBorder (exact arithmetic)", "why_tests_cant": "Vertices exactly at the height of the query point, horizontal segments and degenerate segments make the case analysis; parity is a claim about whole rings.", "anchors": ["planar/intersect/ring.go: NewRingFromPoints, ContainsPoint"]}
{"id": "C86", "title": "R-tree filters leave out and stop", "statement": "A search with filters returns the overlapping objects in the tree's order with those refused by a filter left out, and an abort answer from a filter ends the search with the results collected so far.", "quantifier": "every tree reached by calls, every query box, every list of filters", "why_tests_cant": "Filters may depend on the results so far, and whether an abort ends the whole search depends on how the objects are spread over the nodes.", "anchors": ["internal/rtreego/rtree.go: SearchIntersect, searchIntersect", "internal/rtreego/filter.go: applyFilters"]}
{"id": "C87", "title": "Segment index returns exactly the near segments", "statement": "An index over at least two segments can always be built, and SearchIntersectIdxs returns in increasing order and each once exactly the indexes of the segments whose boxes come closer than the fixed tolerance to the box of the query segment in each axis, less those a filter refuses; so without filters every segment that has a point in common with the query segment is listed. An index over fewer than two segments is nil and finds nothing.", "quantifier": "every list of segments, every query segment and every list of refusing filters (exact coordinate arithmetic, any measure of box sizes)", "why_tests_cant": "The list of segments has any length, so the tree has any shape; horizontal and vertical segments have flat boxes that overlap only through the tolerance.", "anchors": ["planar/intersect/segments.go: SearchSegmentIdxs, NewSearchSegmentIdxs, SearchIntersectIdxs, minAndDelta, rectForSegment"]}
{"id": "C88", "title": "Nearest neighbour is a nearest stored object", "statement": "NearestNeighbor on a tree returns nothing only if nothing is stored, and otherwise a stored object such that no stored object's box is nearer to the point.", "quantifier": "every history of inserts and deletes, every bulk-loaded tree with deletes, every point, objects with proper boxes (exact arithmetic)", "why_tests_cant": "Branches are skipped because of a bound on the distance of an object that has not been seen; that the bound is right depends on every box of the tree being tight, which is a claim about all histories.", "anchors": ["internal/rtreego/rtree.go: NearestNeighbor, nearestNeighbor, pruneEntries, sortEntries", "internal/rtreego/geom.go: minDist, minMaxDist"]}
{"id": "C89", "title": "K nearest neighbours are the k nearest, in order", "statement": "NearestNeighbors(k) returns the k stored objects nearest to the point (or all, if fewer), nearest first, leaving out those a filter refuses, and never panics for a k that is not negative.", "quantifier": "every history of inserts and deletes, every bulk-loaded tree with deletes, every point, every k and every list of refusing filters (exact arithmetic)", "why_tests_cant": "Pruning depends on the results so far, and the preallocated buffers are long enough only if no node ever gets more than MaxChildren entries.", "anchors": ["internal/rtreego/rtree.go: NearestNeighbors, nearestNeighbors, insertNearest, pruneEntriesMinDist, sortPreallocEntries"]}
{"id": "C90", "title": "A splice joins two rings or cuts one in two", "statement": "Splicing two edges that do not share their origin makes one ring out of the two rings around their origins; splicing two edges that share it cuts the ring in two with one edge on each part. The same is true of the rings around the faces to their left, and no other ring changes.", "quantifier": "for all structures reached by any history and all pairs of edges of the same kind", "why_tests_cant": "The claim is about which edges end up on one ring in an arbitrary linked structure; examples only see a few shapes.", "anchors": ["planar/triangulate/delaunay/quadedge/topo.go: Splice", "planar/triangulate/delaunay/quadedge/edge.go: ONext, LNext"]}
{"id": "C91", "title": "Deleting an edge takes out that edge only", "statement": "After Delete the edge is alone at both its ends; around every vertex the remaining edges follow each other in the order they had, passing over the deleted edge; no end point changes.", "quantifier": "for all structures reached by any history and all edges", "why_tests_cant": "Includes loops and bridges, where both ends of the edge lie on one ring.", "anchors": ["planar/triangulate/delaunay/quadedge/topo.go: Delete"]}
{"id": "C92", "title": "Connecting two edges adds one edge in the face between them", "statement": "Connect makes one new edge from the destination of the first edge to the origin of the chosen second edge; first edge, new edge and second edge follow each other around one left face, and the order of all older edges around every vertex is unchanged.", "quantifier": "for all structures reached by any history and all pairs of edges", "why_tests_cant": "Pointer surgery in an arbitrary structure, including the case that both ends meet the same ring.", "anchors": ["planar/triangulate/delaunay/quadedge/topo.go: Connect"]}
{"id": "C93", "title": "Swapping an edge turns it inside its quadrilateral", "statement": "Swap moves an edge to the other diagonal of the quadrilateral formed by its two faces: its ends become the far ends of the edges before it, it lies on the faces of those two edges, and the order of all other edges around every vertex is unchanged.", "quantifier": "for all structures reached by any history and all edges with another edge at each end", "why_tests_cant": "Pointer surgery in an arbitrary structure.", "anchors": ["planar/triangulate/delaunay/quadedge/topo.go: Swap"]}
{"id": "C94", "title": "All edges around a vertex have that vertex as origin", "statement": "If edges are only spliced when they have the same origin, then after any history of creating, splicing, connecting, swapping and deleting edges, all edges on one ring around a vertex name the same origin point.", "quantifier": "for all operation histories", "why_tests_cant": "An invariant over unbounded histories.", "anchors": ["planar/triangulate/delaunay/quadedge/topo.go: Splice, Connect, Swap, Delete", "planar/triangulate/delaunay/quadedge/edge.go: Orig, EndPoints"]}
{"id": "C95", "title": "Walking and searching around a vertex sees every edge once", "statement": "WalkAllONext and WalkAllOPrev call the function with every edge around the origin, once each and in order, until it says stop; FindONextDest returns the first edge around the origin with the wanted destination, and nil exactly if there is none; all of them terminate.", "quantifier": "for all structures reached by any history, all edges and callbacks", "why_tests_cant": "Termination and completeness of a walk on a linked structure of any shape.", "anchors": ["planar/triangulate/delaunay/quadedge/edge.go: WalkAllONext, WalkAllOPrev, FindONextDest"]}
{"id": "C96", "title": "The edge stack is last in first out", "statement": "After any history of pushes and pops, Pop returns the last edge pushed that has not been popped, nil if there is none, and Length their number.", "quantifier": "for all operation histories", "why_tests_cant": "Unbounded histories.", "anchors": ["planar/triangulate/delaunay/quadedge/stack.go: Push, Pop, Length"]}
{"id": "C97", "title": "Normalized longitudes", "statement": "NormalizeLng keeps the latitude, adds only whole turns, and brings any longitude into [-180,180).", "quantifier": "for all longitudes", "why_tests_cant": "Continuum, both signs, many turns. (Fails west of -180.)", "anchors": ["planar/coord/coord.go: LngLat.NormalizeLng"]}
{"id": "C98", "title": "Degrees, minutes and seconds say the angle", "statement": "LatAsDMS and LngAsDMS give degrees, minutes and seconds with minutes and seconds below 60 whose sum, with the sign the hemisphere letter stands for, is exactly the angle.", "quantifier": "for all angles, over exact arithmetic", "why_tests_cant": "Continuum, both signs, angles between 0 and -1 degree.", "anchors": ["planar/coord/coord.go: LngLat.LatAsDMS, LngLat.LngAsDMS"]}
{"id": "C99", "title": "Conversion to UTM does not panic", "statement": "FromLngLat gives a coordinate for every longitude in [-180,180) and latitude in [-80,84], with a NATO square exactly if the ellipsoid asks for one.", "quantifier": "for all places of the grid and all ellipsoids", "why_tests_cant": "Continuum; the table index goes out of range in narrow bands of latitude. (It panics there.)", "anchors": ["planar/coord/utm/utm.go: FromLngLat"]}
{"id": "C100", "title": "NATO columns go up from west to east", "statement": "Of two places of one zone at one latitude that are a hundred kilometres or more apart the eastern one gets a later column letter.", "quantifier": "for all pairs of places", "why_tests_cant": "Pairs of a continuum, all sixty zones. (Two columns of every third zone share a letter.)", "anchors": ["planar/coord/utm/utm.go: FromLngLat, Digraph"]}
{"id": "C101", "title": "The projection is symmetric", "statement": "Places of a zone mirrored in its central meridian have eastings that add up to 1000000 and equal northings, the meridian itself has easting 500000, and places mirrored in the equator have equal eastings and northings that add up to 10000000.", "quantifier": "for all places and ellipsoids, over the reals", "why_tests_cant": "Continuum of places and ellipsoids.", "anchors": ["planar/coord/utm/utm.go: FromLngLat"]}
{"id": "C102", "title": "To UTM and back", "statement": "Converting a place to UTM and the result back returns to the start, within half a degree.", "quantifier": "for all places of the grid and nearly spherical ellipsoids, over the reals", "why_tests_cant": "Continuum; the error is large only far from central meridians. (A factor 720 multiplies where it should divide.)", "anchors": ["planar/coord/utm/utm.go: FromLngLat, Coord.ToLngLat"]}
{"id": "C103", "title": "Clipping a line loses nothing inside the box", "statement": "Every point of the input line that lies in the clip box is on one of the lines returned, provided the same segment has another point in the box.", "quantifier": "for all boxes with an inside and all lines over exact arithmetic", "why_tests_cant": "A continuum of lines and boxes; the failing lines pass exactly through a corner.", "anchors": ["planar/clip/linestring.go: LineStringer, uniqueSegmentIntersectPoints"]}
{"id": "C104", "title": "Clipping a line returns lines", "statement": "Every line that clipping a linestring returns has at least two points, and successive points of it differ if those of the input do.", "quantifier": "for all boxes with an inside and all lines over exact arithmetic", "why_tests_cant": "The failing lines have a vertex exactly on the border of the box.", "anchors": ["planar/clip/linestring.go: LineStringer"]}
{"id": "C105", "title": "Untangling a ring always ends with well formed rings", "statement": "PolygonForRing, given any ring, neither panics nor loops for ever: it returns nothing, or rings of at least three points, all of them points of the given ring, each ring beginning with its leftmost point. A ring without repeated points comes back as the only ring.", "quantifier": "for all rings and all contexts, over exact arithmetic", "why_tests_cant": "The loop moves its own index back and shortens the ring while it runs; only a measure over all rings shows it ends. (A ring whose last point repeats a leftmost first point panics.)", "anchors": ["planar/makevalid/walker/walker.go: PolygonForRing", "planar/makevalid/walker/cut.go: cut, removeBridge"]}
{"id": "C106", "title": "Untangling a ring loses no area", "statement": "The signed areas of the rings PolygonForRing returns add up to the signed area of the ring given; nothing is returned only for a ring without area.", "quantifier": "for all rings whose neighbours differ, over exact arithmetic", "why_tests_cant": "An invariant over all cuts; fails only for rings that tests do not have (a spike to the left makes the whole polygon vanish).", "anchors": ["planar/makevalid/walker/walker.go: PolygonForRing"]}
{"id": "C107", "title": "Rings after untangling do not touch themselves", "statement": "No ring PolygonForRing returns visits a point twice.", "quantifier": "for all rings", "why_tests_cant": "Depends on the order of visits. (A point visited three times stays twice in the ring.)", "anchors": ["planar/makevalid/walker/walker.go: PolygonForRing"]}
{"id": "C108", "title": "A walk over triangles covers exactly the connected triangles", "statement": "RingForTriangle, if not cancelled, marks exactly the triangles that can be reached from the first over common edges, each once; the ring has two points more than there are triangles, all of them corners of these triangles.", "quantifier": "for all sets of triangles in which no edge belongs to three of them, all starting triangles", "why_tests_cant": "All adjacency graphs.", "anchors": ["planar/makevalid/walker/walker.go: RingForTriangle, indexForEdge, edgeMapFromTriangles"]}
{"id": "C109", "title": "The ring of a walk encloses the area of its triangles", "statement": "The area of the ring RingForTriangle returns is the sum of the areas of the triangles it marked, also if it was cancelled on the way.", "quantifier": "for all sets of triangles where triangles with a common edge lie on its two sides, all cancellations", "why_tests_cant": "Invariant over all walks.", "anchors": ["planar/makevalid/walker/walker.go: RingForTriangle", "triangle.go: Triangle.ThirdPoint"]}
{"id": "C110", "title": "The polygons made from triangles have the area of the triangles", "statement": "The polygons MultiPolygon returns (first ring less the others) have together the area of the triangles given.", "quantifier": "for all sets of triangles where triangles with a common edge lie on its two sides", "why_tests_cant": "Universal over triangulations. (A hole that touches the leftmost point is returned as the outer ring.)", "anchors": ["planar/makevalid/walker/walker.go: Walker.MultiPolygon, PolygonForTriangle"]}
{"id": "C111", "title": "Polygons made from triangles are well formed", "statement": "For triangles with three different corners MultiPolygon never panics; every polygon has a clockwise first ring and counter-clockwise other rings, every ring at least three points, all of them corners of the triangles.", "quantifier": "for all lists of such triangles and all cancellations", "why_tests_cant": "Universal; depends on the ring of a walk never having equal neighbours.", "anchors": ["planar/makevalid/walker/walker.go: Walker.MultiPolygon, RingForTriangle, PolygonForRing", "winding/winding.go: Order.RectifyPolygon"]}
{"id": "C112", "title": "Destructured segments do not cross", "statement": "Two segments returned by Destructure that are not parallel have nothing in common but a common end point; if no two edges of the input overlap along a stretch, this holds for any two different segments returned.", "quantifier": "for all multipolygons, clip boxes and orders of the sweep's events, exact arithmetic", "why_tests_cant": "Every pair of segments of every input; the crossing found late by the sweep can be the one that is missed.", "anchors": ["planar/makevalid/makevalid.go: Destructure", "planar/intersect/xsweep.go: EventQueue.FindIntersects"]}
{"id": "C113", "title": "Destructured segments cover the input", "statement": "Without clipping, a point is on a returned segment exactly if it is on an edge of the multipolygon that has a length; with a clip box, exactly if it is on the border of the box or is in the box and on such an edge.", "quantifier": "for all multipolygons, clip boxes with an inside, points and orders of the sweep's events, exact arithmetic", "why_tests_cant": "A set equality over all points of the plane, for all inputs; touching, overlapping and corner cases are without number.", "anchors": ["planar/makevalid/makevalid.go: Destructure, asSegments", "bbox.go: Extent.Contains, Extent.ContainsLine, Extent.Edges"]}
{"id": "C114", "title": "Destructured segments are directed parts of edges", "statement": "Every segment returned goes from left to right (upwards if vertical), has a length, is part of an edge of the input or of a side of the clip box, and begins and ends only at an end of that edge or where another edge or side crosses it.", "quantifier": "for all inputs and orders of the sweep's events, exact arithmetic", "why_tests_cant": "Universal; splits at wrong places show up only for some constellations.", "anchors": ["planar/makevalid/makevalid.go: Destructure, ByXYPoint"]}
{"id": "C115", "title": "An ended context is reported", "statement": "If the context ends, Destructure returns an error; what it returns without error is complete.", "quantifier": "for all inputs and all moments at which the context may end", "why_tests_cant": "The context can end at any poll; a test can only pick some of them.", "anchors": ["planar/makevalid/makevalid.go: Destructure"]}
{"id": "C116", "title": "The hit map tells what is inside", "statement": "A hit map built from polygons labels a point that lies on no ring Inside exactly if it lies inside the outer ring and outside the holes of one of the polygons, and Outside otherwise.", "quantifier": "for all lists of polygons without touching rings, all points off the rings, every order in which sorting leaves rings of equal size, every search index that finds all candidates", "why_tests_cant": "The answer depends on how rings of all polygons nest; there are unboundedly many arrangements.", "anchors": ["planar/makevalid/hitmap/polygon_hitmap.go: NewFromPolygons, PolygonHM.LabelFor", "planar/makevalid/hitmap/ring.go: Ring.ContainsPoint, bySmallestBBArea"]}
{"id": "C117", "title": "A clip box does not change labels within it", "statement": "A hit map built with a clip box labels points outside the box Outside, and points in the box as the hit map without the clip box does.", "quantifier": "for all clip boxes, polygons and points", "why_tests_cant": "All boxes and points matter, in particular those far from the origin.", "anchors": ["planar/makevalid/hitmap/polygon_hitmap.go: NewFromPolygons, PolygonHM.LabelFor"]}
{"id": "C118", "title": "The hit map of a collection is the union", "statement": "The hit map built for a collection labels a point Inside exactly if the hit map of one of its members does; building it fails exactly if the geometry, or one within it, is of an unknown kind; points and lines are never Inside.", "quantifier": "for all geometries, nested to any depth, all points and all orders of the members' hit maps", "why_tests_cant": "Nesting depth and the order by area are unbounded.", "anchors": ["planar/makevalid/hitmap/hitmap.go: New, NewOrderedHM, OrderedHM.LabelFor"]}
{"id": "C119", "title": "Labels do not depend on how the polygons are written", "statement": "The labels that a hit map gives do not depend on the order of the polygons, the order of the holes, the point a ring starts with, its direction, or how sorting breaks ties.", "quantifier": "for all polygons, all rewritings of them, all sorting algorithms and all points", "why_tests_cant": "The number of rewritings grows without bound.", "anchors": ["planar/makevalid/hitmap/polygon_hitmap.go: NewFromPolygons, PolygonHM.LabelFor", "planar/makevalid/hitmap/ring.go: NewRing, bySmallestBBArea"]}
{"id": "C120", "title": "Making polygons valid keeps the inside", "statement": "The multipolygon that Makevalid returns covers, in area, exactly the triangles of the triangulation whose centre is labelled Inside.", "quantifier": "for all polygons and all triangulations whose triangles lie on the two sides of their common edges", "why_tests_cant": "All triangulations matter, with holes that touch in any way.", "anchors": ["planar/makevalid/makevalid.go: Makevalid.Makevalid, makevalidPolygon", "planar/makevalid/triangulate.go: InsideTrianglesForMultiPolygon"]}
{"id": "C121", "title": "Makevalid reports an ended context", "statement": "If the context ends before Makevalid is done, it returns the error of the context.", "quantifier": "for all geometries and all moments at which the context may end", "why_tests_cant": "The context can end at any poll.", "anchors": ["planar/makevalid/makevalid.go: Makevalid.Makevalid, Destructure", "planar/makevalid/triangulate.go: InsideTrianglesForSegments"]}
{"id": "C122", "title": "What Makevalid returns can be used", "statement": "If Makevalid succeeds for a polygon, it returns a multipolygon that is not nil, and each polygon of it has a clockwise first ring and counter-clockwise others, all of at least three points that are corners of inside triangles.", "quantifier": "for all polygons and all triangulations", "why_tests_cant": "All triangulations matter, including those without inside triangles.", "anchors": ["planar/makevalid/makevalid.go: Makevalid.Makevalid, makevalidPolygon"]}
{"id": "C123", "title": "Makevalid says whether it clipped", "statement": "Makevalid says that it did not clip exactly if the geometry is made of points or lines and there is no clipper, and then returns the geometry as it was; with a clipper points and lines become what the clipper makes of them; only collections and unknown kinds are refused as unknown.", "quantifier": "for all geometries, clippers, contexts and triangulations", "why_tests_cant": "The claim is about every geometry and clipper.", "anchors": ["planar/makevalid/makevalid.go: Makevalid.Makevalid"]}
{"id": "C124", "title": "The lines of a triangulated ring form triangles", "statement": "If pseudopolygon.Triangulate succeeds for a ring that comes back to no point, the lines it returns are exactly the edges of a triangulation of the ring: every triangle has corners among the points of the ring, there are two triangles fewer than points, and their signed areas add up to the area of the ring. Two points give the line between them.", "quantifier": "for all rings without points that come back, of any length, both directions of the y axis and any answers of the circle test", "why_tests_cant": "Which chord is chosen depends on distances and circles; rings of every length and shape occur while constraints are inserted.", "anchors": ["planar/triangulate/delaunay/subdivision/pseudopolygon/pseudo_polygon.go: Triangulate, triangulateSubRings", "planar/triangulate/delaunay/subdivision/pseudopolygon/edgemap.go: newEdgeMap, edgeMap.Contains"]}
{"id": "C125", "title": "Simple rings can be triangulated", "statement": "pseudopolygon.Triangulate succeeds for every simple ring with at least three points.", "quantifier": "for all simple rings", "why_tests_cant": "Rings of every length and shape occur; the error shows up only for particular distances between the points.", "anchors": ["planar/triangulate/delaunay/subdivision/pseudopolygon/pseudo_polygon.go: Triangulate", "circle.go: CircleFromPoints, Circle.ContainsPoint"]}
{"id": "C126", "title": "Triangulating a ring does not panic", "statement": "pseudopolygon.Triangulate returns lines or an error and never panics; every line joins two of the points given.", "quantifier": "for all lists of points, with any repetitions", "why_tests_cant": "Repeated points nest in unboundedly many ways; the code has panics for cases it believes impossible.", "anchors": ["planar/triangulate/delaunay/subdivision/pseudopolygon/pseudo_polygon.go: Triangulate, triangulateSubRings"]}
{"id": "C127", "title": "The sides of the ring are among the lines", "statement": "If pseudopolygon.Triangulate succeeds, every side of the ring is one of the lines it returns.", "quantifier": "for all rings, whether they come back to a point or not", "why_tests_cant": "Rings of every length with every pattern of repeated points must be considered.", "anchors": ["planar/triangulate/delaunay/subdivision/pseudopolygon/pseudo_polygon.go: Triangulate, triangulateSubRings"]}
{"id": "C128", "title": "A point is placed between two edges around a vertex", "statement": "Given an edge of a quad-edge structure and a point other than the edge's origin, ResolveEdge answers with an edge around that origin such that the point is met turning counterclockwise from it to the next one; if the point lies in the direction of one of the edges, it answers with such an edge and ErrPointsAreCoLinear. If the point is the origin it answers ErrInvalidEndVertex.", "quantifier": "for all reachable structures, all edges, all directions and numbers of edges around the vertex, all points, and both ways the y axis may point", "why_tests_cant": "Finitely many stars of edges can be tested; the answer depends on the signs of all the angles between successive edges and the point, with half turns, full turns and single edges among them.", "anchors": ["planar/triangulate/delaunay/quadedge/resolve_edge.go: ResolveEdge, resolveEdge, resolveEdgeYUp, resolveEdgeYDown", "planar/triangulate/delaunay/quadedge/edge.go: WalkAllONext"]}
{"id": "C129", "title": "Sides of an edge", "statement": "RightOf tells whether a point lies strictly to the right of an edge, whichever way the y axis points; Classify tells for a point whether it is left or right of the line from the second point to the third, behind, between, beyond, or one of the two.", "quantifier": "for all points and edges that have a length, and both ways the y axis may point", "why_tests_cant": "The set of triples of points is infinite; the borders between the answers are where errors hide.", "anchors": ["planar/triangulate/delaunay/quadedge/topo.go: RightOf", "planar/triangulate/delaunay/quadedge/qtype.go: Classify"]}
{"id": "C130", "title": "WalkAllEdges visits each edge once", "statement": "WalkAllEdges calls the function for every edge connected with the given one, once and in one of its two directions, the given edge first, and for no other edge; it ends with the first call that returns an error.", "quantifier": "for all structures that can be built, all starting edges, and all functions", "why_tests_cant": "The number of edges and the ways to link them are unbounded; a test sees a few small subdivisions.", "anchors": ["planar/triangulate/delaunay/subdivision/subdivision.go: WalkAllEdges", "planar/triangulate/delaunay/quadedge/stack.go: Stack"]}
{"id": "C131", "title": "The vertex index finds the vertices", "statement": "With the index that NewVertexIndex makes, Get finds for a point an edge of the structure whose origin rounds as the point does, if there is one, and nil otherwise; after Remove of an edge and Delete of it, the same holds of the edges that are left.", "quantifier": "for all structures that can be built, all ways of rounding that keep the vertices apart, all points and all edges removed", "why_tests_cant": "What Remove puts in the place of an edge depends on the whole ring around the vertex; the histories of removals are unbounded.", "anchors": ["planar/triangulate/delaunay/subdivision/subdivision.go: NewVertexIndex, VertexIndex.Add, VertexIndex.Get, VertexIndex.Remove"]}
{"id": "C132", "title": "A point is put where it lies", "statement": "If an edge is found for a point that is to be inserted, it is an edge of the subdivision and the point is one of its ends, or lies in the triangle to the left of it or on the edge itself, on neither of the two other sides, and that triangle turns counterclockwise.", "quantifier": "for all structures that can be built, all starting edges, points and limits of the walk", "why_tests_cant": "The walk goes through unboundedly many triangles in orders that depend on the point.", "anchors": ["planar/triangulate/delaunay/subdivision/subdivision.go: locate, testEdge", "planar/triangulate/delaunay/quadedge/topo.go: RightOf"]}
{"id": "C133", "title": "New makes a triangle", "statement": "New panics just if its three points are on one line; otherwise the subdivision has the three edges between them, its first edge starts at the first point with the triangle counterclockwise to its left.", "quantifier": "for all triples of points, in either order, and both ways the y axis may point", "why_tests_cant": "Which edge comes first depends on the signs of areas of all possible triangles.", "anchors": ["planar/triangulate/delaunay/subdivision/subdivision.go: New", "planar/triangulate/delaunay/quadedge/resolve_edge.go: ResolveEdge"]}
{"id": "C134", "title": "Putting points into a subdivision keeps it a triangulation of its frame", "statement": "After making a subdivision of a frame triangle, points in the triangle can be put in one after the other; no call panics or runs forever, every face stays a counterclockwise triangle except the outside, and the points of the subdivision are exactly the frame corners and the points put in.", "quantifier": "for all frames, all points, and all sequences of insertions", "why_tests_cant": "the number of edge flips a new point causes, and the order of edges round it, depend on all the points put in before; tests see a few sets", "anchors": ["planar/triangulate/delaunay/subdivision/subdivision.go: New, InsertSite", "planar/triangulate/delaunay/quadedge/topo.go: Connect, Swap, Delete, OnEdge, RightOf"]}
{"id": "C135", "title": "The triangles of a subdivision cover its frame exactly once", "statement": "Beginning with subdivision.New, after any sequence of InsertSite calls for points that are not on a side of the frame, the triangles of the subdivision other than the outside of the frame are together exactly the triangle of the frame, and no two of them overlap.", "quantifier": "all frames, all sequences of points not on a side of the frame (inside or outside of it, repeated or not), exact arithmetic", "why_tests_cant": "Whether triangles overlap or leave a gap depends on the geometry of all points and the order they are put in; a test fixes one list of points.", "anchors": ["planar/triangulate/delaunay/subdivision/subdivision.go: New, InsertSite", "planar/triangulate/delaunay/quadedge/topo.go: Splice, Swap, Delete, Connect"]}
{"id": "C136", "title": "Putting points into a subdivision keeps it Delaunay", "statement": "Beginning with subdivision.New, after any sequence of InsertSite calls for points of the frame no point of the subdivision is strictly inside the circle through the corners of one of its triangles (the outside of the frame left out).", "quantifier": "all frames, all sequences of points in the frame, exact arithmetic", "why_tests_cant": "The empty-circle condition is about every triangle and every point, after every history of edge flips; tests look at a few configurations.", "anchors": ["planar/triangulate/delaunay/subdivision/subdivision.go: New, InsertSite, locate, testEdge", "planar/triangulate/delaunay/quadedge/topo.go: Swap, Connect, Delete"]}
{"id": "C137", "title": "Triangles lists the Delaunay triangulation, each triangle once", "statement": "After New and any calls of InsertSite, Triangles(true) lists a Delaunay triangulation of the frame: the listed triangles turn counterclockwise, together cover the frame, no two of them overlap, their corners are the corners of the frame and the points put in, and no point is inside the circle of a triangle. Triangles(false) lists just those of them that have no corner of the frame.", "quantifier": "all frames, all sequences of points inside the frame, both directions of the y axis", "why_tests_cant": "The list comes out of a walk over a mesh that depends on the whole history of insertions; that no triangle is missed or listed twice has to hold for every mesh.", "anchors": ["planar/triangulate/delaunay/subdivision/subdivision.go: Triangles, WalkAllTriangles, IsFramePoint, InsertSite, New"]}
{"id": "C138", "title": "NewForPoints triangulates all points it is given", "statement": "NewForPoints, given at least one point and a context that is not cancelled, does not fail or panic: it returns a Delaunay triangulation of a frame that has all of the points, rounded to thousandths, strictly inside; its points are the corners of the frame and the rounded points. If the context is found cancelled, that error is returned.", "quantifier": "all non-empty lists of points, doubles and points in line included, all moments of cancellation", "why_tests_cant": "Whether a point is refused depends on all points before it and on the frame made for them.", "anchors": ["planar/triangulate/delaunay/subdivision/subdivision.go: NewForPoints", "planar/triangulate/delaunay/subdivision/subdivision_constrained.go: roundGeomPoint", "triangle.go: NewTriangleContainingPoints, NewTriangleForExtent", "bbox.go: NewExtent"]}
{"id": "C139", "title": "The triangulation of points covers their convex hull", "statement": "Triangles(false) of Constrained and GeomConstrained (constraints not enabled) lists triangles that cover the convex hull of the rounded points, do not overlap, have points for corners and no point inside their circles.", "quantifier": "all lists of points and constraints, both directions of the y axis", "why_tests_cant": "Tests try some sets of points; that no triangle of the hull is left out, overlaps another or has a point in its circle has to hold for all sets.", "anchors": ["planar/triangulate/delaunay/constrained.go: Constrained.Triangles, GeomConstrained.Triangles", "planar/triangulate/delaunay/subdivision/subdivision.go: NewForPoints, Triangles"]}
{"id": "C140", "title": "Triangulating leaves the points of the caller alone", "statement": "Constrained.Triangles leaves the points it is given unchanged.", "quantifier": "all points, constraints and spare capacities of the slice of points", "why_tests_cant": "Whether the caller's points are written to depends on the capacity of the slice and on the values of the points.", "anchors": ["planar/triangulate/delaunay/constrained.go: Constrained.Triangles", "planar/triangulate/delaunay/subdivision/subdivision.go: NewForPoints"]}
{"id": "C141", "title": "Preparing a geometry for a tile maps it to pixels", "statement": "PrepareGeo maps every point of a geometry linearly into the pixels of the tile (left edge to 0, right edge to the pixel extent, top edge to 0, bottom edge to the pixel extent), leaves out a point that falls on the position of the one kept before it, gives the outer ring of a polygon negative and the others positive area, treats the parts of multi geometries one by one, and gives the nil geometry for kinds it does not know.", "quantifier": "every tile with positive width and height, every pixel extent, every geometry no ring of which collapses to one position", "why_tests_cant": "the map must be right for every point of every tile and the thinning for every sequence of points; tests look at a few tiles with round numbers", "anchors": ["encoding/mvt/prepare.go: PrepareGeo, preparept, preparelinestr, preparePolygon"]}
{"id": "C142", "title": "Preparing a geometry never panics", "statement": "PrepareGeo returns for every geometry and tile.", "quantifier": "every geometry, every tile", "why_tests_cant": "the panic needs a ring that is small compared to a pixel, which depends on tile and ring together", "anchors": ["encoding/mvt/prepare.go: preparePolygon"]}
{"id": "C143", "title": "The outer ring of a prepared polygon comes from the outer ring", "statement": "The first ring of a polygon prepared for a tile is made from the first ring of the polygon; a hole never becomes the outer ring.", "quantifier": "every polygon whose rings do not collapse, every tile", "why_tests_cant": "needs a degenerate first ring followed by a proper one", "anchors": ["encoding/mvt/prepare.go: preparePolygon"]}
{"id": "C144", "title": "The spatial index of a GeoPackage table follows its rows", "statement": "After any sequence of inserts, replacing inserts, updates and deletes on a table the R-tree of a geometry column has just one entry for each row with a non-empty geometry: the key of the row with the box of the geometry.", "quantifier": "every table, every sequence of row operations, every notion of empty geometry and of box", "why_tests_cant": "the index can get out of step after a particular pair of operations only (change of a key, replacement by a row without geometry), and stays wrong silently", "anchors": ["encoding/gpkg/gpkg.go: Handle.AddGeometryTable"]}
{"id": "C145", "title": "A registered table has its index and its metadata", "statement": "When AddGeometryTable returns no error the table has its rows as before and a spatial index in step with them and kept so by triggers, and the metadata tables say of the table what the description says.", "quantifier": "every file, every table, every description", "why_tests_cant": "depends on what the file holds already: rows, earlier registrations, other columns", "anchors": ["encoding/gpkg/gpkg.go: Handle.AddGeometryTable", "encoding/gpkg/gpkg_no_cgo.go: TableDescription, GeometryType"]}
{"id": "C146", "title": "AddGeometryTable takes every description that fits", "statement": "AddGeometryTable succeeds whenever the reference system is in the file or known, the table exists with the geometry column and a primary key, and table and identifier are not registered yet.", "quantifier": "every file, every table and column name, every description", "why_tests_cant": "names are free text; the refused ones need letters that want quotes, or two tables whose index names coincide", "anchors": ["encoding/gpkg/gpkg.go: Handle.AddGeometryTable, KnownSRS"]}
{"id": "C147", "title": "Registering a table can be repeated after a crash", "statement": "If a crash stops AddGeometryTable between any two of its statements, calling it again leaves the file as an undisturbed call would have.", "quantifier": "every file, every description, every crash point", "why_tests_cant": "one must stop the process between any two SQL statements; tests run to the end", "anchors": ["encoding/gpkg/gpkg.go: Handle.AddGeometryTable"]}
{"id": "C148", "title": "The metadata tables stay consistent", "statement": "In a file made by the package, whatever calls are made, crashes in the middle of AddGeometryTable included, every reference between the metadata tables leads to a row that exists, and their keys and identifiers are unique.", "quantifier": "every sequence of calls, row operations and crashes", "why_tests_cant": "an invariant over unbounded histories with crash points", "anchors": ["encoding/gpkg/gpkg.go: Handle.AddGeometryTable, Handle.UpdateSRS, Handle.UpdateGeometryExtent, initHandle"]}
{"id": "C149", "title": "UpdateSRS inserts or updates", "statement": "After UpdateSRS the file has each reference system as it was given; opening a file again changes no system.", "quantifier": "every file, every list of systems with different numbers, every order of the known systems", "why_tests_cant": "the order in which a Go map is walked is arbitrary; conflicts depend on what is in the file", "anchors": ["encoding/gpkg/gpkg.go: Handle.UpdateSRS, initHandle, KnownSRS"]}
{"id": "C150", "title": "The stored extent of a table is the union of what was given", "statement": "After any sequence of UpdateGeometryExtent calls the bounds stored for a table are the least box around its bounds before and all extents given for it; other tables are untouched; nil changes nothing; a table that is not registered is an error.", "quantifier": "every file, every sequence of calls for any tables with extents in order", "why_tests_cant": "an accumulation over unbounded sequences of calls for several tables", "anchors": ["encoding/gpkg/gpkg.go: Handle.UpdateGeometryExtent"]}
{"id": "C151", "title": "CalculateGeometryExtent is the tightest box around the geometries", "statement": "CalculateGeometryExtent gives the tightest box around the vertices of all readable geometries of the table, nil if there are none; rows with NULL or unreadable values change nothing.", "quantifier": "every file, every content of the geometry column", "why_tests_cant": "the scan keeps the geometry of the row before when a row cannot be read; one needs every order of good and bad rows", "anchors": ["encoding/gpkg/gpkg.go: Handle.CalculateGeometryExtent", "encoding/gpkg/binary_header.go: StandardBinary.Scan, DecodeGeometry"]}
{"id": "C152", "title": "Setters store exactly what they are given", "statement": "SetVertices, SetPoints, SetLinearRings, SetLineStrings, SetPolygons and SetGeometries leave the geometry with exactly the elements of the argument, in order, whatever it held before and however receiver and argument share memory; they fail just for a nil receiver.", "quantifier": "every receiver, every argument, every overlap of their memory, every growth of the array", "why_tests_cant": "the setters reuse the memory of the receiver, and the argument may be a piece of it; a test fixes one layout", "anchors": ["line_string.go: LineString.SetVertices", "multi_point.go: MultiPoint.SetPoints", "polygon.go: Polygon.SetLinearRings", "multi_line_string.go: MultiLineString.SetLineStrings", "multi_polygon.go: MultiPolygon.SetPolygons", "collection.go: Collection.SetGeometries", "line_stringz.go: LineStringZ.SetVertices"]}
{"id": "C153", "title": "Geometries behave as values", "statement": "Setting a geometry, changing one of its elements or cutting it leaves every other geometry variable as it was.", "quantifier": "every program that sets, assigns, changes elements and cuts geometry variables, of any length", "why_tests_cant": "which variable changes depends on the arrays shared by earlier steps; only all histories settle it", "anchors": ["line_string.go: LineString.SetVertices, LineString.Vertices", "line_strings.go: LineStringS.SetSRID, LineStringS.Vertices", "multi_point.go: MultiPoint.SetPoints", "polygons.go: PolygonS.SetSRID"]}
{"id": "C154", "title": "Clone is deep", "statement": "Clone gives a geometry with the same coordinates that shares no memory with the original: later changes of either cannot be seen in the other. It fails just for types it does not know.", "quantifier": "every geometry, every layout of its memory, every sequence of later changes", "why_tests_cant": "a shared inner slice shows only when a deep element is changed afterwards; tests try a few", "anchors": ["utils.go: Clone"]}
{"id": "C155", "title": "A geometry does not change when the argument of its setter is changed later", "statement": "After SetLinearRings, SetLineStrings, SetVertices or SetPoints, assignments through the argument do not change the geometry.", "quantifier": "every geometry, every argument with memory of its own, every later assignment through the argument", "why_tests_cant": "sharing shows only in later changes of inner elements", "anchors": ["polygon.go: Polygon.SetLinearRings", "multi_line_string.go: MultiLineString.SetLineStrings", "line_string.go: LineString.SetVertices"]}
{"id": "C156", "title": "Hull is the smallest region around two places on the sphere", "statement": "spherical.Hull of two places with longitudes at most 360 degrees apart is the smallest region bounded by meridians and parallels around both, across the antimeridian if that is the shorter way; it is never wider than 180 degrees.", "quantifier": "every pair of longitudes and latitudes", "why_tests_cant": "the shorter way round depends on the sign and size of the difference; the boundary at 180 degrees is one point of a continuum", "anchors": ["spherical/extent.go: Hull, Extent"]}
{"id": "C157", "title": "NormalizeUniqueLines gives each segment once", "statement": "NormalizeUniqueLines gives every given segment once, whatever its direction, and nothing else: no two segments of the result are the same within tolerance and no segment is lost.", "quantifier": "every list of segments, every order the unstable sort may give, every tolerance", "why_tests_cant": "equality within tolerance is not transitive, so chains of close segments of any length matter", "anchors": ["planar/line_helpers.go: NormalizeLines, NormalizeUniqueLines, LinesByXY"]}
{"id": "C158", "title": "The edges of polygons with Z, M or an SRID", "statement": "AsSegments of a polygon with Z, M or an SRID gives for each ring of three or more points, in order, all its edges with the closing one first, leaves out shorter rings, and gives back the SRID of the polygon.", "quantifier": "every polygon, with rings of any number and length", "why_tests_cant": "every number of rings and points, and every mix of short and long rings", "anchors": ["polygonz.go: PolygonZ.AsSegments", "polygonm.go: PolygonM.AsSegments", "polygonzm.go: PolygonZM.AsSegments", "polygons.go: PolygonS.AsSegments", "polygonzs.go: PolygonZS.AsSegments", "polygonms.go: PolygonMS.AsSegments", "polygonzms.go: PolygonZMS.AsSegments"]}
{"id": "C159", "title": "Leaving out Z and M changes nothing else", "statement": "LineString and MultiPoint of the variants with Z and M give as many points in the same order with the first two coordinates; the edges of a polygon without Z and M are the edges of the polygon without Z and M; the lines of a multi line string are all given, with an error just if one is nil.", "quantifier": "every line string, multipoint, polygon and multi line string with Z or M", "why_tests_cant": "equations between two functions over all lists", "anchors": ["line_stringz.go: LineStringZ.LineString", "line_stringm.go: LineStringM.LineString", "line_stringzm.go: LineStringZM.LineString", "multi_pointz.go: MultiPointZ.MultiPoint", "multi_line_stringz.go: MultiLineStringZ.AsLineStringZs", "polygonz.go: PolygonZ.AsSegments"]}
{"id": "C160", "title": "FindIntersectingEdges returns just the edges that a segment crosses, in order", "statement": "Beginning with New, InsertSite has been called for any points. For an edge from a point of the subdivision and an edge from another point of it, FindIntersectingEdges returns the edges that the segment from the one point to the other crosses, each once and no others, in the order in which they are crossed.", "quantifier": "every frame, every list of points put in, every two points of the subdivision, every edge from them", "why_tests_cant": "tests try a few segments in a few triangulations; whether the walk from triangle to triangle misses, repeats or invents an edge depends on every triangulation and every segment", "anchors": ["planar/triangulate/delaunay/subdivision/subdivision.go: FindIntersectingEdges", "planar/triangulate/delaunay/quadedge/topo.go: ResolveEdge"]}
{"id": "C161", "title": "Inserting a constraint gives a triangulation with that edge", "statement": "When a constraint between two points of a subdivision is inserted, and no other point is between them, there is an edge between the two afterwards; the subdivision is still a triangulation of its frame with the same points, edges that the segment does not cross are kept, and the vertex index still finds every point. A constraint whose end is not a point of the subdivision, or that crosses too many edges, is an error and changes nothing; one that is an edge already changes nothing.", "quantifier": "for every triangulation made by inserting points, every pair of points and either direction of the y axis", "why_tests_cant": "What is deleted and put back depends on the triangles along the segment, of which there are unboundedly many shapes; a test sees only whether its own points come out well, and the failing cases give no error.", "anchors": ["planar/triangulate/delaunay/subdivision/subdivision_constrained.go: InsertConstraint, ResolveStartingEndingEdges, insertEdge, PseudoPolygonPointCollector", "planar/triangulate/delaunay/subdivision/subdivision.go: VertexIndex"]}
{"id": "C162", "title": "Validate accepts every triangulation that was built, and what its verdict on other subdivisions means", "statement": "Subdivision.Validate returns nil for every subdivision made with New and InsertSite. For any other structure of quad-edges (all ends set, no edge beginning and ending in one ring) it returns nil exactly if: round each point the edges have the same origin and different destinations and, if there are more than two, there are more left turns than right turns from one to the next; every edge has a length; and no two edges that are not parallel and have no common end meet. So nil does not mean that the edges round a point are in counterclockwise order, nor that edges meet only at their ends, which is what the documentation (\"insure the sd was built correctly\") suggests.", "quantifier": "all ordered fields, all sequences of inserted points, all stores of quad-edges reachable by the edge operations, all arrangements of the events by sort", "why_tests_cant": "the verdict depends on all edges and their cyclic orders at once; a test has one subdivision, and both false alarms and missed defects are about structures nobody wrote down", "anchors": ["planar/triangulate/delaunay/subdivision/subdivision.go: Validate, IsValid, WalkAllEdges", "planar/triangulate/delaunay/quadedge/edge.go: Validate, WalkAllONext, AsLine", "planar/intersect/xsweep.go: FindIntersects"]}
{"id": "C163", "title": "GeometryEqual tells geometries apart by kind and parts, returns, and leaves its arguments as they were", "statement": "GeometryEqual says yes to two geometries exactly if they are of one type and their parts agree: points in x and y, multipoints, lines, multilines and polygons by their own comparers, the polygons of a multipolygon in any order, the members of a collection in order and to any depth; a nil pointer equals only a nil pointer of its type. A geometry equals a copy of itself. It returns for every two geometries, and changes neither of them.", "quantifier": "for all comparers, all geometries of every type of the library, nested to any depth, nil pointers included", "why_tests_cant": "The geometries are a recursive type with unbounded nesting and lists; a table of examples tries one pair per kind, and cannot show that no pair of different kinds, no order of polygons and no nesting gives a wrong answer, a panic, or a change to the arguments", "anchors": ["cmp/compare.go: GeometryEqual, PointerEqual, MultiPointerEqual, LineStringerEqual, MultiLineStringerEqual, PolygonerEqual, MultiPolygonerEqual, CollectionerEqual", "cmp/by_xy.go: byPolygonMainSizeXY"]}
{"id": "C164", "title": "Triangulating with constraints gives triangles that have every constraint as a side", "statement": "With EnableConstraints on, and with points and constraints that leave nothing to be desired (coordinates on the grid of a thousandth, no point on a constraint, no two constraints crossing), Triangles of Constrained and of GeomConstrained return the triangles of a triangulation of the frame with just the given points as corners, of which every constraint is a side; constraints that are sides already change nothing.", "quantifier": "for all points, constraints in any order, both orders of winding, with and without the frame", "why_tests_cant": "Tests triangulate a few figures and look at the count or at a picture; whether a constraint is a side, and whether the triangles have holes, depends on how many edges each constraint crosses when its turn comes, which depends on all points and on all constraints before.", "anchors": ["planar/triangulate/delaunay/constrained.go: GeomConstrained.Triangles, Constrained.Triangles, EnableConstraints", "planar/triangulate/delaunay/subdivision/subdivision_constrained.go: InsertConstraint", "planar/triangulate/delaunay/subdivision/subdivision.go: NewForPoints, Triangles, VertexIndex"]}
{"id": "C165", "title": "An extent is one rectangle, however it is looked at", "statement": "Vertices, edges and polygon of an extent are the corners, sides and ring of the same rectangle, in the documented order and, if a winding test is given, in the direction it accepts; building an extent from the corners gives it back. The nil extent has every finite point in it and is not changed by adding to it. An extent is the universe just if every finite point is in it, and then it contains every geometry. A line is contained just if both ends are. An extent from a geometry fails just for geometries with a part of unknown type.", "quantifier": "for all extents, points and geometries", "why_tests_cant": "All float values, all winding functions and all nested geometries are quantified over.", "anchors": ["bbox.go: Vertices, Edges, AsPolygon, MinX, MaxX, MinY, MaxY, Extent, AddPointers, ContainsLine, ContainsGeom, IsUniverse, NewExtentFromGeometry"]}
{"id": "C166", "title": "Lists of floats are equal just if they can be paired off", "statement": "FloatSlice answers yes just if the floats of the two lists can be paired off so that each is equal to its partner within the tolerances; the order of the lists does not matter, and a list equals each of its permutations.", "quantifier": "for all tolerances, all sorting algorithms and all lists of numbers", "why_tests_cant": "There are n! pairings for lists of any length, and the comparison of floats is not transitive.", "anchors": ["cmp/compare.go: FloatSlice, Float"]}
{"id": "C167", "title": "The winding of points with integer coordinates", "statement": "OfInt64Points, which decides how the rings of a vector tile are wound, answers as the sign of the enclosed area has it: clockwise or counter-clockwise as the ring turns, colinear exactly if the area is zero. Its sums are made in float64, so this is only so for coordinates that are not too far apart: as long as twice the square of the largest distance from the first point times the number of points is at most 2^53 the answer is right; beyond, it is right if the area is large enough for the number of points; and a triangle is never given the opposite winding, at worst it is called colinear.", "quantifier": "all lists of integer points of any length, both directions of the y axis", "why_tests_cant": "a test tries small rings; a sum of products of large integers is rounded at every step, and only a bound on all the roundings tells for which coordinates the sign survives", "anchors": ["winding/winding.go: Order.OfInt64Points, Orientation, Orient, xprod", "encoding/mvt/feature.go: encodeLinearRing"]}
{"id": "C168", "title": "Where lines and segments meet, in floating point", "statement": "LineIntersect and LineIntersectBigFloat report a point exactly for lines that are not parallel, and its coordinates are the floats nearest to those of the common point; SegmentIntersect says that segments meet exactly if they are not parallel and share a point. With coordinates of up to 16 bits on a common scale (35 bits for the function with big floats) this holds in the arithmetic that the code uses; for arbitrary float64 it does not.", "quantifier": "all pairs of lines; all scales 2^-300 .. 2^300", "why_tests_cant": "the claim is about every rounding in the evaluation of a formula with a dozen operations, for all coordinates", "anchors": ["planar/line_intersect.go: LineIntersect, LineIntersectBigFloat, SegmentIntersect, bigFloat"]}
{"id": "C169", "title": "Containment of a point given by big floats", "statement": "ContainsPointBigFloat answers whether the point is in the box of the line and leaves the point as it was. It compares numbers rounded to 20 bits: a point in the box is never missed, one that is accepted is beyond no side by more than 2^-20 of the numbers compared, and for numbers of at most 20 bits the answer is exact. The big floats of the caller are rounded in place, so that the point is only kept if it has at most 20 bits.", "quantifier": "all lines and points", "why_tests_cant": "the effect is on numbers that differ from the bound by less than a millionth, and on an argument that a test does not look at again", "anchors": ["line.go: Line.ContainsPointBigFloat, PrecisionLevelBigFloat"]}
{"id": "C170", "title": "Geometries as values of a database column", "statement": "A geometry stored through the database driver interface (Value) is what reading it back (Scan) gives, whatever the receiver held before; Scan accepts exactly byte values that hold a GeoPackage geometry (no NULL, no text) into a receiver that is not nil; a Scan that fails leaves the receiver as it was; Value fails exactly for a nil receiver, a nil header or an unknown geometry; Extent is nil for nothing, unknown or empty and else the least box. The srs id that is stored is that of the header; a row that is read, given another geometry and stored keeps header and srs id.", "quantifier": "all values, receivers and byte strings", "why_tests_cant": "a test stores some geometries into a fresh receiver; it does not settle what every failed Scan leaves behind or which values are accepted", "anchors": ["encoding/gpkg/binary_header.go: StandardBinary.Value, StandardBinary.Scan, StandardBinary.Extent, StandardBinary.Encode, DecodeGeometry, BinaryHeader.EncodeTo"]}
{"id": "C171", "title": "Types of geometry columns", "statement": "TypeForGeometry gives a geometry the number and name that the GeoPackage standard has for its type, the number being the one its WKB starts with; the names of different types differ; and for every type there is an empty geometry of that type (Empty), except that multipoint has none.", "quantifier": "all geometries, all byte strings that decode, all type numbers", "why_tests_cant": "agreement of two tables in different packages with the wire format for every decodable input", "anchors": ["encoding/gpkg/gpkg_no_cgo.go: TypeForGeometry, GeometryType.Empty, GeometryType.String", "encoding/wkb/internal/consts/consts.go"]}
{"id": "C172", "title": "Rounding to a number of decimals", "statement": "Rounding a number to a given number of decimals gives the float64 of a decimal with that many digits that is nearest to the number; it keeps the order of numbers and does not depend on their sign; a number that is such a decimal stays as it is, and rounding twice is rounding once.", "quantifier": "for all finite float64 numbers and all precisions, positive, zero or negative", "why_tests_cant": "The product with the power of ten is itself rounded, so a number just below a half can come out on the other side, and large products or precisions overflow; a table of a few numbers cannot show which of the 2^64 inputs are affected.", "anchors": ["geom.go: RoundToPrec"]}
{"id": "C173", "title": "Expanding and scaling an extent", "statement": "An extent expanded by a positive distance contains the old one and each edge is as near to its due place as a float64 can be; expanded by a negative distance it lies in the old one; scaled by a number of either sign it is in order and contains every scaled point of the old one; an expansion can be taken back.", "quantifier": "for all extents of finite float64 numbers and all distances and factors of either sign", "why_tests_cant": "Whether the edges change places depends on the sign and on how the distance compares with the width, and every edge is rounded; a sample of extents cannot cover the combinations.", "anchors": ["bbox.go: Extent.ExpandBy, Extent.ScaleBy, NewExtent"]}
{"id": "C174", "title": "A subdivision made of lines has the lines as its edges, and puts them in order around their ends", "statement": "For every list of at least one line, each with two different ends, NewSubdivisionFromGeomLines returns a subdivision without panicking. Its point count is the number of different ends. The edges that can be come to from its starting edge are just the lines that can be come to from the starting edge's origin along lines, each line once in either direction; edges with one origin are on one ring. If the lines hang together WalkAllEdges comes by every line just once. If the lines meet at their ends only, the edges around every point are in counterclockwise order, the subdivision keeps the order it was given, and its frame is a triangle around all points.", "quantifier": "every list of lines, every position of their ends, both senses of the y axis, every way the lines hang together", "why_tests_cant": "the rings are linked one line at a time and what is linked depends on all the lines before; a wrong neighbour shows only at points with three or more lines added in a certain order", "anchors": ["planar/triangulate/delaunay/subdivision/geom.go: NewSubdivisionFromGeomLines", "planar/triangulate/delaunay/quadedge/topo.go: Connect, Splice", "planar/triangulate/delaunay/quadedge/resolve_edge.go: ResolveEdge"]}
{"id": "C175", "title": "Which documents the GeoJSON decoder takes", "statement": "An object is taken for a geometry if and only if its last member type is one of the names of RFC 7946 and its last member coordinates is an array nested to the depth of that kind of geometry, whose innermost arrays are positions of at most two elements that are numbers or null; the value returned has just these positions. A geometry collection may lack its member geometries, and otherwise each element must be taken for a geometry; a null there makes the decoder panic. At the top only features and collections of features are read, named without regard to case.", "quantifier": "for all JSON documents, every nesting and order of members, repeated members included", "why_tests_cant": "Documents are unbounded in size and depth, and repeated, missing and null members combine freely; a table of documents shows only that some are taken and some refused.", "anchors": ["encoding/geojson/geojson.go: Geometry.UnmarshalJSON, Unmarshal"]}
{"id": "C176", "title": "New never harms a file, and makes a GeoPackage where there is none", "statement": "New returns os.ErrExist for a file with something in it and leaves it as it is; where there is nothing or an empty file it makes a GeoPackage with the application id, the version, the four metadata tables and the known reference systems; it never panics, a file with something in it at the time it is opened is not changed even if another process made it, and after a crash the call can be made again. Open takes an existing database and keeps its rows, and ends what a crash cut short.", "quantifier": "for every kind of file under the name, every change by other processes between the look and the opening, every crash point, every order in which the known systems are walked", "why_tests_cant": "The outcome depends on what other processes do between two system calls and on where a crash falls; a test has one file system state and one schedule.", "anchors": ["encoding/gpkg/gpkg.go: New, Open, nonZeroFileExists, initHandle"]}
{"id": "C177", "title": "Open may be called from several goroutines", "statement": "Any number of goroutines may call Open at the same time; no call panics because of another.", "quantifier": "for every number of goroutines and every interleaving of their steps", "why_tests_cant": "A race shows only in some schedules, and a process registers its driver only once, so a test run almost never meets it.", "anchors": ["encoding/gpkg/gpkg.go: drivername, Open"]}
{"id": "C178", "title": "The pixel ratio of a zoom holds for all its tiles", "statement": "At every zoom the ratio that PixelRatioForZoom returns, times the number of pixels of a tile, is the width and the height of every tile of that zoom in the units of the grid. A zoom above 22 is taken for 22 and no pixels for 4096.", "quantifier": "for all zooms, tile sizes and tiles, in degrees and in Web Mercator", "why_tests_cant": "The ratio is computed from the first tile only and used for all 4^z tiles of a zoom.", "anchors": ["slippy/tile.go: PixelRatioForZoom, MvtPixelRationForZoom", "slippy/tile_grid.go: Extent, Grid.ToNative, Grid4326.ToNative"]}
{"id": "C179", "title": "The scale factor of UTM is 0.9996 in the middle of every zone", "statement": "The function that gives the scale of the projection at a longitude and latitude gives 0.9996 at every place on the central meridian of every one of the sixty zones, whatever the eccentricity.", "quantifier": "Every zone, every latitude from 80 south to 84 north and every eccentricity from 0 up to 1.", "why_tests_cant": "There is no test of the function at all, and tests could look at a few places only; the claim is about a real-valued series over all places.", "anchors": ["planar/coord/utm/utm.go: ScalarFactor, k0, l0", "planar/coord/coord.go: LngInRadians, LatInRadians"]}
{"id": "C180", "title": "A tile becomes a message with all its layers", "statement": "Turning a tile into a message succeeds whenever all its features are of kinds the format has and the values of their tags are of supported types. The message has one layer for each layer of the tile, in order, of version 2, with its name and with the extent that was set, or 4096 if none was.", "quantifier": "Every list of layers with any features, tags in any order of iteration, and (for what is in the message) every moment at which the context may end.", "why_tests_cant": "Tiles, layers, features and orders of iteration over maps are unbounded; tests try a few tiles.", "anchors": ["encoding/mvt/tile.go: VTile", "encoding/mvt/layer.go: VTileLayer, Extent, SetExtent", "encoding/mvt/feature.go: VTileFeature, encodeGeometry"]}
{"id": "C181", "title": "The winding of float64 points does not depend on how the ring is written", "statement": "The winding of a ring of float64 points is the opposite when the ring is read backwards and the same wherever it starts. Mirroring the points or swapping their axes turns it round, turning them or scaling them by a power of two does not, nor do points that are repeated.", "quantifier": "Every ring of points with float64 coordinates, both directions of the y axis, every start and every power of two as a scale.", "why_tests_cant": "Whether rounding changes a sign depends on the very bits of the coordinates, of which there are too many to try; random tests do not come near the cases where it matters.", "anchors": ["winding/winding.go: xprod, Orient, Orientation, Order.OfPoints, Order.OfGeomPoints"]}
{"id": "C182", "title": "Every tile message that the format allows is read", "statement": "Reading a Mapbox vector tile gives one layer for each layer of the message, in order, with its name, its extent (4096 where the message leaves it out) and its features with their ids; a message that cannot be read is refused with an error and never makes the program panic.", "quantifier": "for every message: any layers, any features, fields that the format lets a writer leave out left out, any type number and any geometry words", "why_tests_cant": "Tiles come from other programs: which fields they leave out, and in which layer or feature the first unreadable part lies, has no end of cases; a test shows a few files made by one writer.", "anchors": ["encoding/mvt/decode.go: Decode, DecodeByte, decodeLayer, decodeFeature, DecodeGeometry"]}
{"id": "C183", "title": "A tile written and read again is the same tile", "statement": "Layers turned into a tile message and read again come back with the same names, extents, and features: same number and order, same ids, same tags, and the same geometries (a multi geometry of one member as that member, polygon rings turned and freed of rings without area as the format asks).", "quantifier": "for all layers, features, tags and extents, and all geometries within 32-bit steps that the format has a place for", "why_tests_cant": "A round trip of sample tiles shows one mixture of geometries and tags; that the parts do not disturb one another must hold for any number of layers and features.", "anchors": ["encoding/mvt/decode.go: DecodeByte, TileGeomCollection", "encoding/mvt/tile.go: VTile", "encoding/mvt/layer.go: VTileLayer", "encoding/mvt/feature.go: VTileFeature"]}
{"id": "C184", "title": "Tolerant equality of floats is closeness of the numbers", "statement": "A comparator made for a tolerance t between 0 and 1, or for a number of digits, calls two finite numbers equal just when they differ by less than t times the larger of the two (by less than t if one of them is zero); in particular a number is equal to itself.", "quantifier": "for every tolerance and every pair of finite floats, of any size, sign and distance", "why_tests_cant": "The comparison is made on bit patterns, whose distance means another distance of numbers in every binade; tests use a few numbers near 1 and cannot tell what the tolerance means elsewhere.", "anchors": ["cmp/compare.go: New, NewForNumPrecision, Compare.Float", "cmp/cmp.go: BitToleranceFor"]}
{"id": "C185", "title": "The extent of a hit map is the least box around its polygons", "statement": "The extent that a hit map reports is the smallest box that contains every vertex of the polygons it was made from, whether these come as a polygon, a multipolygon or nested in collections, and its area is the area of that box; every point labelled inside lies in the extent.", "quantifier": "every geometry for which a hit map is made, every point", "why_tests_cant": "Tests check a handful of polygons, mostly with a corner at the origin, where the wrong start of the box does not show.", "anchors": ["planar/makevalid/hitmap/polygon_hitmap.go: PolygonHM.Extent, PolygonHM.Area", "planar/makevalid/hitmap/hitmap.go: OrderedHM.Extent, OrderedHM.Area", "planar/intersect/ring.go: Ring.Extent"]}
{"id": "C186", "title": "The parts of a collection's hit map are tried from the largest to the smallest", "statement": "The hit map of a collection consists of the hit maps of exactly those members that have one, and a part never comes before one whose area is larger.", "quantifier": "every collection of geometries, every behaviour of the sort with ties", "why_tests_cant": "The order depends on all areas at once and on a sort that is then reversed; a test shows it for one collection only.", "anchors": ["planar/makevalid/hitmap/hitmap.go: New, NewOrderedHM, ByAreaDec"]}
{"id": "C187", "title": "The orders of lines are orders", "statement": "Sorting lines by their points or by their length follows an order without contradiction: no line comes before itself, coming before is transitive, and of two different lines one comes before the other, so that the sorted list does not depend on the order in which the lines were given; in the order by length shorter lines come first.", "quantifier": "every list of lines, every tolerance of the comparison of points", "why_tests_cant": "A contradiction needs three lines whose starts are pairwise just within and just outside of the tolerance; tests sort a few well separated lines.", "anchors": ["planar/line_helpers.go: LinesByXY, LinesByLength", "line.go: Line.LengthSquared", "cmp/compare.go: Compare.PointLess"]}
{"id": "C188", "title": "The sign of a triangle's area tells its winding, in floats", "statement": "The area that a triangle reports is positive, negative or zero exactly if its corners, as the floats they are, wind counter-clockwise, wind clockwise, or are on one line.", "quantifier": "every triangle whose corners are finite floats (no over- or underflow)", "why_tests_cant": "Rounding errors show up only for thin triangles far from the origin; a test of a few triangles cannot tell for which coordinates the sign is reliable.", "anchors": ["triangle.go: Triangle.Area"]}
{"id": "C189", "title": "The circle test is right in floats", "statement": "A point is reported to be within the circle through three points that wind counter-clockwise exactly if it is strictly closer to the centre of that circle than the three points are.", "quantifier": "every four points whose coordinates are finite floats (no over- or underflow)", "why_tests_cant": "The answer depends on the rounding of products of four coordinates; tests use small numbers, for which everything is exact.", "anchors": ["point.go: Point.WithinCircle", "triangle.go: Triangle.Area"]}
{"id": "C190", "title": "The centre of a triangle is in the box around it, in floats", "statement": "The centre that a triangle reports is not outside of the box around its corners, and is its centroid up to rounding.", "quantifier": "every triangle whose corners are finite floats (no over- or underflow)", "why_tests_cant": "The sum of three floats is rounded twice and the quotient once more; whether the errors can carry the result over the border depends on all bits of the corners.", "anchors": ["triangle.go: Triangle.Center"]}
{"id": "C191", "title": "The ends of a segment are on it, in floats", "statement": "Asking whether a point is on a segment answers yes for both ends of the segment, whatever its direction, for any comparison that is at all tolerant; and a point for which the answer is yes is in the box of the segment and near the line.", "quantifier": "every segment and point with finite float coordinates (no over- or underflow), every comparison of numbers that is as tolerant as stated", "why_tests_cant": "The intercept is computed as a difference of numbers that can be much larger than the coordinates: how wrong it gets depends on the slope and on the distance from the y axis, and no sample of segments shows the worst case.", "anchors": ["planar/planar.go: Slope, IsPointOnLine, IsPointOnLineSegment"]}
{"id": "C192", "title": "The triangle around points has them inside, in floats", "statement": "The triangle made to contain some points is a proper triangle, and every one of the points is inside of it and not on a side; without points there is a panic.", "quantifier": "every non-empty list of points with finite float coordinates (no over- or underflow)", "why_tests_cant": "The corners are found by adding multiples of the size of the extent and a constant to it, all rounded; whether a point comes to lie on a side depends on the ratio of the size of the extent to its distance from the origin.", "anchors": ["triangle.go: NewTriangleContaining, NewTriangleContainingPoints, NewTriangleForExtent"]}
{"id": "C193", "title": "The square of a distance, in floats", "statement": "The square of the distance of two points is a finite number, the same in both directions, zero just for equal points, right up to a few units of rounding, and does not get larger when the points get nearer along both axes.", "quantifier": "every two points with finite float coordinates, of any size from the smallest subnormal number on", "why_tests_cant": "Squares leave the range of floats for coordinates that are still far within it; which pairs are affected depends on both coordinates, and the order of distances has to hold for every pair of pairs.", "anchors": ["planar/distance.go: PointDistance2"]}
{"id": "C194", "title": "Positions in a tile are right in floats, except just beyond the right and the lower side", "statement": "When a geometry is put into a vector tile, the pixel computed in float64 for a point lies in the square of the tile just if the point lies in the tile. Points of the tile never leave the square, the sides of the tile are the sides of the square exactly, a pixel is negative exactly for points left of or above the tile, the order of points is kept, and each coordinate is right up to five units of rounding.", "quantifier": "for every tile with sides in order, every pixel extent and every point, as floats", "why_tests_cant": "Each pixel is the result of four rounded operations, and the claims hold or fail by the last bit; tests use a few tiles and compare with tolerance.", "anchors": ["encoding/mvt/prepare.go: preparept, PrepareGeo", "bbox.go: Extent.XSpan, Extent.YSpan"]}
{"id": "C195", "title": "A triangle of a subdivision intersects just the points in it", "statement": "IntersectsPoint of a triangle of a subdivision is true exactly for the points that lie in the triangle, inside or on a side, whichever way the y axis points. It is false for the triangle without an edge.", "quantifier": "for every subdivision that can be made with the operations on edges, every edge with a triangle to its right, every point and both directions of the y axis", "why_tests_cant": "The answer is put together from up to three classifications with early exits, one for each of seven cases; tests have none for it, and would look at a few points in one triangle with one axis direction.", "anchors": ["planar/triangulate/delaunay/subdivision/triangle.go: Triangle.IntersectsPoint, NewTriangle, Triangle.StartingEdge", "planar/triangulate/delaunay/quadedge/qtype.go: Classify"]}
{"id": "C196", "title": "The neighbours of a triangle are found", "statement": "For two triangles of a subdivision that have a side in common, SharedEdge is this side, as an edge of the first, and nil for triangles without one; OppositeVertex is the corner of the other triangle that is not on this side; OppositeTriangle for a corner is the triangle across the side opposite to it, and an error for a point that is no corner.", "quantifier": "for every subdivision that can be made with the operations on edges and any two edges with triangles to their right", "why_tests_cant": "Which corner comes out depends on which side of the shared edge the triangle is; it takes all positions of the two starting edges to see that the loops meet every pair of sides.", "anchors": ["planar/triangulate/delaunay/subdivision/triangle.go: Triangle.SharedEdge, Triangle.OppositeVertex, Triangle.OppositeTriangle"]}
{"id": "C197", "title": "The geometry of a triangle of a subdivision is its corners, counterclockwise", "statement": "AsGeom of a triangle of a subdivision has the three corners of the triangle, begins with the point its edge starts from, and goes counterclockwise to the eye; so its Area is positive just if the y axis points up.", "quantifier": "for every subdivision that can be made with the operations on edges, every edge with a triangle to its right and both directions of the y axis", "why_tests_cant": "The order comes from how RNext links edges, which depends on all operations made before; tests of it use triangles of one subdivision.", "anchors": ["planar/triangulate/delaunay/subdivision/geom.go: Triangle.AsGeom", "triangle.go: Triangle.Area"]}
{"id": "C198", "title": "Eastings and northings for NATO are the metres in the square", "statement": "NatoEasting and NatoNorthing of a UTM coordinate are a number from 0 to 99999: the whole metres from the beginning of its square of a hundred kilometres to the coordinate.", "quantifier": "for every coordinate", "why_tests_cant": "Coordinates are a continuum, and the conversion to int and the remainder treat negative numbers differently from what a floor would do; tests have no negative coordinate.", "anchors": ["planar/coord/utm/utm.go: Coord.NatoEasting, Coord.NatoNorthing"]}
{"id": "C199", "title": "The bounding boxes of an R-tree are layers of groups", "statement": "The list of all bounding boxes of an R-tree consists of one layer less than the tree is high. Each layer puts all stored objects into groups, every object into exactly one, and holds for each group the smallest box around it. So in a tree with more than one level every stored object lies in a listed box, no listed box is larger than the objects in it need, and a tree of one level lists no box.", "quantifier": "all trees reached by any history of inserts and deletes or by bulk load, all objects and boxes, any number of dimensions", "why_tests_cant": "Boxes are kept up to date by inserts, splits, condensing and bulk load; a box left stale by one of them shows only after certain histories.", "anchors": ["internal/rtreego/rtree.go: Rtree.GetAllBoundingBoxes, node.getAllBoundingBoxes"]}
{"id": "C200", "title": "The tiles of bounds are the tiles of the places in them", "statement": "On the longitude/latitude grid, the tiles listed for bounds are exactly the tiles that are found for the places in the bounds: no place in the bounds is in a tile that is missing, and no tile is listed that has no place in the bounds.", "quantifier": "all bounds, also beyond the limits of the map, all places in them, all zooms up to the maximum and all tile sizes from 5 pixels", "why_tests_cant": "Rows go against the latitude, places are clamped at the edges of the map and nudged at borders of tiles; tests look at a few bounds and compare lists of tiles, not at places in them.", "anchors": ["slippy/tile.go: FromBounds", "slippy/tile_grid.go: Grid4326.FromNative", "slippy/maths.go: lat2Num, lon2Num"]}
{"id": "C201", "title": "The size of a zoom counts the tiles that can be found", "statement": "A grid has a size for exactly the zooms up to the maximum. The tiles that are found for places at a zoom are exactly those with column and row below the size: none is beyond, and every one of them is found for some place. The tile named by the size itself, one beyond the last, has the lower right corner of the map as its upper left corner.", "quantifier": "all zooms, all places on and off the map, all tile sizes from 5 pixels, all tiles", "why_tests_cant": "That a tile is never found, or that one beyond the size is, depends on single places among infinitely many; at zoom 22 there are sixteen million million tiles.", "anchors": ["slippy/tile.go: Zoom.TileSize", "slippy/tile_grid.go: Grid.Size, Grid4326.Size, Grid4326.FromNative, Grid4326.ToNative"]}
{"id": "C202", "title": "Colinear lines in floats are what they are in exact arithmetic", "statement": "The answer whether two lines are colinear is, for coordinates that are floats, the one that exact arithmetic gives: true exactly if the lines have the same direction and an end of the second is in the box around the first.", "quantifier": "all pairs of lines with finite coordinates, without over- or underflow", "why_tests_cant": "The test compares a rounded value with zero, so it depends on the last bits of four differences and two products; tests use small whole numbers, for which nothing rounds.", "anchors": ["planar/line_intersect.go: AreLinesColinear"]}
