import Verif.Model.F64
import Verif.Model.Geom
import Verif.Model.Wkb
import Verif.Spec.Wkb
import Verif.Lemmas.Wkb
import Verif.Lemmas.WkbEnc
import Verif.Props.Wkb
import Verif.Model.Extent
import Verif.Spec.Extent
import Verif.Lemmas.F64
import Verif.Lemmas.Extent
import Verif.Props.Extent
import Verif.Lemmas.Traverse
import Verif.Props.Traverse
import Verif.Model.Empty
import Verif.Model.Gpkg
import Verif.Spec.Gpkg
import Verif.Lemmas.Gpkg
import Verif.Props.Gpkg
import Verif.Model.Winding
import Verif.Spec.Winding
import Verif.Lemmas.Winding
import Verif.Props.Winding
import Verif.Spec.Mvt
import Verif.Model.Mvt
import Verif.Lemmas.Mvt
import Verif.Props.Mvt
import Verif.Model.MvtLayer
import Verif.Spec.MvtLayer
import Verif.Lemmas.MvtLayer
import Verif.Props.MvtLayer
import Verif.Model.Cmp
import Verif.Spec.Cmp
import Verif.Lemmas.Cmp
import Verif.Props.Cmp
import Verif.Model.Slippy
import Verif.Spec.Slippy
import Verif.Lemmas.Slippy
import Verif.Props.Slippy
import Verif.Model.SlippyMath
import Verif.Lemmas.SlippyMath
import Verif.Props.SlippyMath
import Verif.Model.Wkt
import Verif.Spec.Wkt
import Verif.Lemmas.Wkt
import Verif.Lemmas.WktEnc
import Verif.Lemmas.WktBack
import Verif.Lemmas.WktBal
import Verif.Props.Wkt
import Verif.Model.GeoJson
import Verif.Spec.GeoJson
import Verif.Lemmas.GeoJson
import Verif.Lemmas.GeoJsonFeat
import Verif.Lemmas.GeoJsonMem
import Verif.Props.GeoJson
import Verif.Props.Simplify
import Verif.Props.Planar
import Verif.Props.Shapes
import Verif.Props.KdTree
import Verif.Props.Intersect
import Verif.Props.RTree
import Verif.Model.RTreeNearest
import Verif.Lemmas.RTreeNearest
import Verif.Props.SegIndex
import Verif.Spec.RTreeNearest
import Verif.Lemmas.RTreeKnn
import Verif.Lemmas.RTreeOcc
import Verif.Props.RTreeNearest
import Verif.Props.QuadEdge
import Verif.Props.Utm
import Verif.Props.Clip
import Verif.Props.Walker
import Verif.Props.WalkerRing
import Verif.Props.Destructure
import Verif.Props.HitMap
import Verif.Props.Makevalid
import Verif.Props.PseudoPolygon
import Verif.Props.Resolve
import Verif.Props.SubWalk
import Verif.Props.Subdivision
import Verif.Props.SubTriangle
import Verif.Props.UtmNato
import Verif.Props.InsertSite
import Verif.Props.Delaunay
import Verif.Props.Triangles
import Verif.Props.DelaunayPoints
import Verif.Model.MvtPrepare
import Verif.Spec.MvtPrepare
import Verif.Lemmas.MvtPrepare
import Verif.Model.GpkgDb
import Verif.Spec.GpkgDb
import Verif.Lemmas.GpkgIndex
import Verif.Lemmas.GpkgTables
import Verif.Lemmas.GpkgAdd
import Verif.Lemmas.GpkgExtent
import Verif.Props.MvtPrepare
import Verif.Props.GpkgDb
import Verif.Model.Memory
import Verif.Spec.Memory
import Verif.Lemmas.Memory
import Verif.Props.Memory
import Verif.Model.Spherical
import Verif.Spec.Spherical
import Verif.Lemmas.Spherical
import Verif.Props.Spherical
import Verif.Model.Lines
import Verif.Spec.Lines
import Verif.Lemmas.Lines
import Verif.Props.Lines
import Verif.Model.Dims
import Verif.Spec.Dims
import Verif.Lemmas.Dims
import Verif.Props.Dims
import Verif.Model.Constrained
import Verif.Spec.Constrained
import Verif.Lemmas.CrossGeom
import Verif.Lemmas.CrossCells
import Verif.Lemmas.CrossWalk
import Verif.Props.Constrained
import Verif.Lemmas.CrossSplit
import Verif.Lemmas.CrossInsert
import Verif.Props.InsertConstraint
import Verif.Model.Validate
import Verif.Spec.Validate
import Verif.Lemmas.Validate
import Verif.Lemmas.ValidateMesh
import Verif.Lemmas.ValidateStar
import Verif.Lemmas.ValidateEnds
import Verif.Props.Validate
import Verif.Model.GeoEqual
import Verif.Spec.GeoEqual
import Verif.Lemmas.GeoEqual
import Verif.Props.GeoEqual
import Verif.Model.ConstrainedTriangles
import Verif.Spec.ConstrainedTriangles
import Verif.Lemmas.TriCover
import Verif.Lemmas.ConstrainedTriangles
import Verif.Props.ConstrainedTriangles
import Verif.Props.ExtentShape
import Verif.Props.FloatSlice
import Verif.Props.RoundedWinding
import Verif.Props.RoundedLines
import Verif.Props.GpkgScan
import Verif.Props.Float64
import Verif.Props.FromLines
import Verif.Props.GeoJsonRead
import Verif.Props.GpkgOpen
import Verif.Props.PixelRatio
import Verif.Props.UtmScale
import Verif.Props.MvtTile
import Verif.Props.RoundedTurn
import Verif.Props.MvtDecode
import Verif.Props.CmpNew
import Verif.Model.HitMapExtent
import Verif.Spec.HitMapExtent
import Verif.Lemmas.HitMapExtent
import Verif.Props.HitMapExtent
import Verif.Model.LineOrders
import Verif.Spec.LineOrders
import Verif.Lemmas.LineOrders
import Verif.Props.LineOrders
import Verif.Model.RoundedArea
import Verif.Spec.RoundedArea
import Verif.Lemmas.RoundedArea
import Verif.Props.RoundedArea
import Verif.Model.RoundedOnLine
import Verif.Lemmas.RoundedOnLine
import Verif.Props.RoundedOnLine
import Verif.Model.RoundedFrame
import Verif.Model.RoundedPixel
import Verif.Lemmas.RoundedFrame
import Verif.Lemmas.RoundedPixel
import Verif.Props.RoundedFrame
import Verif.Props.RoundedPixel
import Verif.Model.Float64Distance
import Verif.Lemmas.Float64Distance
import Verif.Props.Float64Distance
import Verif.Props.RTreeBoxes
import Verif.Props.SlippyBounds
import Verif.Props.SlippySize
import Verif.Props.RoundedColinear
