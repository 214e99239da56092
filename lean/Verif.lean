import Verif.Props.Store
import Verif.Props.Build
import Verif.Props.Traverse
import Verif.Props.Check
import Verif.Props.Path
import Verif.Props.Apex
import Verif.Props.Split
import Verif.Props.Import
import Verif.Props.Graph
import Verif.Props.Matrix
import Verif.Props.Iso
import Verif.Props.IsoFull
import Verif.Props.Geom
import Verif.Props.Triangulation
import Verif.Props.Tess
import Verif.Props.Ear
import Verif.Props.Dynamic
import Verif.Props.Quad
import Verif.Props.Mono
import Verif.Props.Sweep
import Verif.Props.Curve
import Verif.Props.Transform
import Verif.Props.Subdivision
import Verif.Props.Interpolator
import Verif.Props.CloseVertices
import Verif.Props.Loft
import Verif.Props.LoftPoly
import Verif.Props.Extrude
import Verif.Props.Solids
import Verif.Props.Spheres
import Verif.Props.Geodesic
import Verif.Props.Face3d
import Verif.Props.Prisms
import Verif.Props.UvSphere
import Verif.Model.Delaunay
import Verif.Lemmas.ChainRun
import Verif.Lemmas.Delaunay
import Verif.Lemmas.Funnel
import Verif.Lemmas.DelaunayRun
import Verif.Props.InCircle
import Verif.Props.Delaunay
import Verif.Props.Monotone
import Verif.Lemmas.SweepMono
import Verif.Props.SweepMono
import Verif.Model.DynamicMono
import Verif.Props.DynamicMono
import Verif.Model.Polygon
import Verif.Props.Contains
import Verif.Props.ValidDiagonal
import Verif.Lemmas.SimplePolygon
import Verif.Lemmas.SimpleSplit
import Verif.Lemmas.SimpleTriangulation
import Verif.Props.SimplePolygon
import Verif.Lemmas.SimpleTiling
import Verif.Props.SimpleTiling
import Verif.Lemmas.SimpleEar
import Verif.Props.EarSimple
import Verif.Model.PathBuilder
import Verif.Spec.PathBuilder
import Verif.Lemmas.PathBuilder
import Verif.Lemmas.PathState
import Verif.Props.PathBuilder
import Verif.Model.Face2d
import Verif.Spec.Face2d
import Verif.Lemmas.Face2d
import Verif.Props.Face2d
import Verif.Model.SelfIntersect
import Verif.Props.SelfIntersect
import Verif.Model.TriangulateFace
import Verif.Spec.TriangulateFace
import Verif.Lemmas.Tiling3
import Verif.Lemmas.Flat3
import Verif.Props.TriangulateFace
import Verif.Lemmas.Cone
import Verif.Lemmas.Angle
import Verif.Lemmas.ConvexInner
import Verif.Model.DelaunayFace
import Verif.Spec.DelaunayFace
import Verif.Lemmas.DelaunayFace
import Verif.Props.DelaunayFace
import Verif.Model.Export
import Verif.Spec.Export
import Verif.Lemmas.Export
import Verif.Props.Export
import Verif.Lemmas.NoGaps
import Verif.Spec.Pipeline
import Verif.Props.Pipeline
import Verif.Lemmas.FramePolygon
import Verif.Lemmas.Radial
import Verif.Model.RegularPolygon
import Verif.Props.RegularPolygon
import Verif.Props.RandomStar
import Verif.Model.MeshTransform
import Verif.Lemmas.MeshTransform
import Verif.Spec.MeshTransform
import Verif.Lemmas.Linear3
import Verif.Props.MeshTransform
import Verif.Model.SmoothNormals
import Verif.Spec.SmoothNormals
import Verif.Props.SmoothNormals
import Verif.Props.ExportVolume
import Verif.Lemmas.NoGapsLoft
import Verif.Lemmas.NoGapsSubdivision
import Verif.Lemmas.Fine
import Verif.Lemmas.AddsFaces
import Verif.Spec.ExportSolid
import Verif.Props.ExportSolid
import Verif.Props.ExportShapes
import Verif.Model.Fonts
import Verif.Spec.Fonts
import Verif.Lemmas.Ring
import Verif.Props.Fonts
import Verif.Model.Flatten
import Verif.Spec.Flatten
import Verif.Lemmas.SplitLoop
import Verif.Props.Flatten
import Verif.Spec.TextMesh
import Verif.Props.TextMesh
import Verif.Model.Spherical
import Verif.Spec.Spherical
import Verif.Props.Spherical
import Verif.Model.Svg
import Verif.Spec.Svg
import Verif.Props.Svg
import Verif.Model.Zigzag
import Verif.Spec.Zigzag
import Verif.Props.Zigzag
import Verif.Model.IndexedStore
import Verif.Spec.IndexedStore
import Verif.Props.IndexedStore
import Verif.Model.BevyExport
import Verif.Spec.BevyExport
import Verif.Props.BevyExport
import Verif.Model.Winged
import Verif.Spec.Winged
import Verif.Props.Winged
import Verif.Lemmas.SweepOrder
import Verif.Lemmas.SweepChain
import Verif.Lemmas.SweepTotal
import Verif.Lemmas.SweepWind
import Verif.Lemmas.SweepRun
import Verif.Props.SweepSimple
import Verif.Props.SweepFace
import Verif.Model.Box
import Verif.Spec.Box
import Verif.Lemmas.KernelRfl
import Verif.Lemmas.Box
import Verif.Props.Box
import Verif.Model.FlipAll
import Verif.Spec.FlipAll
import Verif.Props.FlipAll
import Verif.Model.Queries
import Verif.Props.Queries
import Verif.Model.FlipYZ
import Verif.Spec.FlipYZ
import Verif.Props.FlipYZ
import Verif.Lemmas.Turning
import Verif.Lemmas.SweepTurn
import Verif.Props.SweepTurn
import Verif.Lemmas.SweepSplit
import Verif.Lemmas.SweepGrow
import Verif.Props.SweepSplit
import Verif.Props.SweepTurnAll
import Verif.Lemmas.LoftTriBack
import Verif.Props.LoftTriBack
import Verif.Spec.LoftShift
import Verif.Lemmas.LoftTriShift
import Verif.Props.LoftTriShift
import Verif.Props.Orientation
import Verif.Model.VecN
import Verif.Props.VecN
import Verif.Model.EdgeIter
import Verif.Props.EdgeIter
import Verif.Model.Rotate
import Verif.Props.Rotate
import Verif.Model.Orders
import Verif.Props.Orders
import Verif.Model.BTree
import Verif.Props.BTree
import Verif.Model.Beam
import Verif.Props.Beam
