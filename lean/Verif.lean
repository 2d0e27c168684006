import Verif.Props.Memory
import Verif.Props.KdTree
import Verif.Props.KdQuery
import Verif.Props.KdBox
import Verif.Props.KdOrder
import Verif.Props.Graph
import Verif.Props.Text
import Verif.Props.Weld
import Verif.Props.Mesh
import Verif.Props.Orient
import Verif.Props.Adjust
import Verif.Props.Cover
import Verif.Props.Lipschitz
import Verif.Props.Sliver
import Verif.Props.Random
import Verif.Props.Pool
import Verif.Props.PoolCover
import Verif.Props.Sparse
import Verif.Props.Cholesky
import Verif.Props.Geometry
import Verif.Props.Regions
import Verif.Props.Merge
import Verif.Props.Corners
import Verif.Props.PowerVertex
import Verif.Props.Seeds
import Verif.Props.SeedRun
import Verif.Props.SeedBugs
import Verif.Props.Imposed
import Verif.Props.Culling
import Verif.Props.MesherLip
import Verif.Props.Activation
import Verif.Props.Front
import Verif.Props.Trim
import Verif.Props.Cell
import Verif.Props.CellRun
import Verif.Props.VoroMesh
import Verif.Props.MeshRun
import Verif.Props.Vcg
import Verif.Props.FaceClean
import Verif.Props.Sharp
import Verif.Props.Basis
import Verif.Props.Exodus
import Verif.Props.EdgeSpheres
import Verif.Props.SurfaceSphereCases
import Verif.Props.SurfaceSpheres
import Verif.Model.SurfaceSpheres
import Verif.Model.Fans
import Verif.Props.Fans
import Verif.Model.EdgeDelaunay
import Verif.Props.EdgeDelaunay
import Verif.Model.Spokes
import Verif.Props.Spokes
import Verif.Model.TreeFile
import Verif.Props.TreeFile
import Verif.Model.Clouds
import Verif.Props.Clouds
import Verif.Model.Execute
import Verif.Props.Execute
import Verif.Props.ExecuteCases
import Verif.Props.ExecuteRun
import Verif.Model.LeastSquares
import Verif.Props.LeastSquares
import Verif.Props.AddRow
import Verif.Model.InteriorRun
import Verif.Props.InteriorRun
import Verif.Props.FrontEnds
import Verif.Props.CullThreshold
import Verif.Model.Vps
import Verif.Props.Vps
import Verif.Props.VpsDefault
import Verif.Model.ObjFile
import Verif.Props.ObjFile
import Verif.Props.FanCases
import Verif.Props.Sheets
import Verif.Props.SheetAngles
import Verif.Props.SheetRegions
import Verif.Props.SheetCases
import Verif.Props.SheetLeak
import Verif.Props.TrimTrace
import Verif.Props.TrimRing
import Verif.Props.PolyGeom
import Verif.Props.TrimShape
import Verif.Props.BoxShape
import Verif.Props.CutExact
import Verif.Props.CellExact
import Verif.Props.CellComplete
import Verif.Props.CellCase
import Verif.Props.MeshCell
import Verif.Props.MeshExact
import Verif.Props.MeshVoronoi
import Verif.Props.MeshMain
import Verif.Props.MeshCase
import Verif.Lemmas.Tetra
import Verif.Lemmas.Fan
import Verif.Props.MeshVolume
import Verif.Props.MeshVolumeCase
import Verif.Props.Conform
import Verif.Props.ConformCase
import Verif.Props.RingWalk
import Verif.Props.LimitCell
import Verif.Props.LimitRing
import Verif.Props.LimitFace
import Verif.Props.LimitExact
import Verif.Props.LimitMesh
import Verif.Props.MeshGap
import Verif.Props.MeshGapCase
import Verif.Props.MeshGapVolume
import Verif.Props.MeshGapVolumeCase
import Verif.Props.SurfaceMesh
import Verif.Props.SurfaceMeshCase
import Verif.Props.NoCross
import Verif.Props.Explicit
import Verif.Props.ExplicitCase
import Verif.Model.Run
import Verif.Props.Run
import Verif.Props.RunCase
import Verif.Props.RunEdges
import Verif.Props.GemCase
import Verif.Props.GemSheets
import Verif.Props.GemRun
import Verif.Props.FrontStops
import Verif.Props.FrontLeak
import Verif.Props.RunStops
import Verif.Props.GemStops
import Verif.Props.TetStops
import Verif.Audit
import Verif.Props.TrimLimit
import Verif.Props.WeakShape
import Verif.Props.CellGap
import Verif.Props.CellGrid
import Verif.Props.EdgeStops
import Verif.Props.SurfaceStops
import Verif.Props.Ply
import Verif.Props.SpokeIntegral
import Verif.Props.SphereFile
import Verif.Props.Adaptive
import Verif.Props.Vwn
import Verif.Props.ExodusFile
import Verif.Props.Features
import Verif.Props.Contour
import Verif.Props.RepairMesh
import Verif.Props.RankOne
import Verif.Props.TreeCell
import Verif.Props.MeshGen
import Verif.Props.TreeMemory
import Verif.Props.TreeFace
import Verif.Props.SpokesMemory
import Verif.Props.PoolMemory
import Verif.Props.SurfaceMemory
import Verif.Props.RunMemory
import Verif.Props.FrontMemory
import Verif.Props.MeshMemory
import Verif.Props.AddedMemory
import Verif.Props.LateMemory
import Verif.Props.CullKept
