import Verif.Props.ApplyPermutation
import Verif.Props.Approx
import Verif.Props.ArrayBroadcast
import Verif.Props.ArrayCmp
import Verif.Props.ArrayDot
import Verif.Props.ArrayFun
import Verif.Props.ArrayMem
import Verif.Props.ArrayRows
import Verif.Props.Atoms
import Verif.Props.AtomsClosest
import Verif.Props.Clip
import Verif.Props.ConvexCut
import Verif.Props.ConvexCutAll
import Verif.Props.Cube
import Verif.Props.Cut
import Verif.Props.EndToEnd
import Verif.Props.EndToEndFirst
import Verif.Props.EndToEndMesh
import Verif.Props.FaceEdit
import Verif.Props.Faces
import Verif.Props.Fill
import Verif.Props.Gamma
import Verif.Props.GridInterp
import Verif.Props.Hall
import Verif.Props.Hdf
import Verif.Props.Hull
import Verif.Props.HullEdge
import Verif.Props.IntUtil
import Verif.Props.Interpolate
import Verif.Props.IrCheck
import Verif.Props.IrInterpolate
import Verif.Props.Lapjv
import Verif.Props.Lattice
import Verif.Props.LatticeVec
import Verif.Props.ListUtil
import Verif.Props.Matrix
import Verif.Props.MatrixMem
import Verif.Props.Mesh
import Verif.Props.ModeCost
import Verif.Props.ModeCostMore
import Verif.Props.ModeSort
import Verif.Props.Motion
import Verif.Props.MoveAccept
import Verif.Props.MoveInto
import Verif.Props.Munkres
import Verif.Props.Neighbours
import Verif.Props.Nest
import Verif.Props.Numpy
import Verif.Props.ParallelInterpolate
import Verif.Props.PermutationTable
import Verif.Props.PointGroup
import Verif.Props.PointGroupAxes
import Verif.Props.PointSymmetry
import Verif.Props.Primitive
import Verif.Props.PyCreate
import Verif.Props.Rotate
import Verif.Props.RotateGamma
import Verif.Props.RotationOrder
import Verif.Props.Smp
import Verif.Props.Snap
import Verif.Props.SortPermutations
import Verif.Props.SortingStatus
import Verif.Props.SpgDb
import Verif.Props.Subscript
import Verif.Props.Symmetry
import Verif.Props.Tetra
import Verif.Props.Trellis
import Verif.Props.TrellisBuild
import Verif.Props.TrellisKeys
import Verif.Props.TrellisKnots
import Verif.Props.TrellisSearch
import Verif.Props.TrellisWire
import Verif.Props.Unique
import Verif.Props.VertexMap
import Verif.Props.Volume
import Verif.Props.Wedge
import Verif.Props.WedgeOps
import Verif.Props.WedgeSearch
import Verif.Props.WedgeWhole
import Verif.Props.Zone
import Verif.Props.ZoneCentred
import Verif.Props.ZoneVolume
