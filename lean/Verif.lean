import Verif.Lemmas.Ball
import Verif.Lemmas.Blend
import Verif.Lemmas.BoxDist
import Verif.Lemmas.BoxedFits
import Verif.Lemmas.ChamferProfile
import Verif.Lemmas.Cone
import Verif.Lemmas.Convex
import Verif.Lemmas.EdgeSign
import Verif.Lemmas.Fillet
import Verif.Lemmas.Fits
import Verif.Lemmas.FitsForms
import Verif.Lemmas.FitsOps
import Verif.Lemmas.FitsSolid
import Verif.Lemmas.FitsSweep
import Verif.Lemmas.Float
import Verif.Lemmas.Forms
import Verif.Lemmas.GraphPolygon
import Verif.Lemmas.HexHead
import Verif.Lemmas.KdImport
import Verif.Lemmas.Lip
import Verif.Lemmas.Loops
import Verif.Lemmas.MCAccuracy
import Verif.Lemmas.MCChain
import Verif.Lemmas.MCFan
import Verif.Lemmas.MCFanTable
import Verif.Lemmas.MCGrid
import Verif.Lemmas.MCManifold
import Verif.Lemmas.MCManifoldTable
import Verif.Lemmas.MCOutward
import Verif.Lemmas.MCOutwardTable
import Verif.Lemmas.MCTable
import Verif.Lemmas.MCVolume
import Verif.Lemmas.MCVolumeGrid
import Verif.Lemmas.MCVolumeTable
import Verif.Lemmas.Mating
import Verif.Lemmas.Matrix
import Verif.Lemmas.MaxFloat
import Verif.Lemmas.MeshSign
import Verif.Lemmas.MeshVolume
import Verif.Lemmas.Nagon
import Verif.Lemmas.OctreeCalls
import Verif.Lemmas.OctreeCells
import Verif.Lemmas.OctreeDense
import Verif.Lemmas.OctreeGrid
import Verif.Lemmas.OctreePass
import Verif.Lemmas.OctreeProg
import Verif.Lemmas.OctreeRead
import Verif.Lemmas.OctreeTerm
import Verif.Lemmas.OctreeThreads
import Verif.Lemmas.Omesh
import Verif.Lemmas.OmeshMean
import Verif.Lemmas.Polygon
import Verif.Lemmas.PolygonBuilder
import Verif.Lemmas.PolygonList
import Verif.Lemmas.RenderAll
import Verif.Lemmas.RenderLoss
import Verif.Lemmas.RenderLossBox
import Verif.Lemmas.Revolve
import Verif.Lemmas.Rounding
import Verif.Lemmas.Stl
import Verif.Lemmas.StlFile
import Verif.Lemmas.StlIeee
import Verif.Lemmas.StlStream
import Verif.Lemmas.Union2
import Verif.Lemmas.Vec
import Verif.Lemmas.Winding
import Verif.Model.Bcc
import Verif.Model.Bih
import Verif.Model.Box
import Verif.Model.Chamfer
import Verif.Model.Combine2
import Verif.Model.Combine3
import Verif.Model.Create3MF
import Verif.Model.Examples
import Verif.Model.Forms
import Verif.Model.History
import Verif.Model.KdImport
import Verif.Model.KdTree
import Verif.Model.MCTables
import Verif.Model.Map2
import Verif.Model.MarchingCubes
import Verif.Model.MarchingFloat
import Verif.Model.Matrix
import Verif.Model.Matter
import Verif.Model.Mf3
import Verif.Model.Mf3File
import Verif.Model.NaiveTetra
import Verif.Model.Numeric
import Verif.Model.Octree
import Verif.Model.Omesh
import Verif.Model.Parts
import Verif.Model.Patterns
import Verif.Model.Polygon
import Verif.Model.PolygonBuilder
import Verif.Model.Raycast
import Verif.Model.Sdf
import Verif.Model.Spatial
import Verif.Model.Stl
import Verif.Model.StlFail
import Verif.Model.Thread
import Verif.Model.Transform
import Verif.Model.Utils
import Verif.Model.Vec
import Verif.Props.C01
import Verif.Props.C02
import Verif.Props.C03
import Verif.Props.C04
import Verif.Props.C05
import Verif.Props.C05Fresh
import Verif.Props.C06
import Verif.Props.C07
import Verif.Props.C08
import Verif.Props.C08Hole
import Verif.Props.C09
import Verif.Props.C10
import Verif.Props.C11
import Verif.Props.C12
import Verif.Props.C13
import Verif.Props.C14
import Verif.Props.C14Read
import Verif.Props.C15Bounds
import Verif.Props.C16Booleans
import Verif.Props.C17Lipschitz
import Verif.Props.C17Steep
import Verif.Props.C18Cone
import Verif.Props.C18Primitives
import Verif.Props.C19Transform
import Verif.Props.C20Equals
import Verif.Props.C20Matrix
import Verif.Props.C21Orient
import Verif.Props.C22Arrays
import Verif.Props.C23RotateCopy
import Verif.Props.C24Offset
import Verif.Props.C25Elongate
import Verif.Props.C26Extrude
import Verif.Props.C27Revolve
import Verif.Props.C28Blends
import Verif.Props.C29Pruning
import Verif.Props.C29Trees
import Verif.Props.C30BoxDist
import Verif.Props.C31Polygon
import Verif.Props.C32Calls
import Verif.Props.C32Local
import Verif.Props.C32Moves
import Verif.Props.C32Polar
import Verif.Props.C32PolygonBuilder
import Verif.Props.C33Constructors
import Verif.Props.C34Patterns
import Verif.Props.C35Bolts
import Verif.Props.C35Holes
import Verif.Props.C35Parts
import Verif.Props.C36Screw
import Verif.Props.C37Raycast
import Verif.Props.C38Npt
import Verif.Props.C39Bih
import Verif.Props.C40Numeric
import Verif.Props.C40Transform
import Verif.Props.C41Canalis
import Verif.Props.C42Closest
import Verif.Props.C42Params
import Verif.Props.C42Triangle
import Verif.Props.C43Bcc
import Verif.Props.C44Map2
import Verif.Props.C45Matter
import Verif.Props.C46Box
import Verif.Props.C46Import
import Verif.Props.C47Sign
import Verif.Props.C48Loft
import Verif.Props.C49Field
import Verif.Props.C49Links
import Verif.Props.C49Tetra
import Verif.Props.C50Import
import Verif.Props.C50Witness
import Verif.Props.C51Buttress
import Verif.Props.C51Thread
import Verif.Props.C52Nearest
import Verif.Props.C53Outward
import Verif.Props.C53Volume
import Verif.Props.C54Blend
import Verif.Props.C55Mating
import Verif.Props.C56Accuracy
import Verif.Props.C57File
import Verif.Props.C58Manifold
import Verif.Props.C59Nagon
import Verif.Props.C60Heads
import Verif.Props.C61Holds
import Verif.Props.C62Convex
import Verif.Props.C63Chamfer
import Verif.Props.C64Create
import Verif.Props.C65Buffer
import Verif.Props.C66Naive
import Verif.Props.C67Normals
import Verif.Props.C68Crash
import Verif.Props.C69Algebra
import Verif.Props.C69Plane
import Verif.Props.C70Package
import Verif.Props.C71Revise
import Verif.Props.C72Crack
import Verif.Props.C72Float
import Verif.Props.C73History
import Verif.Props.C74Similar
import Verif.Props.C75Base
import Verif.Props.C75Cover
import Verif.Props.C75Examples
import Verif.Spec.Bcc
import Verif.Spec.Blend
import Verif.Spec.Bounds
import Verif.Spec.Float
import Verif.Spec.History
import Verif.Spec.Matrix
import Verif.Spec.Mesh
import Verif.Spec.Nagon
import Verif.Spec.Octree
import Verif.Spec.Polygon
import Verif.Spec.PolygonBuilder
import Verif.Spec.Revise
import Verif.Spec.Rotation
import Verif.Spec.Shape
import Verif.Spec.Stl
import Verif.Spec.Sweep
import Verif.Spec.ThreeMf
import Verif.Spec.Trees
import Verif.Spec.Volume
