import Verif.Props.Abaqus
import Verif.Props.Algorithm
import Verif.Props.Box
import Verif.Props.C5G7Core
import Verif.Props.C5G7CoreSpec
import Verif.Props.C5G7Plane
import Verif.Props.C5G7PlaneSpec
import Verif.Props.CApi
import Verif.Props.CApiSpec
import Verif.Props.CHeap
import Verif.Props.Cmfd
import Verif.Props.CmfdInfo
import Verif.Props.CmfdInfoSpec
import Verif.Props.CoarseGrid
import Verif.Props.Color
import Verif.Props.Compare
import Verif.Props.Crocus
import Verif.Props.CrocusSpec
import Verif.Props.ElementTypes
import Verif.Props.Fnr
import Verif.Props.FnrSpec
import Verif.Props.FpArea
import Verif.Props.FpBox
import Verif.Props.FpClosest
import Verif.Props.FpCubic
import Verif.Props.FpCyl
import Verif.Props.FpCyl2
import Verif.Props.FpDist
import Verif.Props.FpGeom
import Verif.Props.FpGrid
import Verif.Props.FpLerp
import Verif.Props.FpLocate
import Verif.Props.FpMaterial
import Verif.Props.FpMorton
import Verif.Props.FpNorm
import Verif.Props.FpPin
import Verif.Props.FpQCentroid
import Verif.Props.FpQClosest
import Verif.Props.FpQLeft
import Verif.Props.FpQLength
import Verif.Props.FpQRay
import Verif.Props.FpQuad
import Verif.Props.FpRay
import Verif.Props.FpRays
import Verif.Props.FpRect
import Verif.Props.FpRoots
import Verif.Props.FpSpec
import Verif.Props.FpStats
import Verif.Props.FpXSec
import Verif.Props.GaussTable
import Verif.Props.Geom
import Verif.Props.GmshGroups
import Verif.Props.GmshGroupsSpec
import Verif.Props.GmshInfo
import Verif.Props.GmshMesh
import Verif.Props.GmshPins
import Verif.Props.GmshPinsSpec
import Verif.Props.GridIndex
import Verif.Props.GridLocate
import Verif.Props.Heights
import Verif.Props.LatticePrograms
import Verif.Props.LatticeProgramsSpec
import Verif.Props.LinearSolve
import Verif.Props.Logger
import Verif.Props.Material
import Verif.Props.Matrix
import Verif.Props.Mesh
import Verif.Props.MeshCheck
import Verif.Props.MeshField
import Verif.Props.MeshFieldSpec
import Verif.Props.MeshSoup
import Verif.Props.ModelFiles
import Verif.Props.ModelFilesSpec
import Verif.Props.ModelSoup
import Verif.Props.ModelSoupSpec
import Verif.Props.ModelText
import Verif.Props.ModelXdmf
import Verif.Props.ModelXdmfSpec
import Verif.Props.Morton
import Verif.Props.MortonPoints
import Verif.Props.Mpact
import Verif.Props.MpactMaterials
import Verif.Props.MpactTotals
import Verif.Props.Names
import Verif.Props.Newton
import Verif.Props.Nuclide
import Verif.Props.Nuscale
import Verif.Props.NuscaleSpec
import Verif.Props.Order
import Verif.Props.OverlayGrid
import Verif.Props.OverlayGridSpec
import Verif.Props.OverlayGroups
import Verif.Props.OverlayGroupsSpec
import Verif.Props.OverlaySurfaces
import Verif.Props.Partition
import Verif.Props.PinAccept
import Verif.Props.PinArea
import Verif.Props.PinModular
import Verif.Props.PinModularSpec
import Verif.Props.PinTolerance
import Verif.Props.PinTopo
import Verif.Props.PostModel
import Verif.Props.PostSoup
import Verif.Props.PostText
import Verif.Props.Power
import Verif.Props.PowerFile
import Verif.Props.PowerKinds
import Verif.Props.QCross
import Verif.Props.QSegClosest
import Verif.Props.QSegContains
import Verif.Props.QSegLeft
import Verif.Props.QSegLength
import Verif.Props.QSegRay
import Verif.Props.QuadMeasure
import Verif.Props.Quadratic
import Verif.Props.RaySort
import Verif.Props.Rays
import Verif.Props.RectGrid
import Verif.Props.RectPin
import Verif.Props.Relational
import Verif.Props.Roots
import Verif.Props.SceneSpec
import Verif.Props.SelfFix
import Verif.Props.Sharper
import Verif.Props.Soup
import Verif.Props.SoupAppend
import Verif.Props.SoupSort
import Verif.Props.SoupSubset
import Verif.Props.Source
import Verif.Props.SourceTools
import Verif.Props.Stats
import Verif.Props.Str
import Verif.Props.StrView
import Verif.Props.Svea
import Verif.Props.SveaSpec
import Verif.Props.Tokens
import Verif.Props.VTK
import Verif.Props.Vector
import Verif.Props.Vera1
import Verif.Props.Vera1Spec
import Verif.Props.Vera4
import Verif.Props.Vera4Modular
import Verif.Props.Vera4ModularSpec
import Verif.Props.Vera4Spec
import Verif.Props.XDMF
import Verif.Props.XSLib
import Verif.Props.XSValid
import Verif.Props.XSec
import Verif.Props.XSecMix
import Verif.Props.XdmfData
import Verif.Props.XdmfFiles
import Verif.Audit
