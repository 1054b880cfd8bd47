import Verif.Props.Bezier1
import Verif.Props.Bezier2
import Verif.Props.Transform
import Verif.Props.Coord
import Verif.Props.Flank
import Verif.Props.Flank2
import Verif.Props.MeshDistance
import Verif.Props.MeshAngle
import Verif.Props.Mesh
import Verif.Props.Bevel
import Verif.Props.Conjugate
import Verif.Props.LineOfAction
import Verif.Props.Helical
import Verif.Props.Curve
import Verif.Props.Chain
import Verif.Props.Chain2
import Verif.Props.Arc
import Verif.Props.Arc2
import Verif.Props.Nurbs
import Verif.Props.Fit
import Verif.Props.Fit2
import Verif.Props.Surface
import Verif.Props.Core
import Verif.Props.Flank3
import Verif.Props.Profile
import Verif.Props.Path
import Verif.Props.Closed
import Verif.Props.Boundary
import Verif.Props.Cut
import Verif.Props.Mesh2
import Verif.Props.Recipe
import Verif.Props.Wrapper
import Verif.Props.HelicalGear
import Verif.Props.Reported
import Verif.Props.Build
import Verif.Props.Rack
import Verif.Props.RackMesh
import Verif.Props.Cycloid
import Verif.Props.Fillet
import Verif.Model.Trim
import Verif.Props.Trim
import Verif.Props.TrimEx
import Verif.Props.TrimEx2
import Verif.Props.TrimEx3
import Verif.Props.Simple
import Verif.Props.SimpleEx
import Verif.Props.Radii
import Verif.Model.Edges
import Verif.Model.ChainQuery
import Verif.Spec.Jump
import Verif.Props.Edges
import Verif.Props.ChainQuery
import Verif.Props.Flatten
import Verif.Props.Fallbacks
import Verif.Model.Convert
import Verif.Spec.SamePath
import Verif.Props.Convert
import Verif.Model.Report
import Verif.Spec.Axis
import Verif.Props.Report
import Verif.Props.Report2
import Verif.Model.CoreGear
import Verif.Props.CoreGear
import Verif.Props.CoreGear2
import Verif.Model.Undercut
import Verif.Props.Undercut
import Verif.Model.LowerLimit
import Verif.Props.LowerLimit
import Verif.Model.CycloidTooth
import Verif.Props.CycloidTooth
import Verif.Model.CycloidBevel
import Verif.Model.OctoidMesh
import Verif.Props.CycloidBevel
import Verif.Props.OctoidMesh
import Verif.Props.BevelOverlap
import Verif.Model.HelicalMesh
import Verif.Props.RingAround
import Verif.Props.HelicalMesh
import Verif.Props.HelicalMesh2
import Verif.Props.Crossed
import Verif.Model.ProfileNurb
import Verif.Spec.Wire
import Verif.Props.ProfileNurb
import Verif.Props.BoundaryWire
import Verif.Model.Shell
import Verif.Spec.Shell
import Verif.Props.Shell
import Verif.Model.Rows
import Verif.Props.Rows
import Verif.Model.Blank
import Verif.Model.Copy
import Verif.Spec.Blank
import Verif.Props.Blank
import Verif.Props.Copy
import Verif.Model.CrownRack
import Verif.Spec.CrownRack
import Verif.Props.CrownRack
import Verif.Props.StraightTooth
import Verif.Props.SharedArgs
import Verif.Model.HermiteFit
import Verif.Spec.HermiteFit
import Verif.Lemmas.Hermite
import Verif.Props.HermiteFit
import Verif.Model.CurveHeap
import Verif.Spec.CurveHeap
import Verif.Props.CurveHeap
import Verif.Spec.Piece
import Verif.Props.TrimPath
import Verif.Props.TrimChain
import Verif.Model.InvoluteTooth
import Verif.Props.SpurOutline
import Verif.Props.SpurOutlineEx
import Verif.Props.PathSys
import Verif.Props.UndercutOutline
import Verif.Props.UndercutMeet
import Verif.Props.UndercutOutlineEx
import Verif.Props.ArcFunc
import Verif.Props.SphereCurve
import Verif.Props.PlainUndercut
import Verif.Model.SpurProfile
import Verif.Props.SpurGear
import Verif.Props.SpurGearEx
import Verif.Props.PairFan
import Verif.Props.CycloidOutline
import Verif.Props.CycloidGear
import Verif.Props.CycloidGearEx
import Verif.Props.SpurGearUnder
import Verif.Props.SpurGearPlain
import Verif.Model.CurveIndex
import Verif.Spec.Winding
import Verif.Props.CurveIndex
import Verif.Model.CurveEdges
import Verif.Props.CurveEdges
import Verif.Model.PartState
import Verif.Props.PartState
import Verif.Props.FilletSide
