import Verif.Props.Debounce
import Verif.Props.Encoder
import Verif.Props.EncoderKey
import Verif.Props.Hid
import Verif.Props.Stale
import Verif.Props.Layers
import Verif.Props.Led
import Verif.Props.Scan
import Verif.Props.Vector
import Verif.Props.Align
import Verif.Props.Flat
import Verif.Props.Flat2
import Verif.Props.Hull
import Verif.Props.Mesh
import Verif.Props.Inside
import Verif.Props.Holes
import Verif.Props.Ears
import Verif.Props.Flip
import Verif.Props.Planar
import Verif.Props.Face
import Verif.Geo.Move
import Verif.Props.Move
import Verif.App.Cfg
import Verif.Spec.Config
import Verif.Props.Cfg
import Verif.App.Stl
import Verif.Spec.Stl
import Verif.Props.Stl
import Verif.App.Make
import Verif.Spec.Make
import Verif.Props.Make
import Verif.App.Main
import Verif.Spec.Main
import Verif.Props.Main
import Verif.Part.Arc
import Verif.Spec.Arc
import Verif.Props.Arc
import Verif.Part.Key
import Verif.Part.Layout
import Verif.Spec.Layout
import Verif.Props.Layout
import Verif.Part.Wall
import Verif.Spec.Wall
import Verif.Props.Wall
import Verif.Props.HullDist
import Verif.Props.Boss
import Verif.Part.Plan
import Verif.Spec.Plan
import Verif.Props.PlanBase
import Verif.Props.PlanStages
import Verif.Props.PlanFlat
import Verif.Props.PlanWalls
import Verif.Props.PlanBoss
import Verif.Props.PlanMake
import Verif.Props.PlanFinal
import Verif.Props.Plan
import Verif.Props.PlanMore
import Verif.Props.PlanSucceeds
import Verif.Props.PlanFinish
import Verif.Props.ExampleLayout
import Verif.Props.PlanExample
import Verif.Props.PlanRaise
import Verif.Part.Pcb
import Verif.Spec.Pcb
import Verif.Props.Pcb
import Verif.Props.Strips
import Verif.Spec.Parts
import Verif.Props.ArcMesh
import Verif.Part.Bumper
import Verif.Props.Bumper
import Verif.Props.KeyMesh
import Verif.Props.KeyShape
import Verif.Part.Boss
import Verif.Props.Rings
import Verif.Props.BossMesh
import Verif.Props.BossThread
import Verif.Props.BossRoof
import Verif.Props.BossWall
import Verif.Props.BossSucceeds
import Verif.Props.ConvexFace
import Verif.Part.Pieces
import Verif.Spec.Pieces
import Verif.Props.Pieces
import Verif.Part.Support
import Verif.Part.Knob
import Verif.Props.Knob
import Verif.Part.Encoder
import Verif.Spec.Encoder
import Verif.Props.EncoderPart
import Verif.Props.EncoderShape
import Verif.Part.Cable
import Verif.Props.Cable
import Verif.Part.Bracket
import Verif.Props.Bracket
import Verif.Props.BracketFlat
import Verif.Props.BracketFit
import Verif.Part.FullPlan
import Verif.Part.Body
import Verif.Part.Offset
import Verif.Part.Hex
import Verif.Part.Floor
import Verif.Part.Palm
import Verif.Spec.Floor
import Verif.Props.PartEdges
import Verif.Props.AntiTac
import Verif.Props.BodyRim
import Verif.Props.BodyJoint
import Verif.Props.BodyFit
import Verif.Spec.Body
import Verif.Props.BodyMake
import Verif.Props.FloorFit
import Verif.Props.FloorMake
import Verif.Props.CornerBumper
import Verif.Spec.Hex
import Verif.Props.Connected
import Verif.Props.HexFan
import Verif.Props.HexCell
import Verif.Props.HexGrid
import Verif.Props.HexBest
import Verif.Spec.Palm
import Verif.Props.PalmFit
import Verif.Props.PalmShape
import Verif.Spec.Orderly
import Verif.Props.Orderly
import Verif.Props.PalmOrderly
import Verif.Props.Hitch
import Verif.Props.PalmExample
import Verif.Spec.Halves
import Verif.Props.Halves
import Verif.Spec.Chamfer
import Verif.Props.Chamfer
import Verif.Props.BodyChamfer
import Verif.Props.BodyExample
import Verif.Props.BodyWhole
import Verif.Props.FloorWhole
import Verif.Props.PlanThumb
import Verif.Spec.Corner
import Verif.Spec.Support
import Verif.Props.SupportShape
import Verif.Props.CornerWall
import Verif.Spec.Knob
import Verif.Props.KnobGroove
import Verif.Props.KnobShaft
import Verif.Props.KnobShape
import Verif.Props.KnobSucceeds
import Verif.Spec.Cable
import Verif.Props.CableShape
import Verif.Props.ArcSpacing
import Verif.Props.CableApart
import Verif.Props.BossBody
import Verif.Props.Collisions
import Verif.Spec.Offset
import Verif.Props.FloorShape
import Verif.Props.OffsetClean
import Verif.Props.OffsetStart
import Verif.Props.OffsetCut
import Verif.Props.PalmBumpers
import Verif.Spec.Bracket
import Verif.Props.BracketShape
import Verif.Props.BracketSucceeds
import Verif.Props.Witnesses
import Verif.Props.Witnesses2
import Verif.Props.Whole
import Verif.Props.Witnesses3
import Verif.Props.BracketRoof
import Verif.Props.BracketZip
import Verif.Props.BracketTop
import Verif.Props.FloorBrackets
import Verif.Props.FloorMeets
import Verif.Props.FloorWith
import Verif.Props.BodyBrackets
import Verif.Props.BodyWith
import Verif.Props.Bounds
import Verif.Spec.Traffic
import Verif.Props.Traffic
import Verif.Props.Projections
import Verif.Spec.Shipped
import Verif.Props.Shipped
