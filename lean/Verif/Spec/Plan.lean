import Verif.Part.Plan
import Verif.Spec.Wall

/-! What a plan should be. -/

namespace Chrumm.Part.Spec
open Geo Geo.Spec

/-- The height of a point above a plane: positive on the side to which the plane's normal points. Walls have their normals
to the inside of the keyboard, roofs to the top. -/
def above (p : Plane) (v : Vec) : ℝ := (v.x - p.pos.x) * p.normal.x + (v.y - p.pos.y) * p.normal.y + (v.z - p.pos.z) * p.normal.z

/-- A plane with a normal of length 1: `above` is a distance. -/
def UnitNormal (p : Plane) : Prop := p.normal.x ^ 2 + p.normal.y ^ 2 + p.normal.z ^ 2 = 1

/-- The corners of the body, each with the three planes that meet in it. -/
def corners (plan : Plan) : List (Vec × Plane × Plane × Plane) :=
  let p := plan.points
  let t := plan.tent
  let s := plan.sides
  let w := plan.walls
  [(p.alnumILF, s.alnumIL, s.alnumIF, t.alnumIT),
   (p.alnumILB, s.alnumIL, w.alnumIB, t.alnumIT),
   (p.alnumIRF, t.thumbIT, s.alnumIF, t.alnumIT),
   (p.alnumIRB, t.pivotIB, w.alnumIB, t.alnumIT),
   (p.pinkyIRF, s.pinkyIR, w.pinkyIF, t.pinkyIT),
   (p.pinkyIRB, s.pinkyIR, w.alnumIB, t.pinkyIT),
   (p.thumbILF, plan.thumbL, w.pinkyIF, t.thumbIT),
   (p.thumbILB, s.alnumIL, s.alnumIF, t.thumbIT),
   (p.thumbIRF, t.pivotIF, w.pinkyIF, t.thumbIT),
   (p.alnumOLF, s.alnumOL, s.alnumOF, t.alnumOT),
   (p.alnumOLB, s.alnumOL, w.alnumOB, t.alnumOT),
   (p.alnumORF, t.thumbOT, s.alnumOF, t.alnumOT),
   (p.alnumORB, t.pivotOB, w.alnumOB, t.alnumOT),
   (p.pinkyORF, s.pinkyOR, w.pinkyOF, t.pinkyOT),
   (p.pinkyORB, s.pinkyOR, w.alnumOB, t.pinkyOT),
   (p.thumbOLF, plan.thumbL, w.pinkyOF, t.thumbOT),
   (p.thumbOLB, s.alnumOL, s.alnumOF, t.thumbOT),
   (p.thumbORF, t.pivotOF, w.pinkyOF, t.thumbOT)]

/-- All reference points of the body. -/
def allPoints (plan : Plan) : List Vec := plan.points.ridgeIRF :: plan.points.ridgeORF :: (corners plan).map Prod.fst

/-- A boss keeps its distances: at least its radius and the margin to the inside of the outer wall, and at least its radius
to the inner bounds of the keys beside it, seen from above. -/
def BossFits (cfg : BossFit) (wall : Plane) (keys : List Key) (boss : Vec) : Prop :=
  cfg.diameter / 2 + cfg.outerWallMargin ≤ above wall boss ∧
    ∀ k ∈ keys, ∀ p, InHull2D k.boundsI p → cfg.diameter / 2 ≤ dist2D boss p

/-- The three groups of keys. -/
inductive Group where
  | alnum
  | pinky
  | thumb

/-- The keys of a group. -/
noncomputable def Group.keys (l : Layout) (side : Option Side) : Group → Py (List Key)
  | .alnum => l.alnum side
  | .pinky => l.pinky side
  | .thumb => .ok (l.thumb side)

/-- The outer and the inner side of the roof above a group. -/
def Group.roofO (plan : Plan) : Group → Plane
  | .alnum => plan.tent.alnumOT
  | .pinky => plan.tent.pinkyOT
  | .thumb => plan.tent.thumbOT
def Group.roofI (plan : Plan) : Group → Plane
  | .alnum => plan.tent.alnumIT
  | .pinky => plan.tent.pinkyIT
  | .thumb => plan.tent.thumbIT

/-- The configured tent angle of a group. -/
def Group.angle (body : BodyCfg) : Group → ℝ
  | .alnum => body.alnumTentAngle
  | .pinky => body.pinkyTentAngle
  | .thumb => body.thumbTentAngle

/-- The orientation of a group: it is turned by its tent angle around the y axis, then by the tilt angle around the x axis,
then by the split angle around the z axis. -/
noncomputable def oriented (body : BodyCfg) (tent : ℝ) (v : Vec) : Vec :=
  let a : Vec := ⟨v.x * Real.cos tent + v.z * Real.sin tent, v.y, v.z * Real.cos tent - v.x * Real.sin tent⟩
  let b : Vec := ⟨a.x, a.y * Real.cos body.tiltAngle - a.z * Real.sin body.tiltAngle,
    a.y * Real.sin body.tiltAngle + a.z * Real.cos body.tiltAngle⟩
  ⟨b.x * Real.cos body.splitAngle - b.y * Real.sin body.splitAngle,
   b.x * Real.sin body.splitAngle + b.y * Real.cos body.splitAngle, b.z⟩

/-- The middle of the top of the keycap. -/
noncomputable def capTop (cfg : LayoutCfg) (k : Key) : Vec := (⟨0, 0, cfg.capTopToPlate⟩ : Vec).transformed k.matrix

end Chrumm.Part.Spec
