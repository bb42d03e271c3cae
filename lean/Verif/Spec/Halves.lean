import Verif.Part.Floor

/-! What both halves have in common. -/

namespace Chrumm.Part
open Geo

/-- The faces of a body in the plane between both halves, each with its outline and its holes: the face in front of the
encoder, and the one behind it. With a cable hole, the part below the cable is a face of its own (`joint.faces`). -/
noncomputable def Body.splitFaces (b : Body) : List (List Vec × List (List Vec)) :=
  [(b.joint.splitF.map Vec.yz, b.joint.holesF), (b.joint.splitB.map Vec.yz, b.joint.holesB)]

/-- The face of a floor in the plane between both halves. -/
noncomputable def Floor.splitFace (f : Floor) : List Vec × List (List Vec) :=
  (f.joint.splitEdge ++ (f.bumpers.map FloorBumpers.splitEdge).getD [], f.joint.splitHoles)

/-- The plan for the other side. -/
def FullPlan.onSide (f : FullPlan) (side : Side) : FullPlan := { f with plan := { f.plan with side := side } }

end Chrumm.Part
