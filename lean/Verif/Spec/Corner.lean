import Verif.Spec.Plan
import Verif.Part.Body

/-! Specification of the rounded corners of the outer wall. -/

namespace Chrumm.Part.Spec
open Geo Geo.Spec

/-- Seen from above, an inner and an outer arc have the same center and reach from one ray to another: the inner one from
the first to the second ray, the outer one back. Between them is a wall of the thickness `rO - rI`. -/
structure Concentric (center : Vec) (rI rO : ℝ) (inner outer : List Vec) : Prop where
  inner_on : ∀ p ∈ inner, OnCircle2D center rI p
  outer_on : ∀ p ∈ outer, OnCircle2D center rO p
  rays : ∃ u v : Vec, u.x ^ 2 + u.y ^ 2 = 1 ∧ v.x ^ 2 + v.y ^ 2 = 1 ∧
    inner.head? = some ⟨center.x + rI * u.x, center.y + rI * u.y, 0⟩ ∧
    inner.getLast? = some ⟨center.x + rI * v.x, center.y + rI * v.y, 0⟩ ∧
    outer.head? = some ⟨center.x + rO * v.x, center.y + rO * v.y, 0⟩ ∧
    outer.getLast? = some ⟨center.x + rO * u.x, center.y + rO * u.y, 0⟩

/-- The walls' outlines are convex at the corners: what is next to a corner along one wall is inside of the other one. -/
structure ConvexCorners (plan : Plan) : Prop where
  inside : ∀ c ∈ [(plan.sides.pinkyIR, plan.points.alnumIRB), (plan.walls.alnumIB, plan.points.pinkyIRF),
      (plan.walls.pinkyIF, plan.points.pinkyIRB), (plan.sides.pinkyIR, plan.points.thumbILF),
      (plan.walls.pinkyIF, plan.points.thumbILF.yz),
      (plan.sides.pinkyOR, plan.points.alnumORB), (plan.walls.alnumOB, plan.points.pinkyORF),
      (plan.walls.pinkyOF, plan.points.pinkyORB), (plan.sides.pinkyOR, plan.points.thumbOLF),
      (plan.walls.pinkyOF, plan.points.thumbOLF.yz)], 0 < above c.1 c.2
  thumbI : plan.points.thumbILF.y < plan.points.thumbIRF.y
  thumbO : plan.points.thumbOLF.y < plan.points.thumbORF.y

end Chrumm.Part.Spec
