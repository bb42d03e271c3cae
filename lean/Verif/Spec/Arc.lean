import Verif.Part.Arc
import Verif.Spec.Mesh

/-! Circles and arcs in the xy plane. -/

namespace Chrumm.Part.Spec
open Geo Geo.Spec

noncomputable section

/-- The point of a circle at an angle, counter-clockwise from the x axis. -/
def circlePoint (c : Vec) (r θ : ℝ) : Vec := ⟨c.x + r * Real.cos θ, c.y + r * Real.sin θ, 0⟩

/-- The point `p` is at most `h` away from a segment of the polyline. -/
def NearPolyline (isClosed : Bool) (e : List Vec) (h : ℝ) (p : Vec) : Prop :=
  ∃ ab ∈ edgePairs isClosed e, ∃ s : ℝ, 0 ≤ s ∧ s ≤ 1 ∧ distSq2D p (between2D ab.1 ab.2 s) ≤ h ^ 2

end

end Chrumm.Part.Spec
