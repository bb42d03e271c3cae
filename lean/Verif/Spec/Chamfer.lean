import Verif.Spec.Plan
import Verif.Spec.Geometry

/-! What a chamfer should be. -/

namespace Chrumm.Part.Spec
open Geo Geo.Spec

/-- The distance of `q` from the straight line that leads from `a` to `b`, seen along the unit vector `n`, which points to
the viewer: positive on the left of the line. -/
noncomputable def inward (n a b q : Vec) : ℝ :=
  (n.cross (b - a)).dot (q - b) / Real.sqrt ((n.cross (b - a)).dot (n.cross (b - a)))

/-- The corner a, b, c seen along `n` is sharp: the squared sine of its angle is at least 1e-6. -/
def Sharp (n a b c : Vec) : Prop :=
  1 / 1000000 * ((n.cross (b - a)).dot (n.cross (b - a)) * (n.cross (c - b)).dot (n.cross (c - b))) ≤
    (n.cross (b - a)).dot (n.cross (b - a)) * (n.cross (c - b)).dot (n.cross (c - b)) - (n.cross (b - a)).dot (n.cross (c - b)) ^ 2

/-- `q` is `b` moved inside, for the corner a, b, c of an outline around a surface with the normal `n`: it is in the
plane of the surface, at the distance `size` from both sides of the corner. If the corner is almost straight, the second
distance has an error of at most one millionth. -/
structure Inset (n : Vec) (size : ℝ) (a b c q : Vec) : Prop where
  flat : (q - b).dot n = 0
  first : inward n a b q = size
  sharp : Sharp n a b c → inward n b c q = size
  straight : 0 ≤ (n.cross (b - a)).dot (n.cross (c - b)) → |inward n b c q - size| ≤ |size| / 1000000

/-- The points `rim` are the inner points of the outline `pts` moved inside. -/
def InsetBy (n : Vec) (size : ℝ) (pts rim : List Vec) : Prop :=
  rim.length + 2 = pts.length ∧
    ∀ i a b c q, pts[i]? = some a → pts[i + 1]? = some b → pts[i + 2]? = some c → rim[i]? = some q → Inset n size a b c q

end Chrumm.Part.Spec
