import Verif.Geo.Mat
import Mathlib.Data.List.Rotate

/-! Vocabulary for the geometric properties. -/

namespace Chrumm.Geo.Spec

/-- Euclidean distance squared. -/
def distSq (p q : Vec) : ℝ := (p.x - q.x) ^ 2 + (p.y - q.y) ^ 2 + (p.z - q.z) ^ 2

/-- Six times the signed volume of the tetrahedron o, p, q, r: positive for a right-handed one. -/
def orient (o p q r : Vec) : ℝ :=
  (p.x - o.x) * ((q.y - o.y) * (r.z - o.z) - (q.z - o.z) * (r.y - o.y)) -
  (p.y - o.y) * ((q.x - o.x) * (r.z - o.z) - (q.z - o.z) * (r.x - o.x)) +
  (p.z - o.z) * ((q.x - o.x) * (r.y - o.y) - (q.y - o.y) * (r.x - o.x))

/-- A map of space that preserves distances and orientation. -/
def Rigid (f : Vec → Vec) : Prop :=
  (∀ p q, distSq (f p) (f q) = distSq p q) ∧ ∀ o p q r, orient (f o) (f p) (f q) (f r) = orient o p q r

/-- The three coordinate axes. -/
inductive Axis where
  | X
  | Y
  | Z

/-- The point at distance `r`, angle `t` and height `h` around the axis through `c`; angles turn
counter-clockwise when the axis points towards the viewer. -/
noncomputable def polar : Axis → Vec → ℝ → ℝ → ℝ → Vec
  | .X, c, r, t, h => ⟨c.x + h, c.y + r * Real.cos t, c.z + r * Real.sin t⟩
  | .Y, c, r, t, h => ⟨c.x + r * Real.sin t, c.y + h, c.z + r * Real.cos t⟩
  | .Z, c, r, t, h => ⟨c.x + r * Real.cos t, c.y + r * Real.sin t, c.z + h⟩

/-- Parallel vectors pointing the same way: `b` is a positive multiple of `a`. -/
def SameDirection (a b : Vec) : Prop := ∃ k : ℝ, 0 < k ∧ b = a * k

/-- The triangle's (not normalised) normal, by the right hand rule. -/
def normalOf (t : Tri Vec) : Vec := (t.b - t.a).cross (t.c - t.a)

/-- Six times the volume enclosed by a mesh (divergence theorem); positive for outward normals. -/
def volume6 (ts : List (Tri Vec)) : ℝ := (ts.map fun t => t.a.dot (t.b.cross t.c)).sum

end Chrumm.Geo.Spec

namespace Chrumm.Geo.Spec

/-- Unit vector in the direction of `v`. -/
def UnitOf (u v : Vec) : Prop := u.dot u = 1 ∧ SameDirection u v

/-- `u` and `v` differ by less than 1e-6 in every coordinate. -/
def Near (u v : Vec) : Prop := |u.x - v.x| < 1e-6 ∧ |u.y - v.y| < 1e-6 ∧ |u.z - v.z| < 1e-6

/-- Consecutive corners of a closed polygon, last to first included. -/
def cycPairs {α : Type} (vs : List α) : List (α × α) := vs.zip (vs.rotate 1)

/-- Twice the signed area of the polygon's projection to the xy plane (shoelace formula): positive
for counter-clockwise polygons. -/
def area2 (vs : List Vec) : ℝ := ((cycPairs vs).map fun (p, q) => p.x * q.y - q.x * p.y).sum

end Chrumm.Geo.Spec

namespace Chrumm.Geo.Spec

/-- The points of a straight line through `p` in direction `d`. -/
def OnLine (p d x : Vec) : Prop := ∃ t : ℝ, x = p + d * t

/-- Distance squared in the xy plane. -/
def distSq2D (p q : Vec) : ℝ := (p.x - q.x) ^ 2 + (p.y - q.y) ^ 2

/-- The points of the plane through `p` with normal `n`. -/
def OnPlane (p n x : Vec) : Prop := (x - p).dot n = 0

/-- The point at parameter `t` between `a` (0) and `b` (1), seen in the xy plane. -/
def between2D (a b : Vec) (t : ℝ) : Vec := ⟨a.x + t * (b.x - a.x), a.y + t * (b.y - a.y), 0⟩

end Chrumm.Geo.Spec

namespace Chrumm.Geo.Spec

/-- The points of the projection of a line to the xy plane. -/
def OnLine2D (p d x : Vec) : Prop := x.z = 0 ∧ ∃ t : ℝ, x.x = p.x + d.x * t ∧ x.y = p.y + d.y * t

/-- The points, in the xy plane, of the circle around `c`. -/
def OnCircle2D (c : Vec) (r : ℝ) (x : Vec) : Prop := x.z = 0 ∧ distSq2D c x = r ^ 2

/-- The determinant of three vectors: zero exactly when they are linearly dependent. -/
def det3 (a b c : Vec) : ℝ := a.dot (b.cross c)

end Chrumm.Geo.Spec
