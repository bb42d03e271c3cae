import Verif.Spec.Clip

/-! Planar triangulations. Corners are names of points, `pos` gives their places. -/

namespace Chrumm.Geo.Spec

/-- `p` is strictly inside the counter-clockwise triangle. -/
def StrictlyInside (pos : ℕ → Vec) (t : Tri ℕ) (p : Vec) : Prop :=
  0 < left (pos t.a) (pos t.b) p ∧ 0 < left (pos t.b) (pos t.c) p ∧ 0 < left (pos t.c) (pos t.a) p

/-- A planar mesh: all triangles are counter-clockwise, and no point is inside two of them. -/
def PlanarMesh (pos : ℕ → Vec) (ts : List (Tri ℕ)) : Prop :=
  (∀ t ∈ ts, 0 < left (pos t.a) (pos t.b) (pos t.c)) ∧
  ts.Pairwise fun t u => ∀ p, ¬ (StrictlyInside pos t p ∧ StrictlyInside pos u p)

/-- The triangle `t` is `x y c`, starting at any of its corners. -/
def IsTriangle (t : Tri ℕ) (x y c : ℕ) : Prop := t = ⟨x, y, c⟩ ∨ t = ⟨c, x, y⟩ ∨ t = ⟨y, c, x⟩

/-- `d` is not inside the circumcircle of `a b c` (by more than the tolerance): for the centre `o`, twice the
signed area of `a b c` times the difference of the squared distances of `a` and `d` from `o` is below 1e-6. -/
def OutsideCircle (a b c d : Vec) : Prop :=
  ∀ o : Vec, distSq2D o a = distSq2D o b → distSq2D o a = distSq2D o c →
    left a b c * (distSq2D o a - distSq2D o d) < 1e-6

/-- All pairs of adjacent triangles satisfy the Delaunay criterion. -/
def LocallyDelaunay (pos : ℕ → Vec) (ts : List (Tri ℕ)) : Prop :=
  ∀ t ∈ ts, ∀ u ∈ ts, ∀ a b c d, IsTriangle t a b c → IsTriangle u b a d →
    OutsideCircle (pos a) (pos b) (pos c) (pos d)

end Chrumm.Geo.Spec
