import Verif.Spec.Geometry
import Mathlib.Data.List.Count
import Mathlib.Algebra.BigOperators.Group.List.Basic

/-! Vocabulary for meshes: directed edges and boundaries. -/

namespace Chrumm.Geo.Spec

variable {P : Type}

/-- The three directed edges of a triangle. -/
def sides (t : Tri P) : List (P × P) := [(t.a, t.b), (t.b, t.c), (t.c, t.a)]

/-- All directed edges of a mesh. -/
def meshEdges (ts : List (Tri P)) : List (P × P) := ts.flatMap sides

/-- How often the edge from `x` to `y` is used more than the edge from `y` to `x`. -/
def balance [DecidableEq P] (es : List (P × P)) (x y : P) : ℤ := es.count (x, y) - es.count (y, x)

/-- Two collections of directed edges are the same chain: edges and their reverses cancel out. -/
def SameChain [DecidableEq P] (es fs : List (P × P)) : Prop := ∀ x y, balance es x y = balance fs x y

/-- Every directed edge of the mesh is used exactly as often as its reverse: no boundary. -/
def Watertight [DecidableEq P] (ts : List (Tri P)) : Prop :=
  ∀ x y, (meshEdges ts).count (x, y) = (meshEdges ts).count (y, x)

/-- The consecutive pairs of an open path. -/
def pathPairs (vs : List P) : List (P × P) := vs.zip vs.tail

/-- The consecutive pairs of an edge, which is open or closed. -/
def edgePairs (isClosed : Bool) (vs : List P) : List (P × P) :=
  if isClosed then cycPairs vs else pathPairs vs

/-- The same directed edges backwards. -/
def flipEdges (es : List (P × P)) : List (P × P) := es.map Prod.swap

end Chrumm.Geo.Spec

namespace Chrumm.Geo.Spec

/-- Positive if `v` is to the left of the directed line from `p` to `q` in the xy plane, negative to
the right, zero on the line: twice the signed area of the triangle `p q v`. -/
def left (p q v : Vec) : ℝ := (q.x - p.x) * (v.y - p.y) - (q.y - p.y) * (v.x - p.x)

end Chrumm.Geo.Spec

namespace Chrumm.Geo.Spec

/-- The points visited when walking along an edge: a closed edge returns to its first point. -/
def walk (isClosed : Bool) (e : List Vec) : List Vec := if isClosed then e ++ e.take 1 else e

/-- The `i`-th point of the walk; the walk stays at its last point. -/
def corner (isClosed : Bool) (e : List Vec) (i : ℕ) : Vec :=
  (walk isClosed e).getD (min i ((walk isClosed e).length - 1)) 0

/-- The triangle has an area of at least 1e-6, unless two of its corners coincide. -/
def NoSliver (a b c : Vec) : Prop := 1e-6 ≤ (Tri.mk a b c).area ∨ a = b ∨ b = c ∨ c = a

/-- The quad is folded along a diagonal: two opposite corners coincide, and the others differ. -/
def Folded (a b c d : Vec) : Prop :=
  (b = d ∧ a ≠ b ∧ c ≠ b ∧ a ≠ c) ∨ (a = c ∧ b ≠ a ∧ d ≠ a ∧ b ≠ d)

/-- Both triangles of one of the two triangulations of the quad have an area of at least 1e-6, and at least one of
the other two. -/
def ThreeProper (a b c d : Vec) : Prop :=
  (1e-6 ≤ (Tri.mk a b c).area ∧ 1e-6 ≤ (Tri.mk c d a).area ∧
    (1e-6 ≤ (Tri.mk a b d).area ∨ 1e-6 ≤ (Tri.mk d b c).area)) ∨
  (1e-6 ≤ (Tri.mk a b d).area ∧ 1e-6 ≤ (Tri.mk d b c).area ∧
    (1e-6 ≤ (Tri.mk a b c).area ∨ 1e-6 ≤ (Tri.mk c d a).area))

/-- A quad that the pairwise mesh can handle: it has at most one triangle that is (nearly) without area, or all such
triangles are due to coinciding corners. -/
def GoodQuad (a b c d : Vec) : Prop :=
  ThreeProper a b c d ∨
    (NoSliver a b c ∧ NoSliver c d a ∧ NoSliver a b d ∧ NoSliver d b c ∧ ¬ Folded a b c d)

end Chrumm.Geo.Spec

namespace Chrumm.Geo.Spec

/-- The segment `ab` crosses the ray from `v` to the right: exactly one end is above the ray's height,
and the segment meets that height at the right of `v`. -/
def RayCross (v a b : Vec) : Prop :=
  ((v.y < a.y ∧ ¬ v.y < b.y) ∨ (¬ v.y < a.y ∧ v.y < b.y)) ∧
    ∃ t : ℝ, 0 ≤ t ∧ t ≤ 1 ∧ (between2D a b t).y = v.y ∧ v.x < (between2D a b t).x

/-- A strictly convex polygon, traversed counter-clockwise: no corner occurs twice, and each corner is
strictly to the left of every side that does not end there. -/
def ConvexPolygon (e : List Vec) : Prop :=
  3 ≤ e.length ∧ e.Nodup ∧ ∀ s ∈ cycPairs e, ∀ r ∈ e, r ≠ s.1 → r ≠ s.2 → 0 < left s.1 s.2 r

end Chrumm.Geo.Spec

namespace Chrumm.Geo.Spec

/-- A side of a polygon that the ray from `a` to the right can hit: it leads upwards through the ray, or
lies on the ray as a whole. -/
def Hits (a p q : Vec) : Prop :=
  (p.y < q.y ∧ ∃ t : ℝ, 0 ≤ t ∧ t ≤ 1 ∧ (between2D p q t).y = a.y ∧ a.x < (between2D p q t).x) ∨
  (p.y = a.y ∧ q.y = a.y ∧ a.x < p.x ∧ a.x < q.x)

end Chrumm.Geo.Spec
