import Verif.Spec.Mesh

/-! Ear clipping as it should be: without a cache. -/

namespace Chrumm.Geo.Spec

/-- Distance in the xy plane. -/
noncomputable def dist2D (p q : Vec) : ℝ := Real.sqrt (distSq2D p q)

/-- The corner at position `i` of a closed polygon, with its two neighbours. -/
def earAt (poly : List ℕ) (i : ℕ) : Tri ℕ :=
  ⟨poly.getD ((i + (poly.length - 1)) % poly.length) 0, poly.getD i 0, poly.getD ((i + 1) % poly.length) 0⟩

/-- `p` is inside the counter-clockwise triangle `a b c`, or outside by less than 1e-6. -/
def InTriangle (a b c p : Vec) : Prop :=
  -(1e-6 * dist2D a b) < left a b p ∧ -(1e-6 * dist2D b c) < left b c p ∧ -(1e-6 * dist2D c a) < left c a p

/-- The ear at position `i` can be cut: it is a proper triangle, at most 1e-6 below its base, that has no
other corner of the polygon inside. -/
def CanCut (pos : ℕ → Vec) (poly : List ℕ) (i : ℕ) : Prop :=
  let t := earAt poly i;
  -(1e-6 * dist2D (pos t.c) (pos t.a)) ≤ left (pos t.a) (pos t.b) (pos t.c) ∧
  ∀ j ∈ poly, j ≠ t.a → j ≠ t.b → j ≠ t.c → ¬ InTriangle (pos t.a) (pos t.b) (pos t.c) (pos j)

/-- Ear clipping: `Clip pos poly ears rest` means that by always cutting the first possible ear, as long
as there are more than two corners, the `ears` are cut from `poly`, and `rest` remains. -/
inductive Clip (pos : ℕ → Vec) : List ℕ → List (Tri ℕ) → List ℕ → Prop
  | done (poly) : poly.length ≤ 2 → Clip pos poly [] poly
  | stuck (poly) : (∀ i < poly.length, ¬ CanCut pos poly i) → Clip pos poly [] poly
  | cut (poly i ears rest) : 3 ≤ poly.length → i < poly.length → CanCut pos poly i →
      (∀ j < i, ¬ CanCut pos poly j) → Clip pos (poly.eraseIdx i) ears rest →
      Clip pos poly (earAt poly i :: ears) rest

end Chrumm.Geo.Spec

namespace Chrumm.Geo.Spec

/-- Corners are a convex polygon with a margin: any three corners, in their order, are counter-clockwise,
and each of them is at least 1e-6 away from the line through the two others. -/
def ConvexWithMargin (pos : ℕ → Vec) (poly : List ℕ) : Prop :=
  ∀ x y z, [x, y, z].Sublist poly →
    0 < left (pos x) (pos y) (pos z) ∧
    1e-6 * dist2D (pos x) (pos y) ≤ left (pos x) (pos y) (pos z) ∧
    1e-6 * dist2D (pos y) (pos z) ≤ left (pos x) (pos y) (pos z) ∧
    1e-6 * dist2D (pos z) (pos x) ≤ left (pos x) (pos y) (pos z)

/-- Seen from above, the two points are at the same place. -/
def SamePlace (p q : Vec) : Prop := p.x = q.x ∧ p.y = q.y

end Chrumm.Geo.Spec

namespace Chrumm.Geo.Spec

/-- Seen from above, `p` is in the convex hull of the points: it is in every half plane that contains them all. -/
def InHull2D (vs : List Vec) (p : Vec) : Prop :=
  ∀ a b c : ℝ, (∀ u ∈ vs, a * u.x + b * u.y ≤ c) → a * p.x + b * p.y ≤ c

end Chrumm.Geo.Spec
