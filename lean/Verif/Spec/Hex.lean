import Verif.Spec.Mesh
import Verif.Spec.Clip
import Verif.Part.FullPlan

/-! Polygons in the xy plane: segments that meet, what is strictly inside, and regular hexagons. -/

namespace Chrumm.Geo.Spec
open Geo

/-- Two segments have a common point, in the xy plane. -/
def Meet (p q a b : Vec) : Prop :=
  ∃ s t : ℝ, 0 ≤ s ∧ s ≤ 1 ∧ 0 ≤ t ∧ t ≤ 1 ∧ between2D p q s = between2D a b t

/-- A point is strictly on the left of all sides of a polygon. -/
def Inside (e : List Vec) (p : Vec) : Prop := ∀ s ∈ cycPairs e, 0 < left s.1 s.2 p

/-- A point is on the left of all sides of a polygon, or on the sides. -/
def Within (e : List Vec) (p : Vec) : Prop := ∀ s ∈ cycPairs e, 0 ≤ left s.1 s.2 p

/-- A point is on a side of a polygon, in the xy plane. -/
def OnOutline (e : List Vec) (p : Vec) : Prop := ∃ s ∈ cycPairs e, ∃ t : ℝ, 0 ≤ t ∧ t ≤ 1 ∧ p.xy = between2D s.1 s.2 t

/-- The regular hexagon with a flat top around (x, y), counter-clockwise from its leftmost corner. Its corners have the distance `r`
from the center. -/
noncomputable def hexagon (x y r : ℝ) : List Vec :=
  [⟨x - r, y, 0⟩, ⟨x - r / 2, y - r / 2 * Real.sqrt 3, 0⟩, ⟨x + r / 2, y - r / 2 * Real.sqrt 3, 0⟩,
   ⟨x + r, y, 0⟩, ⟨x + r / 2, y + r / 2 * Real.sqrt 3, 0⟩, ⟨x - r / 2, y + r / 2 * Real.sqrt 3, 0⟩]

end Chrumm.Geo.Spec

namespace Chrumm.Part.Spec
open Geo Geo.Spec

/-- A border whose sides have a length and are not nearly, but not exactly, parallel to a line through two corners of a cell
of the grid. -/
structure CleanBorder (cfg : HexCfg) (edge : List Vec) : Prop where
  flat : ∀ p ∈ edge, p.z = 0
  sides : ∀ s ∈ cycPairs edge, s.1 ≠ s.2
  angles : ∀ s ∈ cycPairs edge, ∀ u ∈ hexagon 0 0 (cfg.maxDiameter / 2), ∀ v ∈ hexagon 0 0 (cfg.maxDiameter / 2),
    (v.x - u.x) * (s.2.y - s.1.y) - (v.y - u.y) * (s.2.x - s.1.x) = 0 ∨
      1 / 1000000 ≤ |(v.x - u.x) * (s.2.y - s.1.y) - (v.y - u.y) * (s.2.x - s.1.x)|

/-- (x, y) is the center of the cell in column `a` and row `b` of the grid, where `a` and `b` are both even or both odd: the cells are hexagons of the largest size, in a honeycomb pattern that keeps
`holeMargin` between them. `xOffset` and `yOffset` are relative to a cell in the left front corner of the border. -/
def GridCell (cfg : HexCfg) (edge : List Vec) (a b : ℤ) (x y : ℝ) : Prop :=
  ∃ p ∈ edge, ∃ p' ∈ edge, (∀ q ∈ edge, p.x ≤ q.x) ∧ (∀ q ∈ edge, p'.y ≤ q.y) ∧
    x = p.x + cfg.maxDiameter / 2 + cfg.xOffset + (3 * (cfg.maxDiameter / 2) + cfg.holeMargin * Real.sqrt 3) / 2 * a ∧
    y = p'.y + cfg.maxDiameter / 4 * Real.sqrt 3 + cfg.yOffset + (cfg.maxDiameter / 2 * Real.sqrt 3 + cfg.holeMargin) / 2 * b

/-- No corner of the border is within 0.000001 of a corner of a cell, unless both are the same. -/
def CleanCell (cfg : HexCfg) (edge : List Vec) (x y : ℝ) : Prop :=
  ∀ p ∈ edge, ∀ c ∈ hexagon x y (cfg.maxDiameter / 2), |p.x - c.x| < 1 / 1000000 → |p.y - c.y| < 1 / 1000000 → p = c

/-- The cell around (x, y) with radius `R` can be shrunk towards its corner `c`, which is inside the border, by the factor `φ`: no corner of the border
is within a smaller hexagon, and the border does not meet the diagonals and sides that begin at `c` within this factor. -/
structure Shrinks (edge : List Vec) (x y R φ : ℝ) (c : Vec) : Prop where
  corner : c ∈ hexagon x y R
  inside : contains2D edge c = true
  points : ∀ p ∈ edge, ∀ h, Within (hexagon x y R) h → ∀ ψ, 0 ≤ ψ → ψ < φ → p.xy ≠ (c + (h - c) * ψ).xy
  spokes : ∀ v ∈ hexagon x y R, ∀ s ∈ cycPairs edge, ∀ t u, 0 ≤ t → t < φ → 0 ≤ u → u ≤ 1 → between2D c v t ≠ between2D s.1 s.2 u

end Chrumm.Part.Spec
