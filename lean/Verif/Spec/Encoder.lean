import Verif.Part.Encoder
import Verif.Spec.Pieces

/-! Vocabulary for the encoder. -/

namespace Chrumm.Part.Spec
open Geo Geo.Spec

/-- Sensible dimensions of an encoder: its box has a depth and a width, and either no notch or a notch that is not too
small and does not take the whole depth. -/
structure SaneEncoder (cfg : EncoderCfg) : Prop where
  depth : 1 / 100 ≤ cfg.depth
  width : 1 / 100 ≤ cfg.width
  notch : cfg.pinNotchDepth = 0 ∨ 1 / 100 ≤ cfg.pinNotchDepth
  rest : 2 * cfg.pinNotchDepth + 1 / 100 ≤ cfg.depth

/-- The normal of a roof: a unit vector that points upwards. -/
def Upwards (n : Vec) : Prop := n.dot n = 1 ∧ 0 < n.z

/-- The direction is upwards, or different from it by more than rounding. -/
def NotAlmostUp (n : Vec) : Prop := n = ⟨0, 0, 1⟩ ∨ ¬ Near ⟨0, 0, 1⟩ n

/-- A rigid motion that moves the origin to `pos` and the z axis to the direction `n`; if `n` has no sideways part,
it leaves the x axis as it is. -/
structure Placement (place : Vec → Vec) (pos n : Vec) : Prop where
  rigid : Rigid place
  origin : place 0 = pos
  along : ∀ p, n.dot (place p - pos) = p.z
  side : n.x = 0 → ∀ p, (place p).x = p.x + pos.x

/-- A point of the wall of half a hole of radius `r` around the z axis: it is not closer than the radius to the axis; the hole
does not exceed the radius to the right, even if a flat replaces the part that would be the ceiling during printing, nor along the split, unless
the flat is wider than the hole. A hole without taper is round. -/
def HoleWall (taper : Option ℝ) (r : ℝ) (p : Vec) : Prop :=
  0 ≤ p.x ∧ p.x ≤ r ∧ r ^ 2 ≤ p.x ^ 2 + p.y ^ 2 ∧ ((∀ a ∈ taper, a ≤ 0) → p.x ^ 2 + p.y ^ 2 = r ^ 2) ∧
    ((∀ a ∈ taper, a ≤ Real.pi / 2) → |p.y| ≤ r)

/-- The shape of the encoder hole. The hole is around the axis through `pos` in the direction `n`: the chamfer opens from the radius
of the hole to the outer side of the roof, the hole ends at its height below it, and there the box for the body of the encoder begins. The box has the
configured width and depth around the axis; on the side of the pins it has a notch that widens it towards the inner side of the roof;
its other walls are parallel to the axis, and end in the inner side of the roof. Only the right half is made. -/
def EncoderShape (taper : Option ℝ) (cfg : EncoderCfg) (pos n : Vec) (roofI : Plane) (pieces : List Piece) (rimI rimO : List Vec) : Prop :=
  ∃ place, Placement place pos n ∧
  let r := cfg.holeDiameter / 2
  let w := cfg.width / 2
  let d := cfg.depth / 2
  let nd := cfg.pinNotchDepth
  ∃ chamfer hole ceiling, ∃ z0 z1 z2 z3 z4 z5 : ℝ,
    let rim := [place ⟨0, d, z0⟩, place ⟨w, d, z1⟩, place ⟨w + nd, d - nd, z2⟩, place ⟨w + nd, -(d - nd), z3⟩, place ⟨w, -d, z4⟩, place ⟨0, -d, z5⟩]
    pieces = [chamfer, hole, strip rim [place ⟨0, d, -cfg.holeHeight⟩, place ⟨w, d, -cfg.holeHeight⟩, place ⟨w, d, -cfg.holeHeight⟩,
      place ⟨w, -d, -cfg.holeHeight⟩, place ⟨w, -d, -cfg.holeHeight⟩, place ⟨0, -d, -cfg.holeHeight⟩], ceiling] ∧
    (∀ p ∈ rim, OnPlane roofI.pos roofI.normal p) ∧ rimI = (collapsed rim (1 / 1000)).reverse ∧
    (∀ x ∈ rimO, ∃ p : Vec, x = place p ∧ p.z = 0 ∧ HoleWall taper (r + cfg.holeChamfer) p) ∧
    (∀ x ∈ Piece.points chamfer, ∃ p : Vec, x = place p ∧ (p.z = 0 ∧ HoleWall taper (r + cfg.holeChamfer) p ∨
      p.z = -cfg.holeChamfer ∧ HoleWall taper r p)) ∧
    (∀ x ∈ Piece.points hole, ∃ p : Vec, x = place p ∧ (p.z = -cfg.holeChamfer ∨ p.z = -cfg.holeHeight) ∧ HoleWall taper r p) ∧
    ∀ x ∈ Piece.points ceiling, ∃ p : Vec, x = place p ∧ p.z = -cfg.holeHeight ∧ (HoleWall taper r p ∨ (p.x = 0 ∨ p.x = w) ∧ |p.y| = |d|)

end Chrumm.Part.Spec
