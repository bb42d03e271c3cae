import Verif.Part.Cable
import Verif.Spec.Encoder

/-! The cable hole. -/

namespace Chrumm.Part.Spec
open Geo Geo.Spec

/-- Sensible dimensions of a cable hole: the fillet is not larger than the wall, the tip of the bump is rounded and not larger than the bend, and
its underside is inclined. -/
structure SaneCable (cfg : CableCfg) (wall : ℝ) : Prop where
  radius : 1 / 1000000 ≤ cfg.diameter / 2
  fillet : 1 / 1000000 ≤ cfg.wallExitFillet
  fillet_le : cfg.wallExitFillet ≤ wall
  bump : 1 / 1000000 ≤ cfg.wallBumpRadius
  bump_le : cfg.wallBumpRadius ≤ cfg.minBendRadius
  taper : 0 ≤ cfg.wallBumpTaperAngle
  taper_lt : cfg.wallBumpTaperAngle < Real.pi / 2

/-- The roundings of a cable hole are not too fine: none of its sides is shorter than a thousandth, below which points are joined. -/
structure FineCable (q : Quality) (cfg : CableCfg) (wall : ℝ) : Prop where
  angle : 0 < q.maxChordAngle
  height : 0 < q.maxChordHeight
  fillet : 1 / 100 ≤ cfg.wallExitFillet
  bump : 1 / 100 ≤ cfg.wallBumpRadius
  inner : cfg.wallExitFillet = wall ∨ 1 / 1000 ≤ wall - cfg.wallExitFillet
  taper : cfg.wallBumpTaperAngle ≤ 5 * Real.pi / 12
  tip : 1 / 1000 ≤ (cfg.minBendRadius - cfg.wallBumpRadius) / Real.sqrt 2 + Real.sin cfg.wallBumpTaperAngle * cfg.wallBumpRadius
  chords : ∀ r ∈ [cfg.wallExitFillet, cfg.wallBumpRadius], 1 / 300 ≤ r * q.maxChordAngle ∧ 1 / 300000 ≤ q.maxChordHeight * r

/-- The point, relative to the axis of the hole at the inner side of the wall (`x` sideways, `y` through the wall, `z` upwards), is on the wall of the hole: at the inner side on a
half hole of the radius `r` of the cable; near the outer side, on a half hole whose radius grows along a quarter of a circle by the size `f` of the fillet. -/
def OnExit (taper : Option ℝ) (r f t : ℝ) (p : Vec) : Prop :=
  p.y = 0 ∧ HoleWall taper r ⟨p.x, p.z, 0⟩ ∨
  ∃ ρ, r ≤ ρ ∧ ρ ≤ r + f ∧ t - f ≤ p.y ∧ p.y ≤ t ∧ (r + f - ρ) ^ 2 + (p.y - (t - f)) ^ 2 = f ^ 2 ∧ HoleWall taper ρ ⟨p.x, p.z, 0⟩

/-- The middle of the tip of the bump, seen from the side: it is on the diagonal, and the tip touches the bend. -/
noncomputable def CableCfg.tip (cfg : CableCfg) : Vec :=
  ⟨(cfg.minBendRadius - cfg.wallBumpRadius) / Real.sqrt 2, (cfg.minBendRadius - cfg.wallBumpRadius) / Real.sqrt 2, 0⟩

/-- The profile of the upper side of the bump, seen from the side: an eighth of a circle with the bend radius of the cable, from the top, and then an
eighth of the tip. -/
def OnBend (cfg : CableCfg) (b : Vec) : Prop :=
  (b.x ^ 2 + b.y ^ 2 = cfg.minBendRadius ^ 2 ∧ 0 ≤ b.x ∧ b.x ≤ b.y) ∨
  (distSq2D (CableCfg.tip cfg) b = cfg.wallBumpRadius ^ 2 ∧ (CableCfg.tip cfg).y ≤ b.y ∧ b.y - (CableCfg.tip cfg).y ≤ b.x - (CableCfg.tip cfg).x)

/-- The profile of the underside: the tip, until it has the inclination of the taper, and the point of the tangent there at the wall. -/
def OnTaper (cfg : CableCfg) (b : Vec) : Prop :=
  let θ := cfg.wallBumpTaperAngle
  let end1 := CableCfg.tip cfg + (⟨Real.sin θ, -Real.cos θ, 0⟩ : Vec) * cfg.wallBumpRadius
  (distSq2D (CableCfg.tip cfg) b = cfg.wallBumpRadius ^ 2 ∧ b.y ≤ (CableCfg.tip cfg).y ∧ end1.x ≤ b.x) ∨
  (b.x = 0 ∧ OnLine end1 ⟨Real.cos θ, Real.sin θ, 0⟩ b)

/-- The shape of a cable hole whose top is at `pos` on the inner side of a wall of the given thickness; only the right half is made. The wall of the hole leaves room for the cable and widens
towards the outside. Inside is a bump below the hole, whose width is given, with a groove for the cable: it starts at the lower half of the hole, and bends the
cable downwards with its bend radius, until it is inclined by 45 degrees. Below its tip, the bump tapers back to the wall. -/
def CableShape (taper : Option ℝ) (cfg : CableCfg) (width : ℝ) (pos : Vec) (wall : ℝ) (c : Cable) : Prop :=
  let r := cfg.diameter / 2
  ∃ exits under top side groove, c.pieces = exits ++ [under, top, side] ++ groove ∧
    (∀ P ∈ exits, ∀ p ∈ Piece.points P, OnExit taper r cfg.wallExitFillet wall (p - pos + ⟨0, 0, r⟩)) ∧
    (∀ P ∈ groove, ∀ p ∈ Piece.points P, ∃ m start b : Vec, OnExit taper r cfg.wallExitFillet wall (m - pos + ⟨0, 0, r⟩) ∧ m.y = pos.y ∧
      (start = m ∨ start = ⟨pos.x + width, pos.y, m.z⟩) ∧ OnBend cfg b ∧ p = start + ⟨0, -b.x, b.y - cfg.minBendRadius⟩) ∧
    (∀ p ∈ Piece.points under, ∃ b : Vec, OnTaper cfg b ∧ (p.x = pos.x ∨ p.x = pos.x + width) ∧
      p.y = pos.y - b.x ∧ p.z = pos.z - 2 * r - cfg.minBendRadius + b.y) ∧
    (∀ p ∈ Piece.points side, p.x = pos.x + width) ∧
    (∀ p ∈ Piece.points top, p.y = pos.y - ((CableCfg.tip cfg).x + cfg.wallBumpRadius)) ∧
    (∀ p ∈ Piece.points side ++ Piece.points top, ∃ P ∈ under :: groove, p ∈ Piece.points P) ∧
    (∀ p ∈ c.wallEdgeF, p.y = pos.y) ∧ (∀ p ∈ c.wallEdgeB, p.y = pos.y + wall)

end Chrumm.Part.Spec
