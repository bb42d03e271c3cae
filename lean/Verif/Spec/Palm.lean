import Verif.Part.Palm
import Verif.Spec.Parts

/-! What a palm rest should be like. -/

namespace Chrumm.Part.Spec
open Geo Geo.Spec

/-- Sensible dimensions of a palm rest: those of the threads and the bumpers are sensible. -/
structure SanePalm (cfg : KeyboardCfg) : Prop where
  quality : SaneQuality cfg.quality
  thread : SaneThread cfg.boss cfg.support
  bumper : ∀ c ∈ cfg.bumper, 1 ≤ c.diameter ∧ 1 / 1000 ≤ |c.height|

/-- The profile of a palm rest, moved inwards by `inset`, is sensible: it is tilted by less than 45 degrees, and the rounded ends
leave space for the roof. -/
structure SaneRoof (palm : PalmCfg) (inset : ℝ) : Prop where
  fillet : palm.roofFillet ≤ inset ∨ 1 / 1000000 ≤ palm.roofFillet - inset
  tilt : |palm.tiltAngle| < Real.pi / 4
  depth : 4 * max 0 (palm.roofFillet - inset) + 2 * inset + 1 / 1000000 ≤ palm.depth

/-- Sensible dimensions of a palm rest in front of a wall of the given width: the roof, sides and floor are inclined by at most 45 degrees,
the notch for the hitch does not reach through the front and leaves a gap between its sides, and lengths are positive. -/
structure SaneRest (cfg : KeyboardCfg) (palm : PalmCfg) (width : ℝ) : Prop where
  angle : 0 < cfg.quality.maxChordAngle
  chord : 0 < cfg.quality.maxChordHeight
  roof : SaneRoof palm 0
  fillet : 0 ≤ palm.floorFillet
  fillet' : palm.floorFillet ≤ palm.depth
  tent : |palm.tentAngle| ≤ Real.pi / 4
  taper : |palm.taperAngle| ≤ Real.pi / 4
  floor : 0 < cfg.floor.outerHeight
  radius : 1 / 1000000 ≤ palm.hitchCornerRadius
  front : palm.floorContactWidth + cfg.floor.outerHeight < palm.depth
  room : palm.floorContactWidth + cfg.floor.outerHeight +
    (palm.bodyMargin + palm.depth - palm.floorContactWidth - cfg.floor.outerHeight) * Real.sin palm.taperAngle <
      width / 2 * Real.cos palm.taperAngle
  groove : ∀ g ∈ palm.groove, 0 < g.width
  bumper : ∀ c ∈ cfg.bumper, 1 ≤ c.diameter ∧ SaneQuality cfg.quality ∧ cfg.quality.maxChordHeight ≤ c.diameter

/-- Sensible dimensions of the screws: none of the circles is smaller than a chord is high, and the support of the holes is not upside down. -/
structure SaneScrew (cfg : KeyboardCfg) : Prop where
  quality : SaneQuality cfg.quality
  clearance : 1 / 1000000 ≤ cfg.boss.clearanceHoleDiameter ∧ cfg.quality.maxChordHeight ≤ cfg.boss.clearanceHoleDiameter
  thread : 1 / 500000 ≤ cfg.boss.threadDiameter ∧ cfg.quality.maxChordHeight ≤ cfg.boss.threadDiameter
  boss : cfg.quality.maxChordHeight ≤ cfg.boss.diameter
  fillet : cfg.boss.innerWallFillet < 1 / 1000000 ∨ cfg.quality.maxChordHeight ≤ 2 * cfg.boss.innerWallFillet
  taper : ∀ s ∈ cfg.support, s.holeTaperAngle < Real.pi

/-- The distance of a point from the wall between two corners, seen from above; positive in front of the wall. -/
noncomputable def fromWall (a b p : Vec) : ℝ := -left a b p / Real.sqrt (distSq2D a b)

/-- The distance of a point from the corner `a`, along the wall towards `b`, seen from above. -/
noncomputable def alongWall (a b p : Vec) : ℝ := ((b.x - a.x) * (p.x - a.x) + (b.y - a.y) * (p.y - a.y)) / Real.sqrt (distSq2D a b)

/-- The distance of the bumpers of a palm rest from its front and its back. -/
noncomputable def bumperInset (palm : PalmCfg) (bumper : BumperCfg) : ℝ :=
  max (bumper.margin + bumper.diameter / 2 + match palm.groove with | some g => g.roofMargin + g.height | none => 0) (palm.floorContactWidth / 2)

end Chrumm.Part.Spec
