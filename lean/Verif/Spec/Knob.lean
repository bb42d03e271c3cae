import Verif.Part.Knob
import Verif.Spec.Parts

/-! The knob. -/

namespace Chrumm.Part.Spec
open Geo Geo.Spec

/-- The squared distance from the axis of the knob. -/
def axisSq (p : Vec) : ℝ := p.x ^ 2 + p.y ^ 2

/-- The height of the flat side of the shaft over its axis, seen from the end. -/
noncomputable def KnobCfg.flatY (cfg : KnobCfg) : ℝ := cfg.shaftAcrossFlat - cfg.shaftDiameter / 2

/-- How far the center of a groove circle is from the axis. -/
noncomputable def KnobCfg.pitch (cfg : KnobCfg) : ℝ := cfg.outerDiameter / 2 + cfg.grooveDiameter / 2 - cfg.grooveInset

/-- The dimensions of the outside: the chamfer is smaller than the knob, and the rounded corners of the grooves are round,
but not larger than half of the knob, and the skirt leaves a hole. -/
structure SaneOutside (cfg : KnobCfg) : Prop where
  outer : 1 ≤ cfg.outerDiameter / 2
  chamfer : 0 < cfg.outerChamfer
  chamfer_lt : cfg.outerChamfer < cfg.outerDiameter / 2
  groove : 1 / 1000 ≤ cfg.grooveDiameter / 2
  corner : 1 / 1000 ≤ cfg.grooveCornerRadius
  corner_le : cfg.grooveCornerRadius ≤ cfg.outerDiameter / 4
  inset : 1 / 1000 ≤ cfg.grooveInset
  skirt : 1 / 1000 ≤ cfg.outerDiameter / 2 - cfg.skirtThickness

/-- The dimensions of the hole for the shaft: the flat side is at most 96.6% of the way from the axis to the
outside, and half its width is larger than the radius of a prong. -/
structure SaneShaft (cfg : KnobCfg) : Prop where
  shaft : 1 ≤ cfg.shaftDiameter / 2
  flat : |KnobCfg.flatY cfg| ≤ cfg.shaftDiameter / 2 * Real.cos (15 * Real.pi / 180)
  prong : 1 / 1000 ≤ cfg.prongDiameter / 2
  prong_le : (cfg.prongDiameter / 2 + 1 / 1000) ^ 2 ≤ (cfg.shaftDiameter / 2) ^ 2 - KnobCfg.flatY cfg ^ 2

/-- The point is inside the shaft, seen from its end: in a disk without the part above the flat side, and deeper than rounding
can explain. -/
def DeepInShaft (cfg : KnobCfg) (p : Vec) : Prop :=
  axisSq p < (cfg.shaftDiameter / 2) ^ 2 - 2e-12 ∧ p.y < KnobCfg.flatY cfg - 1e-6

/-- The grooves are not too deep, and neighbours do not touch: seen from the axis, the center of a rounded corner is less than
half of a segment away from the middle of the groove. -/
structure GroovesFit (cfg : KnobCfg) : Prop where
  inset_lt : cfg.grooveInset < cfg.outerChamfer
  tangent : (cfg.outerDiameter / 2) ^ 2 + (cfg.grooveDiameter / 2) ^ 2 < KnobCfg.pitch cfg ^ 2
  room : 2 * cfg.grooveCornerRadius + cfg.grooveInset ≤ cfg.outerDiameter / 2
  fit : 2 * KnobCfg.pitch cfg * (cfg.outerDiameter / 2 - cfg.grooveCornerRadius) * Real.cos (Real.pi / cfg.grooveCount) <
    KnobCfg.pitch cfg ^ 2 + (cfg.outerDiameter / 2 - cfg.grooveCornerRadius) ^ 2 -
      (cfg.grooveDiameter / 2 + cfg.grooveCornerRadius) ^ 2

/-- The allowed deviation is small compared to the roundings of the outside. -/
structure FineOutside (q : Quality) (cfg : KnobCfg) : Prop where
  height : 0 < q.maxChordHeight
  angle : 0 < q.maxChordAngle
  groove : q.maxChordHeight ≤ cfg.grooveDiameter
  corner : q.maxChordHeight ≤ 2 * cfg.grooveCornerRadius
  skirt : q.maxChordHeight ≤ cfg.outerDiameter - 2 * cfg.skirtThickness

/-- The allowed deviation is small compared to the roundings of the hole for the shaft. -/
structure FineShaft (q : Quality) (cfg : KnobCfg) : Prop where
  height : 0 < q.maxChordHeight
  angle : 0 < q.maxChordAngle
  hinge : q.maxChordHeight ≤ cfg.prongDiameter / 30
  notch : (3 / 2 * q.maxChordHeight + cfg.prongDiameter / 2) ^ 2 ≤ (cfg.shaftDiameter / 2) ^ 2 - KnobCfg.flatY cfg ^ 2

end Chrumm.Part.Spec
