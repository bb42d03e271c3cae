import Verif.Part.Support
import Verif.Spec.Parts

/-! The supports of the key holes. -/

namespace Chrumm.Part.Spec
open Geo Geo.Spec

/-- The point is on the outline of an upright slot with rounded ends: in the plane at `c.x`, at a distance of `d / 2` from
the horizontal segment of length `w - d` around the center `c`. -/
def OnSlot (c : Vec) (w d : ℝ) (p : Vec) : Prop :=
  p.x = c.x ∧
  (∃ t : ℝ, |t| ≤ (w - d) / 2 ∧ (p.y - (c.y + t)) ^ 2 + (p.z - c.z) ^ 2 = (d / 2) ^ 2) ∧
  ∀ t : ℝ, |t| ≤ (w - d) / 2 → (d / 2) ^ 2 ≤ (p.y - (c.y + t)) ^ 2 + (p.z - c.z) ^ 2

/-- The four points of the slot where the straight and the round parts meet. -/
noncomputable def slotCorners (c : Vec) (w d : ℝ) : List Vec :=
  [c + ⟨0, (w - d) / 2, -(d / 2)⟩, c + ⟨0, (w - d) / 2, d / 2⟩, c + ⟨0, -((w - d) / 2), d / 2⟩,
    c + ⟨0, -((w - d) / 2), -(d / 2)⟩]

/-- How far the middle of a slot of depth `d` is below the top of the hole: the optional relative inset moves it from
the top (0) to the bottom (1), and without it, the gap at the bottom is as wide as the one at the sides. -/
noncomputable def slotInset (holeH sideGap d : ℝ) : Option ℝ → ℝ
  | some rel => d / 2 + (holeH - d) * rel
  | none => holeH - sideGap - d / 2

/-- The dimensions of the support and of the hole: the base is at least as thick as the top, but thinner than the roof
(and than 8 mm), both ends have a straight part, the base fits the width, the gaps leave a support between them, and
relative values are relative. -/
structure SaneSupport (holeW holeD holeH : ℝ) (cfg : SupportCfg) : Prop where
  top : 1 ≤ cfg.topDepth
  base : cfg.topDepth ≤ cfg.baseDepth
  thin : cfg.baseDepth ≤ 8
  roof : cfg.baseDepth < holeH
  flat : 1 ≤ cfg.baseWidth - cfg.baseDepth
  width : cfg.baseWidth ≤ holeD - 2 * cfg.sideGap
  length : 1 ≤ holeW - cfg.baseGap - cfg.topGap
  sideGap : 0 ≤ cfg.sideGap
  sideGap_le : cfg.sideGap ≤ holeH - cfg.baseDepth
  baseGap : 0 ≤ cfg.baseGap
  topGap : 0 ≤ cfg.topGap
  position : ∀ s ∈ cfg.relBasePosition, 0 ≤ s ∧ s ≤ 1
  baseInset : ∀ s ∈ cfg.relBaseInset, 0 ≤ s ∧ s ≤ 1
  topInset : ∀ s ∈ cfg.relTopInset, 0 ≤ s ∧ s ≤ 1

/-- The key needs a support: seen from above, its x axis is turned by at most `angle` from the printing direction. -/
def NeedsSupport (angle : ℝ) (m : Mat) : Prop :=
  ∃ d : ℝ, |d| ≤ angle ∧ ∃ k : ℝ, 0 ≤ k ∧ m.m0 = k * Real.cos d ∧ m.m1 = k * Real.sin d

end Chrumm.Part.Spec
