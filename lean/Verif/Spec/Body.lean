import Verif.Part.Body
import Verif.Spec.Parts
import Verif.Spec.Plan
import Verif.Spec.Encoder

/-! What a body should be made of. -/

namespace Chrumm.Part.Spec
open Geo Geo.Spec

/-- How steep the roof of a group is: the cosine of its angle to the ground. -/
noncomputable def Group.steepness (body : BodyCfg) (g : Group) : ℝ := Real.cos (g.angle body) * Real.cos body.tiltAngle

/-- Sensible dimensions of a body: those of the key holes, the threads and the encoder are sensible, a roof is not so steep
that it cuts through the wall of a thread with the minimal length, and the corners of the inner wall are round. -/
structure SaneBody (cfg : KeyboardCfg) : Prop where
  quality : SaneQuality cfg.quality
  hole : SaneHole (holeWidth cfg.switch cfg.body.roofThickness) (holeDepth cfg.switch cfg.body.roofThickness)
    cfg.body.roofThickness cfg.switch.entryChamfer (activeClip cfg.switch cfg.body.roofThickness)
  thread : SaneThread cfg.boss cfg.support
  steep : ∀ g : Group, 0 < g.steepness cfg.body ∧ Real.sqrt (1 - g.steepness cfg.body ^ 2) * cfg.boss.threadDiameter ≤
    g.steepness cfg.body * (cfg.boss.minThreadLength - cfg.boss.threadChamfer - 1 / 1000)
  wall : 0 ≤ cfg.body.wallThickness
  corner : 1 / 1000000 ≤ cfg.outerCornerRadius - cfg.body.wallThickness
  encoder : ∀ ec ∈ cfg.encoder, SaneEncoder ec

end Chrumm.Part.Spec
