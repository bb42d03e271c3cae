import Verif.Part.Bumper
import Verif.Part.Pieces

/-! `knob.py`: the knob of the encoder. -/

namespace Chrumm.Part
open Geo

/-- The values of `cfg.knob`. -/
structure KnobCfg where
  outerDiameter : ℝ
  outerChamfer : ℝ
  roofThickness : ℝ
  shaftHeight : ℝ
  skirtThickness : ℝ
  skirtHeight : ℝ
  grooveCount : ℤ
  grooveDiameter : ℝ
  grooveInset : ℝ
  grooveCornerRadius : ℝ
  shaftAcrossFlat : ℝ
  shaftDiameter : ℝ
  prongDiameter : ℝ

noncomputable section

/-- One groove, knob.py:92-122: the right half and its mirror image. -/
def grooveSegment (q : Quality) (cfg : KnobCfg) : Py (List Vec) := do
  let outerRadius := cfg.outerDiameter / 2
  let grooveRadius := cfg.grooveDiameter / 2
  let cornerRadius := cfg.grooveCornerRadius
  let grooveCenter : Vec := ⟨0, outerRadius + grooveRadius - cfg.grooveInset, 0⟩
  let shrunkOuterCircle : Circle := ⟨0, outerRadius - cornerRadius⟩
  let grownGrooveCircle : Circle := ⟨grooveCenter, grooveRadius + cornerRadius⟩
  let centers ← shrunkOuterCircle.intersectCircle2D grownGrooveCircle
  let cornerCenter ← pyIndex centers 1
  let segmentSpan ← pyDiv tau cfg.grooveCount
  let cornerStart := angle2D cornerCenter
  let grooveStart := angle2D (cornerCenter - grooveCenter)
  let outerStart := tau / 4 - segmentSpan / 2
  let outerSpan := -(outerStart - cornerStart)
  let grooveSpan := -(tau / 4 + grooveStart)
  let cornerSpan := angle2D (grooveCenter - cornerCenter) - cornerStart
  let arc1 ← arc2D q outerRadius outerStart outerSpan 0
  let arc2 ← arc2D q cornerRadius cornerStart cornerSpan cornerCenter
  let arc3 ← arc2D q grooveRadius grooveStart grooveSpan grooveCenter
  let segment := arc1 ++ arc2 ++ arc3
  pure (segment ++ (segment.map Vec.mirroredX).reverse)

/-- `_grooveSketch2D`, knob.py:66-129. -/
def grooveSketch (q : Quality) (cfg : KnobCfg) : Py (List Vec) := do
  let outerRadius := cfg.outerDiameter / 2
  let grooveRadius := cfg.grooveDiameter / 2
  if cfg.grooveCount ≤ 0 then arc2D q outerRadius 0 tau 0
  else do
    let tangentHypot ← pySqrt (outerRadius ^ 2 + grooveRadius ^ 2)
    let tangentInset := grooveRadius - (tangentHypot - outerRadius)
    if cfg.grooveInset ≥ tangentInset then .error .valueError
    else if cfg.grooveInset ≥ cfg.outerChamfer then .error .valueError
    else do
      let segment ← grooveSegment q cfg
      let segmentSpan ← pyDiv tau cfg.grooveCount
      let rest := (List.range (cfg.grooveCount.toNat - 1)).flatMap fun (i : ℕ) =>
        edgeTransformed segment ((1 : Mat).rotatedZ (segmentSpan * ((i + 1 : ℕ) : ℝ)))
      pure (collapsed (edgeSnapped (segment ++ rest)) (1 / 1000))

/-- `_shaftSketch2D`, knob.py:131-193. -/
def shaftSketch (q : Quality) (cfg : KnobCfg) : Py (List Vec) := do
  let shaftRadius := cfg.shaftDiameter / 2
  let prongRadius := cfg.prongDiameter / 2
  let prongAngle : ℝ := 15 * Real.pi / 180
  let relProngPitch : ℝ := 1 / 3
  let relNotchSize : ℝ := 2 / 3
  let flatY := cfg.shaftAcrossFlat - shaftRadius
  let flatX ← pySqrt (shaftRadius ^ 2 - flatY ^ 2)
  let flatVertex : Vec := ⟨flatX, flatY, 0⟩
  let prongX := flatX * relProngPitch
  let prongY := flatY + prongRadius
  let prongCenter : Vec := ⟨prongX, prongY, 0⟩
  let notchRadius := prongX - prongRadius * (1 - relNotchSize)
  let notchOffset ← pySqrt ((prongRadius + notchRadius) ^ 2 - prongX ^ 2)
  let notchCenter : Vec := ⟨0, prongY + notchOffset, 0⟩
  let flatDiagonal ← Line.make 0 flatVertex
  let shaftTangent ← Line.make flatVertex flatDiagonal.dir.ortho2D
  let prongDir : Vec := ⟨Real.cos prongAngle, Real.sin prongAngle, 0⟩
  let prongTouch := prongCenter - prongDir.ortho2D * prongRadius
  let prongTangent ← Line.make prongTouch prongDir
  let bisectPos ← shaftTangent.intersect prongTangent
  let bisectDir := shaftTangent.dir + prongTangent.dir
  let hingeBisect ← Line.make bisectPos bisectDir
  let hingeCenter ← flatDiagonal.intersect hingeBisect
  let hingeRadius := (hingeCenter - flatVertex).magnitude2D
  let notchStart := angle2D (prongCenter - notchCenter)
  let notchSpan := Real.pi / 2 - notchStart
  let prongStart := Real.pi / 2 * 3 + prongAngle
  let prongSpan := Real.pi + notchStart - prongStart
  let hingeStart := angle2D hingeCenter
  let hingeSpan := Real.pi / 2 + prongAngle - hingeStart
  let shaftStart := Real.pi / 2 * 3
  let shaftSpan := Real.pi / 2 + hingeStart
  let arc1 ← arc2D q shaftRadius shaftStart shaftSpan 0
  let arc2 ← arc2D q hingeRadius hingeStart hingeSpan hingeCenter
  let arc3 ← arc2D q prongRadius prongStart prongSpan prongCenter
  let arc4 ← arc2D q notchRadius notchStart notchSpan notchCenter
  let half := arc1 ++ arc2 ++ arc3 ++ arc4
  pure (collapsed (edgeSnapped (half ++ (half.map Vec.mirroredX).reverse)) (1 / 1000))

/-- `Knob.__init__`, knob.py:21-64. -/
def knobPieces (q : Quality) (cfg : KnobCfg) : Py (List Piece) := do
  let outerRadius := cfg.outerDiameter / 2
  let radiusT := outerRadius - cfg.outerChamfer
  let centerG : Vec := ⟨0, 0, cfg.skirtHeight + cfg.shaftHeight + cfg.roofThickness⟩
  let shaftG : Vec := ⟨0, 0, cfg.roofThickness + cfg.shaftHeight⟩
  let shaftT : Vec := ⟨0, 0, cfg.roofThickness⟩
  let groove ← grooveSketch q cfg
  let grooveEdgeG := edgeTranslated groove centerG
  let grooveEdgeT := groove.map fun p => (⟨p.x, p.y, p.magnitude - radiusT⟩ : Vec)
  let chamferDirs ← groove.mapM Vec.normalized
  let chamferEdge := chamferDirs.map fun (p : Vec) => (p * radiusT : Vec)
  let shaft ← shaftSketch q cfg
  let shaftEdgeG := edgeTranslated shaft shaftG
  let shaftEdgeT := edgeTranslated shaft shaftT
  let skirt ← arc2D q (outerRadius - cfg.skirtThickness) 0 tau 0
  let skirtEdgeG := edgeTranslated skirt centerG
  let skirtEdgeT := edgeTranslated skirt shaftG
  pure [strip [0] chamferEdge true, strip chamferEdge grooveEdgeT true, strip grooveEdgeT grooveEdgeG true,
    strip skirtEdgeG skirtEdgeT true, strip shaftEdgeG shaftEdgeT true,
    face shaftEdgeT, face skirtEdgeT [shaftEdgeG.reverse], face grooveEdgeG [skirtEdgeG.reverse]]

end

end Chrumm.Part
