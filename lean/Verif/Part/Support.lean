import Verif.Part.Boss
import Verif.Part.Pieces

/-! `support.py`: the supports of the key holes. -/

namespace Chrumm.Part
open Geo

noncomputable section

/-- The two ends of the support, `SupportFactory.__init__`, support.py:19-69: `edgeL` and `edgeR`. `holeW` and `holeD`
are `cfg.switch.width` and `depth`, and `holeH` is `cfg.body.roofThickness`. -/
def supportEnds (q : Quality) (holeW holeD holeH : ℝ) (cfg : SupportCfg) : Py (List Vec × List Vec) := do
  let baseW := cfg.baseWidth
  let baseD := cfg.baseDepth
  let topD := cfg.topDepth
  let topW := holeD - 2 * cfg.sideGap
  let baseRatio ← pyDiv cfg.sideGap (holeH - baseD)
  let topRatio ← pyDiv cfg.sideGap (holeH - topD)
  let relBasePos := cfg.relBasePosition.getD 0
  let relBaseInset := cfg.relBaseInset.getD (1 - baseRatio)
  let relTopInset := cfg.relTopInset.getD (1 - topRatio)
  let baseInset := baseD / 2 + (holeH - baseD) * relBaseInset
  let topInset := topD / 2 + (holeH - topD) * relTopInset
  let centerL : Vec := ⟨-holeW / 2 + cfg.baseGap, baseW / 2 - baseD / 2, -baseInset⟩
  let centerR : Vec := ⟨holeW / 2 - cfg.topGap, topW / 2 - topD / 2, -topInset⟩
  let arcXY ← arc2D q (topD / 2) 0 Real.pi 0
  let arc := arcXY.map fun p => (⟨0, p.y, -p.x⟩ : Vec)
  let scale ← pyDiv baseD topD
  let edgeL := edgeTranslated (edgeScaled arc scale) centerL
  let edgeR := edgeTranslated arc centerR
  let edgeL := edgeL ++ (edgeL.map Vec.mirroredY).reverse
  let edgeR := edgeR ++ (edgeR.map Vec.mirroredY).reverse
  let baseMove : Vec := ⟨0, (topW - baseW) / 2 - (topW - baseW) * relBasePos, 0⟩
  pure (edgeTranslated edgeL baseMove, edgeR)

/-- `SupportFactory.__init__`, support.py:16-73. -/
def supportPieces (q : Quality) (holeW holeD holeH : ℝ) (cfg : SupportCfg) : Py (List Piece) := do
  let (edgeL, edgeR) ← supportEnds q holeW holeD holeH cfg
  pure [strip edgeL edgeR true, face edgeL.reverse, face edgeR]

/-- `SupportFactory.make`, support.py:75-81. -/
def supportOf (cfg : SupportCfg) (triangles : List (Tri Vec)) (matrix : Mat) : Py (List (Tri Vec)) := do
  let v ← (⟨1, 0, 0⟩ : Vec).transformedNormal matrix
  pure (if |angle2D v| ≤ cfg.minOverhangAngle then triangles.map fun t => t.map (·.transformed matrix) else [])

/-- `Support.__init__`, support.py:86-94: the triangles of all keys. -/
def supportsOf (cfg : SupportCfg) (triangles : List (Tri Vec)) (matrices : List Mat) : Py (List (Tri Vec)) := do
  let parts ← matrices.mapM (supportOf cfg triangles)
  pure parts.flatten

end

end Chrumm.Part
