import Verif.Part.Boss
import Verif.Part.Pieces

/-! `encoder.py`: the hole of the encoder. -/

namespace Chrumm.Part
open Geo

/-- The values of `cfg.encoder` that are used by `encoder.py`. -/
structure EncoderCfg where
  width : ℝ
  depth : ℝ
  holeDiameter : ℝ
  holeHeight : ℝ
  holeChamfer : ℝ
  pinNotchDepth : ℝ
  relPosition : ℝ

/-- `Encoder`, encoder.py:14-20. -/
structure Encoder where
  pieces : List Piece
  roofEdgeI : List Vec
  roofEdgeO : List Vec
  splitEdgeF : List Vec
  splitEdgeB : List Vec

noncomputable section

/-- `boxEdgeT`, encoder.py:49-54, before it is aligned: three points, and their mirror images backwards. -/
def encoderBox (cfg : EncoderCfg) : List Vec :=
  let half : List Vec := [⟨0, cfg.depth / 2, -cfg.holeHeight⟩, ⟨cfg.width / 2, cfg.depth / 2, -cfg.holeHeight⟩,
    ⟨cfg.width / 2 + cfg.pinNotchDepth, cfg.depth / 2 - cfg.pinNotchDepth, -cfg.holeHeight⟩]
  half ++ (half.map Vec.mirroredY).reverse

/-- `Encoder.__init__`, encoder.py:16-77. `taper` is `cfg.support.holeTaperAngle`. -/
def Encoder.make (q : Quality) (taper : Option ℝ) (cfg : EncoderCfg) (roofPlaneO roofPlaneI : Plane) : Py Encoder := do
  let holeRadius := cfg.holeDiameter / 2
  let pos := roofPlaneO.pos
  let normal := roofPlaneO.normal
  let rotation ← Mat.fromAlignment ⟨0, 0, 1⟩ normal
  let align := rotation.translated pos
  let hole ← uprightHalfHole2D q taper holeRadius
  let holeArc := hole.map fun p => (⟨p.y, p.x, 0⟩ : Vec)
  let ratio ← pyDiv cfg.holeChamfer holeRadius
  let holeEdgeT := edgeTransformed (edgeScaled holeArc (1 + ratio)) align
  let holeEdgeC := edgeTransformed (edgeTranslated holeArc ⟨0, 0, -cfg.holeChamfer⟩) align
  let holeEdgeG := edgeTransformed (edgeTranslated holeArc ⟨0, 0, -cfg.holeHeight⟩) align
  let box := edgeTransformed (encoderBox cfg) align
  let boxEdgeG ← box.mapM fun p => do
    let line ← Line.make p normal
    roofPlaneI.intersectLine line
  let t0 ← pyIndex box 0
  let t1 ← pyIndex box 1
  let t4 ← pyIndex box 4
  let t5 ← pyIndex box 5
  let boxEdgeT := [t0, t1, t1, t4, t4, t5]
  let boxFaceEdge := [t0, t1, t4, t5] ++ holeEdgeG.reverse
  let edges := [boxEdgeG, boxEdgeT, holeEdgeG, holeEdgeC, holeEdgeT]
  let splitEdgeF ← edges.reverse.mapM fun e => pyIndex e (-1)
  let splitEdgeB ← edges.mapM fun e => pyIndex e 0
  pure
    { splitEdgeF, splitEdgeB
      roofEdgeI := (collapsed boxEdgeG (1 / 1000)).reverse
      roofEdgeO := holeEdgeT
      pieces := [strip holeEdgeC holeEdgeT, strip holeEdgeG holeEdgeC, strip boxEdgeG boxEdgeT, face boxFaceEdge] }

end

end Chrumm.Part
