import Verif.Part.Boss
import Verif.Part.Pieces

/-! `cable.py`: the cable hole. -/

namespace Chrumm.Part
open Geo

/-- The values of `cfg.cable`. -/
structure CableCfg where
  diameter : ℝ
  wallExitFillet : ℝ
  minBendRadius : ℝ
  wallBumpRadius : ℝ
  wallBumpTaperAngle : ℝ
  bracketInset : ℝ
  ziptieWidth : ℝ
  ziptieHeight : ℝ
  gripHumpWidth : ℝ
  gripHumpHeight : ℝ

/-- `Cable`, cable.py:19-23. `splitEdgeRaw` is `splitEdgeG` before it is collapsed. -/
structure Cable where
  pieces : List Piece
  wallEdgeF : List Vec
  wallEdgeB : List Vec
  splitEdgeG : List Vec
  splitEdgeT : List Vec
  splitEdgeRaw : List Vec

/-- Strips between consecutive edges, `edges[i+1].meshPairwise(edges[i])`. -/
def stripsUp : List (List Vec) → List Piece
  | a :: b :: rest => strip b a :: stripsUp (b :: rest)
  | _ => []

/-- Strips between consecutive edges, `edges[i].meshPairwise(edges[i+1])`. -/
def stripsDown : List (List Vec) → List Piece
  | a :: b :: rest => strip a b :: stripsDown (b :: rest)
  | _ => []

noncomputable section

/-- `bendArcXY` and `taperArcXY`, cable.py:66-76. -/
def cableBump (q : Quality) (cfg : CableCfg) : Py (List Vec × List Vec) := do
  let bendRadius := cfg.minBendRadius
  let bumpRadius := cfg.wallBumpRadius
  let taperAngle := cfg.wallBumpTaperAngle
  let diagonal ← (⟨1, 1, 0⟩ : Vec).normalized
  let tipCenterXY := diagonal * (bendRadius - bumpRadius)
  let bendArc ← arc2D q bendRadius (tau / 4) (-tau / 8) 0
  let tipArc ← arc2D q bumpRadius (tau / 8) (-tau / 8) tipCenterXY
  let bendArcXY := bendArc ++ tipArc.drop 1
  let taperFactor ← pyDiv (Real.sin taperAngle) (Real.cos taperAngle)
  let taperArc ← arc2D q bumpRadius 0 (-(tau / 4 - taperAngle)) tipCenterXY
  let t1 ← pyIndex taperArc (-1)
  let taperArcXY := taperArc ++ [⟨0, t1.y - t1.x * taperFactor, 0⟩]
  pure (bendArcXY, taperArcXY)

/-- `Cable.__init__`, cable.py:13-98. `bracketWidth` is `cfg.bracket.holeLength + cfg.bracket.counterboreLength`. -/
def Cable.make (q : Quality) (taper : Option ℝ) (cfg : CableCfg) (bracketWidth : ℝ) (pos : Vec) (wallThickness : ℝ) :
    Py Cable := do
  let cableRadius := cfg.diameter / 2
  let filletRadius := cfg.wallExitFillet
  let bumpWidth := bracketWidth * (6 / 10) + cableRadius * (4 / 10)
  let filletArcXY ← arc2D q filletRadius 0 (tau / 4) 0
  let filletArcYZ := filletArcXY.map fun p => (⟨0, p.y, p.x⟩ : Vec)
  let filletCenter : Vec := pos + ⟨0, wallThickness - filletRadius, -cableRadius⟩
  let holeArcXY ← uprightHalfHole2D q taper cableRadius
  let holeArcXZ := holeArcXY.map fun p => (⟨p.y, 0, p.x⟩ : Vec)
  let holeArc := edgeTranslated holeArcXZ (pos + ⟨0, 0, -cableRadius⟩)
  let holeEdgeT := holeArc.take (holeArc.length / 2 + 1)
  let holeEdgeG := (holeArc.drop (holeArc.length / 2)).reverse
  let filletArcs ← filletArcYZ.mapM fun p => do
    let ratio ← pyDiv (filletRadius - p.z) cableRadius
    let arcCenter : Vec := filletCenter + ⟨0, p.y, 0⟩
    pure (edgeTranslated (edgeScaled holeArcXZ (1 + ratio)) arcCenter)
  let holeArcs := holeArc :: filletArcs
  let (bendArcXY, taperArcXY) ← cableBump q cfg
  let bendArc0 := bendArcXY.map fun p => (⟨0, -p.x, p.y⟩ : Vec)
  let h1 ← pyIndex holeArc (-1)
  let b0 ← pyIndex bendArc0 0
  let bendArcYZ := edgeTranslated bendArc0 (h1 - b0)
  let taperArcYZ := taperArcXY.map fun p => (⟨0, -p.x, p.y⟩ : Vec)
  let c0 ← pyIndex bendArcYZ 0
  let grooveArcs0 := holeEdgeG.map fun p => edgeTranslated bendArcYZ (p - c0)
  let lastArc ← pyIndex grooveArcs0 (-1)
  let lastPoint ← pyIndex lastArc (-1)
  let grooveWidth := lastPoint.x - pos.x
  let arcR := edgeTranslated lastArc ⟨bumpWidth - grooveWidth, 0, 0⟩
  let grooveArcs := grooveArcs0 ++ [arcR]
  let firstArc ← pyIndex grooveArcs 0
  let firstEnd ← pyIndex firstArc (-1)
  let t0 ← pyIndex taperArcYZ 0
  let taperEdgeL := edgeTranslated taperArcYZ (firstEnd - t0)
  let taperEdgeR := edgeTranslated taperEdgeL ⟨bumpWidth, 0, 0⟩
  let bumpEdgeR := arcR ++ taperEdgeR
  let bendEdgeB ← grooveArcs.reverse.mapM fun arc => pyIndex arc (-1)
  let bump0 ← pyIndex bumpEdgeR 0
  let bump1 ← pyIndex bumpEdgeR (-1)
  let taper1 ← pyIndex taperEdgeL (-1)
  let splitEdgeT ← holeArcs.reverse.mapM fun arc => pyIndex arc 0
  let lasts ← holeArcs.mapM fun arc => pyIndex arc (-1)
  let lastHole ← pyIndex holeArcs (-1)
  let splitEdgeRaw := taperEdgeL.reverse ++ firstArc.reverse ++ lasts
  pure
    { pieces := stripsUp holeArcs ++ [strip taperEdgeL taperEdgeR, strip bendEdgeB (taperEdgeR.take 1),
        strip bumpEdgeR (bumpEdgeR.take 1)] ++ stripsDown grooveArcs
      wallEdgeF := holeEdgeT ++ [bump0, bump1, taper1]
      wallEdgeB := lastHole.reverse
      splitEdgeT
      splitEdgeG := collapsed splitEdgeRaw (1 / 1000)
      splitEdgeRaw }

end

end Chrumm.Part
