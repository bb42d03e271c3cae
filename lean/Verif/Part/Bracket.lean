import Verif.Part.Cable
import Verif.Part.Plan

/-! `bracket.py`: the brackets that hold both halves together. -/

namespace Chrumm.Part
open Geo

/-- The values of `cfg.bracket`, without `nutSide`. -/
structure BracketCfg where
  nutAcrossFlats : ℝ
  counterboreDiameter : ℝ
  counterboreLength : ℝ
  holeDiameter : ℝ
  holeLength : ℝ
  taperAngle : ℝ
  taperMargin : ℝ
  wallMargin : ℝ
  baseMargin : ℝ
  apexMargin : ℝ
  backCornerExtraMargin : ℝ
  frontFloorExtraMargin : ℝ
  cornerRadius : ℝ

/-- The values of `cfg.pcb.mount` that are used by the roof bracket. -/
structure MountBoss where
  bossHeight : ℝ
  bossDiameter : ℝ
  threadDiameter : ℝ
  nutDiameter : ℝ
  xDistToFirstPinky : ℝ
  yDistToFirstPinky : ℝ

/-- `CornerBracket`, bracket.py:29-33. -/
structure CornerBracket where
  wallEdge : List Vec
  roofEdge : List Vec
  splitEdge : List Vec
  splitHoles : List (List Vec)
  pieces : List Piece

/-- `RoofBracket`, bracket.py:206-209. -/
structure RoofBracket where
  roofEdge : List Vec
  splitEdge : List Vec
  splitHole : List Vec
  pieces : List Piece

/-- `FloorBracket`, bracket.py:371-374, with `lipEdge`. -/
structure FloorBracket where
  taperEdge : List Vec
  splitEdge : List Vec
  splitHole : List Vec
  lipEdge : List Vec
  pieces : List Piece

noncomputable section
open Classical

/-- Python's `%` for a positive divisor. -/
def pyMod (a b : ℝ) : ℝ := a - b * ⌊a / b⌋

/-- `math.asin`. -/
def pyAsin (x : ℝ) : Py ℝ := if x < -1 ∨ 1 < x then .error .valueError else .ok (Real.arcsin x)

/-- `_hexTangentDist`, bracket.py:476-482. -/
def hexTangentDist (outerRadius tangentAngle : ℝ) : ℝ :=
  outerRadius * Real.cos (pyMod |tangentAngle| (Real.pi / 3) - Real.pi / 6)

/-- `_archCorner`, bracket.py:485-487. -/
def archCorner (q : Quality) (radius : ℝ) (a b c : Vec) : Py (List Vec) := do
  let arc ← cornerArc2D q radius ⟨a.y, a.z, 0⟩ ⟨b.y, b.z, 0⟩ ⟨c.y, c.z, 0⟩
  pure (arc.map fun p => (⟨0, p.x, p.y⟩ : Vec))

/-- `nutRadius`. -/
def BracketCfg.nutRadius (cfg : BracketCfg) : ℝ := cfg.nutAcrossFlats / Real.sqrt 3

/-- A hole that is upright, or round. -/
def maybeUpright (q : Quality) (taper : Option ℝ) (radius : ℝ) : Bool → Py (List Vec)
  | true => uprightHole2D q taper radius
  | false => arc2D q radius 0 tau 0

/-- `boreXY`, bracket.py:511-522. -/
def boreSketch (q : Quality) (taper : Option ℝ) (cfg : BracketCfg) (isUpright : Bool) : Bool → Py (List Vec)
  | true =>
    let nutAcross := cfg.nutAcrossFlats
    let nutRadius := cfg.nutRadius
    pure [⟨-nutRadius / 2, nutAcross / 2, 0⟩, ⟨-nutRadius, 0, 0⟩, ⟨-nutRadius / 2, -nutAcross / 2, 0⟩,
      ⟨nutRadius / 2, -nutAcross / 2, 0⟩, ⟨nutRadius, 0, 0⟩, ⟨nutRadius / 2, nutAcross / 2, 0⟩]
  | false => maybeUpright q taper (cfg.counterboreDiameter / 2) isUpright

/-- `_screwHole`, bracket.py:490-531: the pieces, `holeL` and `boreR`. `isNut` is `side == cfg.bracket.nutSide`. -/
def screwHole (q : Quality) (taper : Option ℝ) (cfg : BracketCfg) (centerL : Vec) (isNut isUpright : Bool) :
    Py (List Piece × List Vec × List Vec) := do
  let holeXY ← maybeUpright q taper (cfg.holeDiameter / 2) isUpright
  let holeYZ := holeXY.map fun p => (⟨0, -p.x, p.y⟩ : Vec)
  let centerR := centerL + ⟨cfg.holeLength, 0, 0⟩
  let holeL := edgeTranslated holeYZ centerL
  let holeR := edgeTranslated holeYZ centerR
  let boreXY ← boreSketch q taper cfg isUpright isNut
  let boreL := boreXY.map fun p => (⟨0, -p.x, p.y⟩ + centerR : Vec)
  let boreR := edgeTranslated boreL ⟨cfg.counterboreLength, 0, 0⟩
  pure ([face boreL.reverse [holeR], strip boreL boreR true, strip holeL holeR true], holeL, boreR)

/-- The lines and points of the corner bracket that are used later, bracket.py:60-92. -/
structure CornerSketch where
  screwCenter : Vec
  roofLine : Line
  apexLine : Line
  taperLine : Line
  taperDir : Vec
  taperOrtho : Vec
  archLBG : Vec
  archLFT : Vec
  arcL : List Vec

/-- The sketch of the corner bracket, bracket.py:60-92, for points that have been mirrored if necessary. -/
def cornerSketch (q : Quality) (cfg : BracketCfg) (a b c : Vec) (extraMargin cableInset : ℝ) : Py CornerSketch := do
  let nutAcross := cfg.nutAcrossFlats
  let nutRadius := cfg.nutRadius
  let boreRadius := cfg.counterboreDiameter / 2
  let taperAngle := cfg.taperAngle
  let wallDir : Vec := ⟨0, 0, 1⟩
  let wallOrtho : Vec := ⟨0, 1, 0⟩
  let roofDir ← (b - a).normalized
  let roofOrtho : Vec := ⟨0, roofDir.z, -roofDir.y⟩
  let roofAngle := angle2D ⟨-roofDir.y, -roofDir.z, 0⟩
  let taperDir : Vec := ⟨0, -Real.sin taperAngle, Real.cos taperAngle⟩
  let taperOrtho : Vec := ⟨0, -taperDir.z, taperDir.y⟩
  let nutRoofDist := hexTangentDist nutRadius roofAngle
  let nutTaperDist := hexTangentDist nutRadius (taperAngle - Real.pi / 2)
  let roofOffset := max boreRadius nutRoofDist + cfg.baseMargin + extraMargin
  let wallOffset := max boreRadius nutRadius + cfg.wallMargin + extraMargin
  let apexOffset := max boreRadius (nutAcross / 2) + cfg.apexMargin
  let taperOffset := max boreRadius nutTaperDist + cfg.taperMargin + cableInset
  let wallOffsetLine ← Line.make (c - wallOrtho * wallOffset) wallDir
  let roofOffsetLine ← Line.make (a - roofOrtho * roofOffset) roofDir
  let screwCenter ← roofOffsetLine.intersect wallOffsetLine
  let wallLine ← Line.make c wallDir
  let roofLine ← Line.make a roofDir
  let apexLine ← Line.make (screwCenter - ⟨0, 0, apexOffset⟩) ⟨0, 1, 0⟩
  let taperLine ← Line.make (screwCenter + taperOrtho * taperOffset) taperDir
  let archLBG ← wallLine.intersect apexLine
  let archLFG ← taperLine.intersect apexLine
  let archLFT ← taperLine.intersect roofLine
  let arcL ← archCorner q cfg.cornerRadius archLBG archLFG archLFT
  pure { screwCenter, roofLine, apexLine, taperLine, taperDir, taperOrtho, archLBG, archLFT, arcL }

/-- `humpArchL`, `humpLFT` and `humpLFG`, bracket.py:111-148. -/
def zipHump (q : Quality) (cfg : BracketCfg) (cable : CableCfg) (s : CornerSketch) : Py (List Vec × Vec × Vec) := do
  let taperAngle := cfg.taperAngle
  let humpRadius := cable.minBendRadius
  let humpInset := humpRadius - cable.gripHumpHeight
  let humpCenterF ← s.taperLine.translated (s.taperOrtho * (cable.ziptieHeight + cfg.taperMargin - humpRadius))
  let humpCenterT ← s.apexLine.translated ⟨0, 0, humpInset⟩
  let humpCenter ← humpCenterF.intersect humpCenterT
  let bumpCenter := s.archLBG - ⟨0, 0, cable.diameter + humpRadius⟩
  let maxCableDiameter := (humpCenter - bumpCenter).magnitude - 2 * humpRadius
  if cable.diameter > maxCableDiameter then .error .valueError
  else do
    let ratio ← pyDiv humpInset humpRadius
    let minHumpTaper ← pyAsin ratio
    let humpSpan := Real.pi - taperAngle - max minHumpTaper taperAngle
    let humpArcXY ← arc2D q humpRadius taperAngle humpSpan 0
    let humpArc := humpArcXY.map fun p => (⟨0, -p.x, -p.y⟩ + humpCenter : Vec)
    let h0 ← pyIndex humpArc 0
    let h1 ← pyIndex humpArc (-1)
    let humpLineF ← Line.make h0 s.taperLine.dir
    let humpLineB ← Line.make h1 s.taperLine.dir.mirroredY
    let humpLineG ← Line.make (s.apexLine.pos - ⟨0, 0, cable.gripHumpHeight⟩) ⟨0, 1, 0⟩
    let humpLFT ← humpLineF.intersect s.roofLine
    let humpLBT ← humpLineB.intersect s.apexLine
    let humpLFG ← humpLineG.intersect humpLineF
    pure (collapsed ([humpLFT] ++ humpArc ++ [humpLBT]) (1 / 1000), humpLFT, humpLFG)

/-- `zipHoleL`, bracket.py:151-165. -/
def zipHole (q : Quality) (cfg : BracketCfg) (cable : CableCfg) (s : CornerSketch) (humpLFT humpLFG : Vec) :
    Py (List Vec) := do
  let zipArcCenterXY : Vec := ⟨0, cable.ziptieHeight / 2 - cable.ziptieWidth / 2, 0⟩
  let zipArcXY ← arc2D q (cable.ziptieHeight / 2) 0 (-Real.pi) zipArcCenterXY
  let half := edgeTransformed zipArcXY ((1 : Mat).rotatedZ cfg.taperAngle)
  let zipHoleXY := half ++ (half.map Vec.mirroredX).map Vec.mirroredY
  let zipCenter := humpLFT * (4 / 10 : ℝ) + humpLFG * (6 / 10 : ℝ) - s.taperOrtho * (cable.ziptieHeight / 2 + cfg.taperMargin)
  let zipHoleL := zipHoleXY.map fun p => (⟨0, p.x, p.y⟩ + zipCenter : Vec)
  let z0 ← pyIndex zipHoleL 0
  let a1 ← pyIndex s.arcL (-1)
  pure (if z0.z ≤ a1.z then edgeTranslated zipHoleL (s.taperDir * (z0 - a1).magnitude) else zipHoleL)

/-- bracket.py:109-181: the pieces of the ziptie, the new `archR`, `archL`, `splitEdge` and `roofEdge`, and the hole. -/
def cornerZip (q : Quality) (cfg : BracketCfg) (cable : CableCfg) (s : CornerSketch) (archL archR : List Vec) (aR : Vec) :
    Py (List Piece × List Vec × List Vec × List Vec × List Vec × List Vec) := do
  let (humpArchL, humpLFT, humpLFG) ← zipHump q cfg cable s
  let humpMove : Vec := ⟨cable.gripHumpWidth / 2, 0, 0⟩
  let humpRBT := s.archLFT + humpMove
  let humpArchR := edgeTranslated humpArchL humpMove
  let zipHoleL ← zipHole q cfg cable s humpLFT humpLFG
  let zipHoleR := edgeTranslated zipHoleL humpMove
  let arcR := edgeTranslated s.arcL humpMove
  let humpEdgeR := humpArchR ++ arcR ++ zipHoleR ++ [humpRBT]
  let l0 ← pyIndex archL 0
  let newR := l0 :: archR
  let hL0 ← pyIndex humpArchL 0
  let hL1 ← pyIndex humpArchL (-1)
  let hR0 ← pyIndex humpArchR 0
  let hR1 ← pyIndex humpArchR (-1)
  let z0 ← pyIndex zipHoleR 0
  let z1 ← pyIndex zipHoleR (-1)
  let newL := [hL1, hR1] ++ arcR ++ [z0, z1, humpRBT]
  let r1 ← pyIndex newR (-1)
  pure ([neat humpEdgeR, strip zipHoleL zipHoleR true, strip humpArchL humpArchR], newR, newL,
    (humpArchL ++ [l0]).reverse, [aR, r1, humpRBT, hR0, hL0], zipHoleL.reverse)

/-- The ziptie, if there is one, and the last strip, bracket.py:109-183. -/
def cornerFinish (q : Quality) (cfg : BracketCfg) (s : CornerSketch) (archL archR : List Vec) (aR : Vec)
    (b : CornerBracket) : Option CableCfg → Py CornerBracket
  | none => pure { b with pieces := b.pieces ++ [strip archR archL] }
  | some cable => do
    let (zip, newR, newL, splitEdge, roofEdge, hole) ← cornerZip q cfg cable s archL archR aR
    pure { b with
      pieces := b.pieces ++ zip ++ [strip newR newL], splitEdge, roofEdge, splitHoles := b.splitHoles ++ [hole] }

/-- The corner bracket from back to front, bracket.py:60-183. -/
def cornerForward (q : Quality) (taper : Option ℝ) (cfg : BracketCfg) (zip : Option CableCfg) (a b c : Vec)
    (extraMargin cableInset : ℝ) (isNut : Bool) : Py CornerBracket := do
  let s ← cornerSketch q cfg a b c extraMargin cableInset
  let archL := [s.archLBG] ++ s.arcL ++ [s.archLFT]
  let moveR : Vec := ⟨cfg.holeLength + cfg.counterboreLength, 0, 0⟩
  let archR := edgeTranslated archL moveR
  let l0 ← pyIndex archL 0
  let l1 ← pyIndex archL (-1)
  let r0 ← pyIndex archR 0
  let r1 ← pyIndex archR (-1)
  let (holePieces, holeL, holeR) ← screwHole q taper cfg s.screwCenter isNut false
  let edgeR := archR ++ [a + moveR, c + moveR]
  cornerFinish q cfg s archL archR (a + moveR)
    { wallEdge := [l0, r0, c + moveR]
      roofEdge := [a + moveR, r1, l1]
      splitEdge := archL
      splitHoles := [holeL.reverse]
      pieces := holePieces ++ [neat edgeR [holeR] true] } zip

/-- bracket.py:185-190. -/
def CornerBracket.mirrored (b : CornerBracket) : CornerBracket :=
  { wallEdge := b.wallEdge.map Vec.mirroredY
    roofEdge := b.roofEdge.map Vec.mirroredY
    splitEdge := (b.splitEdge.map Vec.mirroredY).reverse
    splitHoles := b.splitHoles.map fun h => (h.map Vec.mirroredY).reverse
    pieces := b.pieces.map Piece.mirroredY }

/-- `CornerBracket.__init__`, bracket.py:19-190. -/
def CornerBracket.make (q : Quality) (taper : Option ℝ) (cfg : BracketCfg) (cable : Option CableCfg) (a b c : Vec)
    (isNut : Bool) : Py CornerBracket :=
  let a := a.yz
  let b := b.yz
  let c := c.yz
  if a.y < b.y then do
    let bracket ← cornerForward q taper cfg none a.mirroredY b.mirroredY c.mirroredY 0 0 isNut
    pure bracket.mirrored
  else cornerForward q taper cfg cable a b c cfg.backCornerExtraMargin ((cable.map CableCfg.bracketInset).getD 0) isNut

/-- The sketch of the roof bracket, bracket.py:223-244: `archLF`, `archLB`, `lineT.pos` and `lineG.pos`. -/
def roofSketch (q : Quality) (cfg : BracketCfg) : Py (List Vec × List Vec × Vec × Vec) := do
  let nutAcross := cfg.nutAcrossFlats
  let nutRadius := cfg.nutRadius
  let boreRadius := cfg.counterboreDiameter / 2
  let taperAngle := cfg.taperAngle
  let taperDir : Vec := ⟨0, Real.sin taperAngle, Real.cos taperAngle⟩
  let taperOrtho : Vec := ⟨0, taperDir.z, -taperDir.y⟩
  let nutTaperDist := hexTangentDist nutRadius (taperAngle - Real.pi / 2)
  let roofOffset := max boreRadius (nutAcross / 2) + cfg.baseMargin
  let apexOffset := max boreRadius (nutAcross / 2) + cfg.apexMargin
  let taperOffset := max boreRadius nutTaperDist + cfg.taperMargin
  let lineB ← Line.make (taperOrtho * taperOffset) taperDir
  let lineF ← Line.make lineB.pos.mirroredY lineB.dir.mirroredY
  let lineG ← Line.make ⟨0, 0, -apexOffset⟩ ⟨0, 1, 0⟩
  let lineT ← Line.make ⟨0, 0, roofOffset⟩ ⟨0, 1, 0⟩
  let archLFT ← lineF.intersect lineT
  let archLFG ← lineF.intersect lineG
  let archLBG ← lineB.intersect lineG
  let archLBT ← lineB.intersect lineT
  let cornerF ← archCorner q cfg.cornerRadius archLFT archLFG archLBG
  let cornerB ← archCorner q cfg.cornerRadius archLFG archLBG archLBT
  pure (archLFT :: cornerF, cornerB ++ [archLBT], lineT.pos, lineG.pos)

/-- `_makeBoss`, bracket.py:314-351: the pieces, and `bossFG`, `bossFT`, `bossBG`, `bossBT`. -/
def mountBoss (q : Quality) (taper : Option ℝ) (mount : MountBoss) (splitAngle innerHeight : ℝ) (refMatrix : Mat) :
    Py (List Piece × Vec × Vec × Vec × Vec) := do
  let bossHeight := mount.bossHeight
  let bossRadius := mount.bossDiameter / 2
  let nutRadius := mount.nutDiameter / 2
  let up : Vec := ⟨0, 0, bossHeight⟩
  let holeG ← uprightHole2D q taper (mount.threadDiameter / 2)
  let holeT := edgeTranslated holeG up
  let arcG ← arc2D q bossRadius 0 Real.pi 0
  let arcT := edgeTranslated arcG up
  let armFG : Vec := ⟨bossRadius, -bossRadius, 0⟩
  let armBG : Vec := ⟨-bossRadius, -bossRadius, 0⟩
  let armFT : Vec := ⟨bossRadius, -nutRadius, bossHeight⟩
  let armBT : Vec := ⟨-bossRadius, -nutRadius, bossHeight⟩
  let rotMatrix := (1 : Mat).rotatedZ (-tau / 4 - splitAngle)
  let offset : Vec := ⟨-mount.xDistToFirstPinky, -mount.yDistToFirstPinky, -innerHeight⟩
  let place := fun (e : List Vec) => edgeTransformed (edgeTranslated (edgeTransformed e rotMatrix) offset) refMatrix
  let holeG := place holeG
  let holeT := place holeT
  let edgeG := place ([armFG] ++ arcG ++ [armBG])
  let edgeT := place ([armFT] ++ arcT ++ [armBT])
  let g0 ← pyIndex edgeG 0
  let t0 ← pyIndex edgeT 0
  let g1 ← pyIndex edgeG (-1)
  let t1 ← pyIndex edgeT (-1)
  pure ([strip holeT holeG true, strip edgeG edgeT, face edgeT [holeT.reverse], face edgeG.reverse [holeG]], g0, t0, g1, t1)

/-- What both kinds of roof brackets have in common, bracket.py:302-312. -/
def roofFinish (q : Quality) (taper : Option ℝ) (cfg : BracketCfg) (isNut : Bool) (roofAlign : Mat)
    (archL archR faceR roofEdge : List Vec) (pieces : List Piece) : Py RoofBracket := do
  let (holePieces, holeL, holeR) ← screwHole q taper cfg 0 isNut false
  let f := fun (v : Vec) => v.transformed roofAlign
  pure
    { roofEdge
      splitEdge := archL.reverse
      splitHole := (edgeTransformed holeL roofAlign).reverse
      pieces := pieces ++ holePieces.map (Piece.moved f) ++ [face faceR [edgeTransformed holeR roofAlign], strip archL archR] }

/-- The roof bracket with a mount, bracket.py:255-290. -/
def roofMounted (q : Quality) (taper : Option ℝ) (cfg : BracketCfg) (mount : MountBoss) (splitAngle innerHeight : ℝ)
    (a b : Vec) (refMatrix : Mat) (isNut : Bool) (roofAlign : Mat) (roofDir : Vec) (archLF archLB : List Vec)
    (posT posG : Vec) : Py RoofBracket := do
  let roofOrtho : Vec := ⟨0, -roofDir.z, roofDir.y⟩
  let moveR : Vec := ⟨cfg.counterboreLength + cfg.holeLength, 0, 0⟩
  let (bossPieces, bossFG, bossFT, bossBG, bossBT) ← mountBoss q taper mount splitAngle innerHeight refMatrix
  let bossDir ← (bossFT.yz - bossFG.yz).normalized
  let bossOrtho : Vec := ⟨0, -bossDir.z, bossDir.y⟩
  let roofLine ← Line.make a roofDir
  let apexLine ← Line.make (a + roofOrtho * (posT - posG).z) roofDir
  let armLineF ← Line.make bossFT.yz bossDir
  let armLineB ← Line.make bossBT.yz bossDir
  let armOffset := max (cfg.counterboreDiameter / 2) cfg.nutRadius + cfg.wallMargin
  let armOffsetLine ← Line.make (bossFT.yz + bossOrtho * armOffset) bossDir
  let roofPos ← roofLine.intersect armOffsetLine
  let roofAlign := roofAlign.translated roofPos
  let archLF := edgeTransformed archLF roofAlign
  let archLB := edgeTransformed archLB roofAlign
  let arm0 ← roofLine.intersect armLineB
  let arm1 ← apexLine.intersect armLineB
  let arm2 ← apexLine.intersect armLineF
  let arm3 ← roofLine.intersect armLineF
  let m0 := arm0 + moveR
  let m1 := arm1 + moveR
  let m2 := arm2 + moveR
  let m3 := arm3 + moveR
  let b0 ← pyIndex archLB 0
  let archLB := edgeTranslated archLB (m1.yz - b0)
  let archRF := edgeTranslated archLF moveR
  let archRB := edgeTranslated archLB moveR
  let archL := archLF ++ [m2.yz] ++ archLB
  let archR := archRF ++ [m2] ++ archRB
  let l0 ← pyIndex archL 0
  let l1 ← pyIndex archL (-1)
  let r0 ← pyIndex archR 0
  let r1 ← pyIndex archR (-1)
  roofFinish q taper cfg isNut roofAlign archL archR (archRF ++ [m2, m3]) [l0, r0, m3, m0, r1, l1]
    (bossPieces ++ [strip [bossBT, bossBG, bossFG, bossFT] [m0, m1, m2, m3] true, strip [m0, m1] archRB.reverse])

/-- The roof bracket without a mount, bracket.py:291-300. -/
def roofPlain (q : Quality) (taper : Option ℝ) (cfg : BracketCfg) (a ab : Vec) (isNut : Bool) (roofAlign : Mat)
    (roofDir : Vec) (archLF archLB : List Vec) : Py RoofBracket := do
  let moveR : Vec := ⟨cfg.counterboreLength + cfg.holeLength, 0, 0⟩
  let f0 ← pyIndex archLF 0
  let b1 ← pyIndex archLB (-1)
  let archD := (f0 - b1).magnitude
  let roofPos := a + roofDir * (85 / 100 * (ab.magnitude - archD) + archD / 2)
  let roofAlign := roofAlign.translated roofPos
  let archL := edgeTransformed (archLF ++ archLB) roofAlign
  let archR := edgeTranslated archL moveR
  let l0 ← pyIndex archL 0
  let l1 ← pyIndex archL (-1)
  let r0 ← pyIndex archR 0
  let r1 ← pyIndex archR (-1)
  roofFinish q taper cfg isNut roofAlign archL archR archR [l0, r0, r1, l1] []

/-- `RoofBracket.__init__`, bracket.py:196-312. -/
def RoofBracket.make (q : Quality) (taper : Option ℝ) (cfg : BracketCfg) (mount : Option MountBoss)
    (splitAngle innerHeight : ℝ) (a b : Vec) (refMatrix : Mat) (isNut : Bool) : Py RoofBracket := do
  let a := a.yz
  let b := b.yz
  let ab := b - a
  let (archLF, archLB, posT, posG) ← roofSketch q cfg
  let roofDir ← ab.normalized
  let roofAngle := angle2D ⟨-ab.y, -ab.z, 0⟩
  let roofAlign := ((1 : Mat).translated (-posT)).rotatedX roofAngle
  match mount with
  | some m => roofMounted q taper cfg m splitAngle innerHeight a b refMatrix isNut roofAlign roofDir archLF archLB posT posG
  | none => roofPlain q taper cfg a ab isNut roofAlign roofDir archLF archLB

/-- The sketch of the floor bracket, bracket.py:401-434: `archL` around the origin, and `centerZ`. -/
def floorSketch (q : Quality) (cfg : BracketCfg) (bracketG lipT : ℝ) : Py (List Vec × ℝ) := do
  let nutAcross := cfg.nutAcrossFlats
  let nutRadius := cfg.nutRadius
  let boreRadius := cfg.counterboreDiameter / 2
  let taperAngle := cfg.taperAngle
  let taperDir : Vec := ⟨0, Real.sin taperAngle, Real.cos taperAngle⟩
  let taperOrtho : Vec := ⟨0, -taperDir.z, taperDir.y⟩
  let nutTaperDist := hexTangentDist nutRadius (taperAngle - Real.pi / 2)
  let baseOffset := max boreRadius (nutAcross / 2) + cfg.baseMargin
  let apexOffset := max boreRadius (nutAcross / 2) + cfg.apexMargin
  let taperOffset := max boreRadius nutTaperDist + cfg.taperMargin
  let bracketT := bracketG + max (baseOffset + apexOffset) lipT
  let centerZ := bracketG + baseOffset
  let lineF ← Line.make (⟨0, 0, centerZ⟩ + taperOrtho * taperOffset) taperDir
  let lineB ← Line.make lineF.pos.mirroredY lineF.dir.mirroredY
  let lineG ← Line.make ⟨0, 0, bracketG⟩ ⟨0, 1, 0⟩
  let lineT ← Line.make ⟨0, 0, bracketT⟩ ⟨0, 1, 0⟩
  let lineLip ← Line.make ⟨0, 0, lipT⟩ ⟨0, 1, 0⟩
  let archLFG ← lineF.intersect lineLip
  let archLFT ← lineF.intersect lineT
  let archLBT ← lineB.intersect lineT
  let archLBG ← lineB.intersect lineG
  if bracketT ≤ lipT then .error .valueError
  else do
    let cornerF ← archCorner q (min cfg.cornerRadius (bracketT - lipT)) archLBT archLFT archLFG
    let cornerB ← archCorner q cfg.cornerRadius archLBG archLBT archLFT
    pure (collapsed ([archLBG] ++ cornerB ++ cornerF ++ [archLFG]) (1 / 1000), centerZ)

/-- `centerY`, bracket.py:436-442. -/
def floorCenterY (cfg : BracketCfg) (extraMargin : ℝ) (d e arch1 : Vec) : ℝ :=
  let wallOffset := max (cfg.counterboreDiameter / 2) cfg.nutRadius + cfg.wallMargin + extraMargin
  let centerY := e.y - arch1.y
  if centerY - d.y < wallOffset then max (d.y + wallOffset) (centerY + d.y - e.y) else centerY

/-- The floor bracket from front to back, bracket.py:401-466. -/
def floorForward (q : Quality) (taper : Option ℝ) (cfg : BracketCfg) (a c d e : Vec) (extraMargin : ℝ) (isNut : Bool) :
    Py FloorBracket := do
  let (arch, centerZ) ← floorSketch q cfg a.z d.z
  let arch1 ← pyIndex arch (-1)
  let screwCenter : Vec := ⟨0, floorCenterY cfg extraMargin d e arch1, centerZ⟩
  let moveR : Vec := ⟨cfg.counterboreLength + cfg.holeLength, 0, 0⟩
  let archL := edgeTranslated arch screwCenter.xy
  let archR := edgeTranslated archL moveR
  let faceEdge := edgeTranslated (archL ++ [d, c, a]) moveR
  let (holePieces, holeL, holeR) ← screwHole q taper cfg screwCenter isNut true
  let l1 ← pyIndex archL (-1)
  let finalL := if l1.isClose e then archL else archL ++ [e]
  let finalR := if l1.isClose e then archR else archR ++ [d + moveR, e + moveR]
  let l0 ← pyIndex finalL 0
  let r0 ← pyIndex finalR 0
  pure
    { splitEdge := finalL.reverse
      splitHole := holeL.reverse
      taperEdge := [l0, r0]
      lipEdge := edgeTranslated [e, d, c, a] moveR
      pieces := [strip finalL finalR, neat faceEdge [holeR]] ++ holePieces }

/-- bracket.py:468-473. -/
def FloorBracket.mirrored (b : FloorBracket) : FloorBracket :=
  { lipEdge := b.lipEdge.map Vec.mirroredY
    taperEdge := (b.taperEdge.map Vec.mirroredY).reverse
    splitEdge := (b.splitEdge.map Vec.mirroredY).reverse
    splitHole := (b.splitHole.map Vec.mirroredY).reverse
    pieces := b.pieces.map Piece.mirroredY }

/-- `FloorBracket.__init__`, bracket.py:357-473. -/
def FloorBracket.make (q : Quality) (taper : Option ℝ) (cfg : BracketCfg) (a b c d e : Vec) (isNut : Bool) :
    Py FloorBracket :=
  let a := a.yz
  let b := b.yz
  let c := c.yz
  let d := d.yz
  let e := e.yz
  if a.y > b.y then do
    let bracket ← floorForward q taper cfg a.mirroredY c.mirroredY d.mirroredY e.mirroredY 0 isNut
    pure bracket.mirrored
  else floorForward q taper cfg a c d e cfg.frontFloorExtraMargin isNut

end

end Chrumm.Part
