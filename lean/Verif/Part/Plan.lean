import Verif.Part.Wall
import Verif.Geo.Move

/-! `plan.py`: the arrangement of keys, walls, and reference points. -/

namespace Chrumm.Part
open Geo

noncomputable section
open Classical

/-- The values of `cfg.body` that are used in the plan (angles in radians). -/
structure BodyCfg where
  splitAngle : ℝ
  tiltAngle : ℝ
  alnumTentAngle : ℝ
  thumbTentAngle : ℝ
  pinkyTentAngle : ℝ
  alnumBackAngle : ℝ
  alnumFrontAngle : ℝ
  thumbFrontAngle : ℝ
  minRoofHeight : ℝ
  minRidgeWidth : ℝ
  relRidgeTaper : ℝ
  wallThickness : ℝ
  roofThickness : ℝ
  alnumFrontThickness : ℝ
  innerChamfer : ℝ

/-- The values of `cfg.floor` that are used in the plan. -/
structure FloorFit where
  lipHeight : ℝ
  outerHeight : ℝ
  innerHeight : ℝ

/-- The values of `cfg` that are used in the plan, without `cfg.palm`. -/
structure PlanCfg where
  layout : LayoutCfg
  switch : SwitchCfg
  body : BodyCfg
  boss : BossFit
  floor : FloorFit

/-- The planes of plan.py:85-118, in the order of their creation. -/
structure TentPlanes where
  alnumIT : Plane
  alnumOT : Plane
  pivotIB : Plane
  pivotOB : Plane
  thumbIT : Plane
  thumbOT : Plane
  pivotIF : Plane
  pivotOF : Plane
  pinkyIT : Plane
  pinkyOT : Plane

/-- The planes of plan.py:125-131, 148-150. -/
structure SidePlanes where
  alnumIL : Plane
  alnumOL : Plane
  alnumIF : Plane
  alnumOF : Plane
  pinkyIR : Plane
  pinkyOR : Plane

/-- The planes of plan.py:199-202. -/
structure WallPlanes where
  alnumIB : Plane
  alnumOB : Plane
  pinkyIF : Plane
  pinkyOF : Plane

/-- `setattr(planes, attr, f(getattr(planes, attr)))` for all attributes, plan.py:158-159, 215-216, 298-300. -/
def TentPlanes.mapM (f : Plane → Py Plane) (p : TentPlanes) : Py TentPlanes := do
  let alnumIT ← f p.alnumIT
  let alnumOT ← f p.alnumOT
  let pivotIB ← f p.pivotIB
  let pivotOB ← f p.pivotOB
  let thumbIT ← f p.thumbIT
  let thumbOT ← f p.thumbOT
  let pivotIF ← f p.pivotIF
  let pivotOF ← f p.pivotOF
  let pinkyIT ← f p.pinkyIT
  let pinkyOT ← f p.pinkyOT
  pure ⟨alnumIT, alnumOT, pivotIB, pivotOB, thumbIT, thumbOT, pivotIF, pivotOF, pinkyIT, pinkyOT⟩

/-- As above. -/
def SidePlanes.mapM (f : Plane → Py Plane) (p : SidePlanes) : Py SidePlanes := do
  let alnumIL ← f p.alnumIL
  let alnumOL ← f p.alnumOL
  let alnumIF ← f p.alnumIF
  let alnumOF ← f p.alnumOF
  let pinkyIR ← f p.pinkyIR
  let pinkyOR ← f p.pinkyOR
  pure ⟨alnumIL, alnumOL, alnumIF, alnumOF, pinkyIR, pinkyOR⟩

/-- As above. -/
def WallPlanes.mapM (f : Plane → Py Plane) (p : WallPlanes) : Py WallPlanes := do
  let alnumIB ← f p.alnumIB
  let alnumOB ← f p.alnumOB
  let pinkyIF ← f p.pinkyIF
  let pinkyOF ← f p.pinkyOF
  pure ⟨alnumIB, alnumOB, pinkyIF, pinkyOF⟩

/-- The tent pivot, plan.py:74-83: the layout with moved keys, and `pivotPos`. -/
def tentPivot (cfg : PlanCfg) (l : Layout) : Py (Layout × Vec) := do
  let creaseOffset ← tentCreaseOffset cfg.layout cfg.body.alnumTentAngle cfg.body.pinkyTentAngle
  let _ ← l.alnum
  let l := (l.mapGroup 0 (·.translate creaseOffset)).mapThumb (·.translate creaseOffset)
  let alnumMax ← l.maxAlnum
  let pinkyMin ← l.minPinky
  let pivotPos ← (alnumMax.position + pinkyMin.position).div 2
  pure (l, pivotPos)

/-- A roof plane, plan.py:91-92, 105-106, 117-118. -/
def tentPlane (z : ℝ) (m : Mat) : Py Plane := do
  let p ← Plane.fromZ z
  p.transformed m

/-- A plane through the pivot, plan.py:93-94, 107-108. -/
def pivotPlane (x : ℝ) (m : Mat) : Py Plane := do
  let p ← Plane.fromX x
  p.transformed m

/-- Tenting, plan.py:85-121. -/
def tent (body : BodyCfg) (pivotPos : Vec) (l : Layout) : Py (Layout × TentPlanes) := do
  let alnumPivotAngle := body.pinkyTentAngle + (body.alnumTentAngle - body.pinkyTentAngle) / 2
  let alnumPivotMatrix := (1 : Mat).rotatedY alnumPivotAngle (some pivotPos)
  let alnumTentMatrix := (1 : Mat).rotatedY body.alnumTentAngle (some pivotPos)
  let alnumIT ← tentPlane (-body.roofThickness) alnumTentMatrix
  let alnumOT ← tentPlane 0 alnumTentMatrix
  let pivotIB ← pivotPlane pivotPos.x alnumPivotMatrix
  let pivotOB ← pivotPlane pivotPos.x alnumPivotMatrix
  let l := l.mapGroup 0 (·.transform alnumTentMatrix)
  let thumbPivotAngle := body.pinkyTentAngle + (body.thumbTentAngle - body.pinkyTentAngle) / 2
  let thumbPivotMatrix := (1 : Mat).rotatedY thumbPivotAngle (some pivotPos)
  let thumbTentMatrix := (1 : Mat).rotatedY body.thumbTentAngle (some pivotPos)
  let thumbIT ← tentPlane (-body.roofThickness) thumbTentMatrix
  let thumbOT ← tentPlane 0 thumbTentMatrix
  let pivotIF ← pivotPlane pivotPos.x thumbPivotMatrix
  let pivotOF ← pivotPlane pivotPos.x thumbPivotMatrix
  let l := l.mapThumb (·.transform thumbTentMatrix)
  let pinkyTentMatrix := (1 : Mat).rotatedY body.pinkyTentAngle (some pivotPos)
  let pinkyIT ← tentPlane (-body.roofThickness) pinkyTentMatrix
  let pinkyOT ← tentPlane 0 pinkyTentMatrix
  let l := l.mapGroup 1 (·.transform pinkyTentMatrix)
  pure (l, ⟨alnumIT, alnumOT, pivotIB, pivotOB, thumbIT, thumbOT, pivotIF, pivotOF, pinkyIT, pinkyOT⟩)

/-- The thumb cluster is moved against the alnum wall, plan.py:133-144. -/
def moveThumb (lineO : Line) (l : Layout) : Py Layout := do
  let thumbBounds := l.thumb.flatMap Key.boundsO
  let alnumSlope ← pyDiv lineO.dir.y lineO.dir.x
  let alnumIntercept := lineO.pos.y - lineO.pos.x * alnumSlope
  let thumbIntercept ← pyMax (thumbBounds.map fun p => p.y - p.x * alnumSlope)
  let thumbDelta : Vec := ⟨0, alnumIntercept - thumbIntercept, 0⟩
  if thumbDelta.y < 0 then pure (l.mapThumb (·.translate thumbDelta)) else pure l

/-- Alnum walls, thumb cluster, pinky walls, plan.py:123-150. -/
def sideWalls (body : BodyCfg) (side : Side) (l : Layout) : Py (Layout × SidePlanes) := do
  let alnum ← l.alnum
  let alnumMinX ← pyMin ((alnum.flatMap Key.bounds).map Vec.x)
  let alnumIL ← Plane.fromX alnumMinX
  let alnumOL ← Plane.fromX alnumMinX
  let alnumLinesF ← wallLines2D alnum body.alnumFrontThickness body.alnumFrontAngle
  let alnumIF ← Plane.fromLine2D alnumLinesF.1
  let alnumOF ← Plane.fromLine2D alnumLinesF.2
  let l ← moveThumb alnumLinesF.2 l
  let pinky ← l.pinky (some side)
  let pinkyLinesR ← wallLines2D pinky body.wallThickness (2 * Real.pi / 4)
  let pinkyIR ← Plane.fromLine2D pinkyLinesR.1
  let pinkyOR ← Plane.fromLine2D pinkyLinesR.2
  pure (l, ⟨alnumIL, alnumOL, alnumIF, alnumOF, pinkyIR, pinkyOR⟩)

/-- Tilt and split, plan.py:154. -/
def tiltSplitMatrix (body : BodyCfg) : Mat := ((1 : Mat).rotatedX body.tiltAngle).rotatedZ body.splitAngle

/-- `_fitBoss2D` (plan.py:415-462) with its result, if the loop ends (`C55_terminates`). -/
def fitBoss (cfg : BossFit) (lines : Line × Line) (key0 key1 : Key) : Py (Vec × Line × Line) :=
  if h : ∃ r, ∃ fuel, fitBoss2D cfg lines key0 key1 fuel = some r then h.choose else .error .diverges

/-- The positions of the bosses, plan.py:191, 197. -/
structure BossPos where
  alnumB : Vec
  pinkyB : Vec
  pinkyF : Vec
  thumbF : Vec

/-- `fitBosses`, plan.py:171-191. `alnumLinesB` and `thumbLinesF` are changed. -/
def fitBosses (cfg : BossFit) (l : Layout) (tent : TentPlanes) (side : Side) (linesB linesF : Line × Line) :
    Py (BossPos × (Line × Line) × (Line × Line)) := do
  let pinkyKeysB ← l.perPinkyCol 0 (some side)
  let pinkyKeysF ← l.perPinkyCol (-1) (some side)
  let thumbKeysF := l.thumb (some side)
  let keysB ← l.perAlnumCol 0 (some side)
  let planeX ← Plane.fromX 0
  let planeB ← Plane.fromLine2D linesB.2
  let alnumKeysB ← alnumBossKeys keysB planeX tent.pivotOF planeB tent.alnumOT
  let alnumB0 ← pyIndex alnumKeysB 0
  let alnumB1 ← pyIndex alnumKeysB 1
  let (_, linesB) ← fitBoss cfg linesB alnumB0 alnumB1
  let pinkyB0 ← pyIndex pinkyKeysB (-1)
  let pinkyB1 ← pyIndex pinkyKeysB (-2)
  let (bossPinkyB, linesB) ← fitBoss cfg linesB pinkyB0 pinkyB1
  let (bossAlnumB, linesB) ← fitBoss cfg linesB alnumB0 alnumB1
  let thumbF0 ← pyIndex thumbKeysF 0
  let thumbF1 ← pyIndex thumbKeysF 1
  let (_, linesF) ← fitBoss cfg linesF thumbF0 thumbF1
  let pinkyF0 ← pyIndex pinkyKeysF (-1)
  let pinkyF1 ← pyIndex pinkyKeysF (-2)
  let (bossPinkyF, linesF) ← fitBoss cfg linesF pinkyF0 pinkyF1
  let (bossThumbF, linesF) ← fitBoss cfg linesF thumbF0 thumbF1
  pure (⟨bossAlnumB, bossPinkyB, bossPinkyF, bossThumbF⟩, linesB, linesF)

/-- The other side, plan.py:196. -/
def Side.other : Side → Side
  | .left => .right
  | .right => .left

/-- Vertical walls and bosses, plan.py:161-202. -/
def vertical (cfg : PlanCfg) (side : Side) (l : Layout) (tent : TentPlanes) :
    Py (BossPos × (Line × Line) × (Line × Line) × WallPlanes) := do
  let body := cfg.body
  let all ← l.all
  let linesB ← wallLines2D all body.wallThickness (body.alnumBackAngle + body.splitAngle + Real.pi)
  let linesF ← wallLines2D all body.wallThickness (body.thumbFrontAngle + body.splitAngle)
  let (_, linesB, linesF) ← fitBosses cfg.boss l tent side.other linesB linesF
  let (bosses, linesB, linesF) ← fitBosses cfg.boss l tent side linesB linesF
  let alnumIB ← Plane.fromLine2D linesB.1
  let alnumOB ← Plane.fromLine2D linesB.2
  let pinkyIF ← Plane.fromLine2D linesF.1
  let pinkyOF ← Plane.fromLine2D linesF.2
  pure (bosses, linesB, linesF, ⟨alnumIB, alnumOB, pinkyIF, pinkyOF⟩)

/-- The shift in x, plan.py:204-211. -/
def finalDeltaX (body : BodyCfg) (l : Layout) (tent : TentPlanes) (sides : SidePlanes) (walls : WallPlanes) : Py Vec := do
  let alnumILB ← sides.alnumIL.intersectPlanes walls.alnumIB tent.alnumIT
  let alnumOLB ← sides.alnumOL.intersectPlanes walls.alnumOB tent.alnumOT
  let all ← l.all
  let minX ← pyMin ((all.flatMap Key.bounds).map Vec.x)
  let boundsDeltaX := -minX
  let splitDeltaX := -(min alnumOLB.x alnumILB.x) + body.minRidgeWidth / 2
  pure ⟨max boundsDeltaX splitDeltaX, 0, 0⟩

/-- Translates both lines, plan.py:218-219. -/
def translateLines (lines : Line × Line) (delta : Vec) : Py (Line × Line) := do
  let a ← lines.1.translated delta
  let b ← lines.2.translated delta
  pure (a, b)

/-- The thumb's left front corner, plan.py:225-237: the line, and the plane. -/
def thumbCorner (l : Layout) (lineF : Line) : Py (Line × Plane) := do
  let thumbBounds := l.thumb.flatMap Key.bounds
  let keyL ← pyIndex (l.thumb (some .left)) 0
  let thumbDirL ← (⟨0, 1, 0⟩ : Vec).transformedNormal keyL.matrix
  let keyR ← pyIndex (l.thumb (some .right)) 0
  let thumbDirR ← (⟨0, 1, 0⟩ : Vec).transformedNormal keyR.matrix
  let thumbLine ← Line.make 0 (thumbDirL.xy + thumbDirR.xy)
  let distances ← thumbBounds.mapM thumbLine.distance2D
  let thumbOffset ← pyMin distances
  let thumbLine ← thumbLine.translated (thumbLine.dir.ortho2D * (-thumbOffset))
  let thumbPlanePos ← lineF.intersect thumbLine
  let thumbPlaneNorm := lineF.dir + ⟨1, 0, 0⟩
  let plane ← Plane.make thumbPlanePos thumbPlaneNorm
  pure (thumbLine, plane)

/-- The loop of plan.py:253-255. -/
def sweep : List Vec → Line → Py Line
  | [], line => pure line
  | p :: rest, line => do
    let d ← line.distance2D p
    if d > 0 then do
      let line ← Line.make line.pos (p.xy - line.pos)
      sweep rest line
    else sweep rest line

/-- The ridge's front slope, plan.py:239-267: `ridgeIRF` and `ridgeORF`. -/
def ridge (body : BodyCfg) (l : Layout) (tent : TentPlanes) (sides : SidePlanes) (walls : WallPlanes) (thumbL : Plane)
    (thumbLine : Line) : Py (Vec × Vec) := do
  let thumbBounds := l.thumb.flatMap Key.bounds
  let thumbLB0 ← sides.alnumOL.intersectPlanes sides.alnumOF tent.thumbOT
  let thumbLF0 ← thumbL.intersectPlanes walls.pinkyIF tent.thumbIT
  let thumbLB := thumbLB0.xy
  let thumbLF := thumbLF0.xy
  let thumbOLB ← sides.alnumOL.intersectPlanes sides.alnumOF tent.thumbOT
  let thumbILB ← sides.alnumIL.intersectPlanes sides.alnumIF tent.thumbIT
  let slopeLB : Vec := ⟨0, thumbLB.y, 0⟩
  let slopeRF : Vec := ⟨thumbLB.x, thumbLF.y, 0⟩
  let slopeMid := slopeRF + (slopeLB - slopeRF) * body.relRidgeTaper
  let sweepLine ← Line.make thumbLB (slopeMid - thumbLB)
  let sweepLine ← sweep thumbBounds sweepLine
  let sweepIntersect ← sweepLine.intersect thumbLine
  let ridgeRF ← tent.thumbOT.projectZ (if Vec.lt slopeMid sweepIntersect then slopeMid else sweepIntersect)
  let ridgeIRF := ridgeRF + (thumbILB - thumbOLB)
  if ridgeRF.x < 0 ∨ ridgeIRF.x < 0 then .error .valueError else pure (ridgeIRF, ridgeRF)

/-- The points of plan.py:260-261, 271-289. -/
structure Points where
  ridgeIRF : Vec
  ridgeORF : Vec
  alnumILF : Vec
  alnumILB : Vec
  alnumIRF : Vec
  alnumIRB : Vec
  pinkyIRF : Vec
  pinkyIRB : Vec
  thumbILF : Vec
  thumbILB : Vec
  thumbIRF : Vec
  alnumOLF : Vec
  alnumOLB : Vec
  alnumORF : Vec
  alnumORB : Vec
  pinkyORF : Vec
  pinkyORB : Vec
  thumbOLF : Vec
  thumbOLB : Vec
  thumbORF : Vec

/-- `points.__dict__.values()`, plan.py:304. -/
def Points.toList (p : Points) : List Vec :=
  [p.ridgeIRF, p.ridgeORF, p.alnumILF, p.alnumILB, p.alnumIRF, p.alnumIRB, p.pinkyIRF, p.pinkyIRB, p.thumbILF, p.thumbILB,
   p.thumbIRF, p.alnumOLF, p.alnumOLB, p.alnumORF, p.alnumORB, p.pinkyORF, p.pinkyORB, p.thumbOLF, p.thumbOLB, p.thumbORF]

/-- All points are changed, plan.py:298-300. -/
def Points.map (f : Vec → Vec) (p : Points) : Points :=
  ⟨f p.ridgeIRF, f p.ridgeORF, f p.alnumILF, f p.alnumILB, f p.alnumIRF, f p.alnumIRB, f p.pinkyIRF, f p.pinkyIRB,
   f p.thumbILF, f p.thumbILB, f p.thumbIRF, f p.alnumOLF, f p.alnumOLB, f p.alnumORF, f p.alnumORB, f p.pinkyORF,
   f p.pinkyORB, f p.thumbOLF, f p.thumbOLB, f p.thumbORF⟩

/-- The body's reference points, plan.py:269-289. -/
def referencePoints (ridge : Vec × Vec) (tent : TentPlanes) (sides : SidePlanes) (walls : WallPlanes) (thumbL : Plane) :
    Py Points := do
  let alnumILF ← sides.alnumIL.intersectPlanes sides.alnumIF tent.alnumIT
  let alnumILB ← sides.alnumIL.intersectPlanes walls.alnumIB tent.alnumIT
  let alnumIRF ← tent.thumbIT.intersectPlanes sides.alnumIF tent.alnumIT
  let alnumIRB ← tent.pivotIB.intersectPlanes walls.alnumIB tent.alnumIT
  let pinkyIRF ← sides.pinkyIR.intersectPlanes walls.pinkyIF tent.pinkyIT
  let pinkyIRB ← sides.pinkyIR.intersectPlanes walls.alnumIB tent.pinkyIT
  let thumbILF ← thumbL.intersectPlanes walls.pinkyIF tent.thumbIT
  let thumbILB ← sides.alnumIL.intersectPlanes sides.alnumIF tent.thumbIT
  let thumbIRF ← tent.pivotIF.intersectPlanes walls.pinkyIF tent.thumbIT
  let alnumOLF ← sides.alnumOL.intersectPlanes sides.alnumOF tent.alnumOT
  let alnumOLB ← sides.alnumOL.intersectPlanes walls.alnumOB tent.alnumOT
  let alnumORF ← tent.thumbOT.intersectPlanes sides.alnumOF tent.alnumOT
  let alnumORB ← tent.pivotOB.intersectPlanes walls.alnumOB tent.alnumOT
  let pinkyORF ← sides.pinkyOR.intersectPlanes walls.pinkyOF tent.pinkyOT
  let pinkyORB ← sides.pinkyOR.intersectPlanes walls.alnumOB tent.pinkyOT
  let thumbOLF ← thumbL.intersectPlanes walls.pinkyOF tent.thumbOT
  let thumbOLB ← sides.alnumOL.intersectPlanes sides.alnumOF tent.thumbOT
  let thumbORF ← tent.pivotOF.intersectPlanes walls.pinkyOF tent.thumbOT
  pure { ridgeIRF := ridge.1, ridgeORF := ridge.2, alnumILF := alnumILF, alnumILB := alnumILB, alnumIRF := alnumIRF, alnumIRB := alnumIRB, pinkyIRF := pinkyIRF,
         pinkyIRB := pinkyIRB, thumbILF := thumbILF, thumbILB := thumbILB, thumbIRF := thumbIRF, alnumOLF := alnumOLF,
         alnumOLB := alnumOLB, alnumORF := alnumORF, alnumORB := alnumORB, pinkyORF := pinkyORF, pinkyORB := pinkyORB,
         thumbOLF := thumbOLF, thumbOLB := thumbOLB, thumbORF := thumbORF }

/-- A plan, plan.py:45-50. `thumbL` is both `thumbIL` and `thumbOL`. `bossPos`, `linesB`, `linesF` are the arguments of the bosses. -/
structure Plan where
  side : Side
  layout : Layout
  tent : TentPlanes
  sides : SidePlanes
  walls : WallPlanes
  thumbL : Plane
  points : Points
  bossPos : BossPos
  linesB : Line × Line
  linesF : Line × Line

/-- The shift in z and the checks, plan.py:291-314. -/
def finalZ (cfg : PlanCfg) (p : Plan) : Py Plan := do
  let all ← p.layout.all
  let minKeyZ ← pyMin (all.map fun k => k.position.z)
  let delta : Vec := ⟨0, 0, cfg.body.minRoofHeight - minKeyZ⟩
  let tent ← p.tent.mapM (·.translated delta)
  let sides ← p.sides.mapM (·.translated delta)
  let walls ← p.walls.mapM (·.translated delta)
  let thumbL ← p.thumbL.translated delta
  let points := p.points.map (· + delta)
  let layout := p.layout.mapAll (·.translate delta)
  let minBodyZ ← pyMin (points.toList.map Vec.z)
  let allSide ← layout.all (some p.side)
  let minPinZ ← pyMin ((allSide.flatMap Key.boundsI).map Vec.z)
  let lipGap := minBodyZ - cfg.floor.lipHeight - cfg.body.innerChamfer
  let pinGap := minPinZ + cfg.floor.outerHeight - cfg.floor.innerHeight - cfg.switch.floorMargin
  if lipGap < 0 then .error .valueError
  else if pinGap < 0 then .error .valueError
  else pure { p with layout := layout, tent := tent, sides := sides, walls := walls, thumbL := thumbL, points := points }

/-- The keys and planes until the walls are known, plan.py:45-159. -/
def arrange (cfg : PlanCfg) (side : Side) : Py (Layout × TentPlanes × SidePlanes) := do
  let l ← Layout.make cfg.layout cfg.switch cfg.body.roofThickness
  if cfg.body.thumbTentAngle ≥ cfg.body.alnumTentAngle then .error .valueError
  else do
    let (l, pivotPos) ← tentPivot cfg l
    let (l, tentP) ← tent cfg.body pivotPos l
    let (l, sides) ← sideWalls cfg.body side l
    let m := tiltSplitMatrix cfg.body
    let l := l.mapAll (·.transform m)
    let tentP ← tentP.mapM (·.transformed m)
    let sides ← sides.mapM (·.transformed m)
    pure (l, tentP, sides)

/-- `Plan.__init__`, plan.py:45-317: everything but the bosses (`boss.py`) and the palm hitch. -/
def Plan.make (cfg : PlanCfg) (side : Side) : Py Plan := do
  let (l, tent, sides) ← arrange cfg side
  let (bosses, linesB, linesF, walls) ← vertical cfg side l tent
  let delta ← finalDeltaX cfg.body l tent sides walls
  let l := l.mapAll (·.translate delta)
  let tent ← tent.mapM (·.translated delta)
  let sides ← sides.mapM (·.translated delta)
  let walls ← walls.mapM (·.translated delta)
  let linesB ← translateLines linesB delta
  let linesF ← translateLines linesF delta
  let bosses : BossPos := ⟨bosses.alnumB + delta, bosses.pinkyB + delta, bosses.pinkyF + delta, bosses.thumbF + delta⟩
  let (thumbLine, thumbL) ← thumbCorner l linesF.1
  let r ← ridge cfg.body l tent sides walls thumbL thumbLine
  let points ← referencePoints r tent sides walls thumbL
  finalZ cfg ⟨side, l, tent, sides, walls, thumbL, points, bosses, linesB, linesF⟩

end

end Chrumm.Part
