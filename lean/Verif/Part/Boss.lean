import Verif.Part.Bumper
import Verif.Geo.Move

/-! `boss.py`: screw bosses. -/

namespace Chrumm.Part
open Geo

/-- The values of `cfg.support`. The last three are optional (support.py:32-34). -/
structure SupportCfg where
  minOverhangAngle : ℝ
  holeTaperAngle : ℝ
  baseWidth : ℝ
  baseDepth : ℝ
  sideGap : ℝ
  baseGap : ℝ
  topGap : ℝ
  topDepth : ℝ
  relBasePosition : Option ℝ
  relBaseInset : Option ℝ
  relTopInset : Option ℝ

/-- The values of `cfg.boss`. -/
structure BossCfg where
  diameter : ℝ
  innerWallFillet : ℝ
  outerWallMargin : ℝ
  countersinkDiameter : ℝ
  clearanceHoleDiameter : ℝ
  clearanceHoleLength : ℝ
  threadDiameter : ℝ
  minThreadLength : ℝ
  maxThreadLength : ℝ
  threadRoofMargin : ℝ
  threadChamfer : ℝ

/-- `Boss`, boss.py:20-28. -/
structure Boss where
  pos : Vec
  wallEdge : List Vec
  headHole : List Vec
  threadHole : List Vec
  clearanceHole : List Vec
  headTriangles : List (Tri Vec)
  threadTriangles : List (Tri Vec)

noncomputable section

/-- `_smoothTransition`, boss.py:154-180, before the final `collapsed()`: the fillet and the boss arc. -/
def transitionArcs (q : Quality) (protrusion bossRadius bossFillet minTaperAngle : ℝ) : Py (List Vec × List Vec) := do
  let filletCenterY := bossRadius - protrusion + bossFillet
  let filletCenterX := Real.sqrt (max 0 ((bossRadius + bossFillet) ^ 2 - filletCenterY ^ 2))
  let filletCenter : Vec := ⟨filletCenterX, filletCenterY, 0⟩
  let tangentAngle := min (max (max 0 minTaperAngle) (angle2D filletCenter)) (89 * Real.pi / 180)
  let arcAngle := tau / 4 - tangentAngle
  let filletArc ← arc2D q bossFillet (-tau / 4) (-arcAngle) filletCenter
  let bossArc ← arc2D q bossRadius tangentAngle arcAngle 0
  let b0 ← pyIndex bossArc 0
  let f1 ← pyIndex filletArc (-1)
  let gapY := b0.y - f1.y
  let ratio ← pyDiv gapY (Real.cos tangentAngle)
  let gapX := ratio * Real.sin tangentAngle
  let offset : Vec := ⟨gapX - (f1.x - b0.x), 0, 0⟩
  pure (edgeTranslated filletArc offset, bossArc)

/-- `_smoothTransition`, boss.py:154-180. -/
def smoothTransition (q : Quality) (protrusion bossRadius bossFillet minTaperAngle : ℝ) : Py (List Vec) := do
  let (fillet, boss) ← transitionArcs q protrusion bossRadius bossFillet minTaperAngle
  pure (collapsed (fillet ++ boss) (1 / 1000))

/-- `taperAngleR` and `taperAngleL`, boss.py:45-53. -/
def taperAngles (support : Option SupportCfg) (wallDirection : Vec) : ℝ × ℝ :=
  match support with
  | some s =>
    if wallDirection.x < 0 then (s.minOverhangAngle - angle2D (-wallDirection), 0)
    else (0, s.minOverhangAngle + angle2D wallDirection)
  | none => (0, 0)

/-- `_initWall`, boss.py:34-68. -/
def bossWall (q : Quality) (wallThickness : ℝ) (cfg : BossCfg) (support : Option SupportCfg) (pos : Vec) :
    Option Vec → Py (List Vec)
  | none => pure []
  | some wallDirection =>
    let bossRadius := cfg.diameter / 2
    let protrusion := bossRadius * 2 + cfg.outerWallMargin - wallThickness
    if protrusion < wallThickness / 10 then pure []
    else do
      let (taperAngleR, taperAngleL) := taperAngles support wallDirection
      let right ← smoothTransition q protrusion bossRadius cfg.innerWallFillet taperAngleR
      let left ← smoothTransition q protrusion bossRadius cfg.innerWallFillet taperAngleL
      let edge := right ++ (left.map Vec.mirroredX).reverse
      let matrix := ((1 : Mat).rotatedZ (angle2D wallDirection)).translated pos
      pure (edgeTransformed (collapsed edge (1 / 1000)) matrix)

/-- Triangles between consecutive edges, `arcs[i].meshPairwise(arcs[i+1], True)`. -/
def meshDown (isClosed : Bool) : List (List Vec) → Py (List (Tri Vec))
  | a :: b :: rest => do
    let t ← meshPairwise a b isClosed
    let ts ← meshDown isClosed (b :: rest)
    pure (t ++ ts)
  | _ => pure []

/-- Triangles between consecutive edges, `arcs[i+1].meshPairwise(arcs[i], True)`. -/
def meshUp (isClosed : Bool) : List (List Vec) → Py (List (Tri Vec))
  | a :: b :: rest => do
    let t ← meshPairwise b a isClosed
    let ts ← meshUp isClosed (b :: rest)
    pure (t ++ ts)
  | _ => pure []

/-- `protoArc.scaled(scale).translated(arcPos)`, boss.py:99-101 and 144-146. -/
def profileRing (protoArc : List Vec) (pos : Vec) (scale z : ℝ) : List Vec :=
  edgeTranslated (edgeScaled protoArc scale) ⟨pos.x, pos.y, z⟩

/-- `_initHead`, boss.py:70-107. The result is (`clearanceHole`, `headHole`, `headTriangles`). -/
def bossHead (q : Quality) (outerHeight : ℝ) (cfg : BossCfg) (pos : Vec) :
    Py (List Vec × List Vec × List (Tri Vec)) := do
  let sinkRadius0 := cfg.countersinkDiameter / 2
  let clearRadius := cfg.clearanceHoleDiameter / 2
  let clearLength := cfg.clearanceHoleLength
  let sinkLength := min outerHeight (clearLength + (sinkRadius0 - clearRadius))
  let sinkRadius := min sinkRadius0 (clearRadius + (outerHeight - clearLength))
  let arc ← arc2D q clearRadius 0 tau 0
  let f ← pyDiv 1 clearRadius
  let protoArc := edgeScaled arc f
  let arc0 := profileRing protoArc pos clearRadius 0
  let arc1 := profileRing protoArc pos clearRadius (-clearLength)
  let arc2 := profileRing protoArc pos sinkRadius (-sinkLength)
  let arc3 := profileRing protoArc pos sinkRadius (-outerHeight)
  let triangles ← meshDown true [arc0, arc1, arc2, arc3]
  pure (arc0.reverse, arc3, triangles)

/-- `tipPlane`, boss.py:118-136. The log messages are left out. -/
def bossTip (cfg : BossCfg) (pos : Vec) : Option Plane → Py Plane
  | some roofPlane => do
    let marginPlane ← roofPlane.translated (roofPlane.normal * (-cfg.threadRoofMargin))
    let p ← marginPlane.projectZ pos
    let tipZ := min cfg.maxThreadLength p.z
    if tipZ < cfg.minThreadLength then .error .valueError
    else Plane.make ⟨pos.x, pos.y, tipZ⟩ roofPlane.normal
  | none => Plane.make ⟨pos.x, pos.y, cfg.maxThreadLength⟩ ⟨0, 0, 1⟩

/-- `_initThread`, boss.py:109-151. The result is (`threadHole`, `threadTriangles`). -/
def bossThread (q : Quality) (cfg : BossCfg) (support : Option SupportCfg) (pos printDirection : Vec)
    (roofPlane : Option Plane) : Py (List Vec × List (Tri Vec)) := do
  let radius := cfg.threadDiameter / 2
  let chamfer := cfg.threadChamfer
  let tipPlane ← bossTip cfg pos roofPlane
  let rotation := (1 : Mat).rotatedZ (angle2D printDirection - tau / 4)
  let hole ← uprightHole2D q (support.map SupportCfg.holeTaperAngle) radius
  let f ← pyDiv 1 radius
  let protoArc := edgeTransformed (edgeScaled hole f) rotation
  let arc0 := profileRing protoArc pos (radius + chamfer / 2) 0
  let arc1 := profileRing protoArc pos radius chamfer
  let arc2 ← arc1.mapM tipPlane.projectZ
  let triangles ← meshUp true [arc0, arc1, arc2, [tipPlane.pos]]
  pure (arc0, triangles)

/-- `Boss.__init__`, boss.py:20-32. -/
def Boss.make (q : Quality) (wallThickness outerHeight : ℝ) (cfg : BossCfg) (support : Option SupportCfg)
    (pos printDirection : Vec) (wallDirection : Option Vec) (roofPlane : Option Plane) : Py Boss := do
  let wallEdge ← bossWall q wallThickness cfg support pos wallDirection
  let (clearanceHole, headHole, headTriangles) ← bossHead q outerHeight cfg pos
  let (threadHole, threadTriangles) ← bossThread q cfg support pos printDirection roofPlane
  pure { pos, wallEdge, headHole, threadHole, clearanceHole, headTriangles, threadTriangles }

end

end Chrumm.Part
