import Verif.Part.FullPlan

/-! `palm.py`: the palm rest. -/

namespace Chrumm.Part
open Geo

noncomputable section
open Classical

/-- The end arcs of the roof profile, palm.py:297-306: the fillet, `roofAngle`, `endAngleB`, `endArcB` and `endArcF`. -/
def roofEnds (q : Quality) (cfg : PalmCfg) (inset : ℝ) : Py (ℝ × ℝ × ℝ × List Vec × List Vec) := do
  let roofFillet := max 0 (cfg.roofFillet - inset)
  let roofAngle := tau / 4 * max 0 (min cfg.relRoofRoundness 1)
  let endAngleB := tau / 4 - roofAngle / 2 + cfg.tiltAngle
  let endAngleF := tau / 4 - roofAngle / 2 - cfg.tiltAngle
  let endArcB ← arc2D q roofFillet 0 endAngleB 0
  let endArcF ← arc2D q roofFillet (Real.pi - endAngleF) endAngleF 0
  pure (roofFillet, roofAngle, endAngleB, endArcB, endArcF)

/-- `roofArc`, palm.py:310-320. -/
def roofArc (q : Quality) (cfg : PalmCfg) (roofAngle endAngleB roofWidth : ℝ) : Py (List Vec) := do
  let chordLength ← pyDiv roofWidth (Real.cos cfg.tiltAngle)
  if roofAngle > 0 then do
    let roofRadius ← pyDiv chordLength (2 * Real.sin (roofAngle / 2))
    let arc ← arc2D q (roofRadius * 2) endAngleB roofAngle 0
    pure (edgeScaled arc (1 / 2))
  else pure [0, ⟨-roofWidth, -(chordLength * Real.sin cfg.tiltAngle), 0⟩]

/-- `sketch`, palm.py:290-327. -/
def spineSketch (q : Quality) (cfg : PalmCfg) (inset : ℝ) : Py (List Vec) := do
  let palmDepth := cfg.depth - 2 * inset
  let (roofFillet, roofAngle, endAngleB, endArcB, endArcF) ← roofEnds q cfg inset
  let b0 ← pyIndex endArcB 0
  let b1 ← pyIndex endArcB (-1)
  let f0 ← pyIndex endArcF 0
  let f1 ← pyIndex endArcF (-1)
  let roofWidth := palmDepth - (b0.x - b1.x) - (f0.x - f1.x)
  let arc ← roofArc q cfg roofAngle endAngleB roofWidth
  let sketchOffset : Vec := ⟨cfg.bodyMargin + roofFillet + inset, roofFillet + inset, 0⟩
  let sketch := edgeTranslated endArcB (-sketchOffset)
  let s1 ← pyIndex sketch (-1)
  let a0 ← pyIndex arc 0
  let sketch := sketch ++ edgeTranslated (arc.drop 1) (s1 - a0)
  let s2 ← pyIndex sketch (-1)
  pure (sketch ++ edgeTranslated (endArcF.drop 1) (s2 - f0))

/-- `_roofSpine`, palm.py:289-334. -/
def roofSpine (q : Quality) (cfg : PalmCfg) (inset : ℝ) : Py (List Line) := do
  let sketch ← spineSketch q cfg inset
  let tentMatrix := (1 : Mat).rotatedY cfg.tentAngle
  sketch.mapM fun p => do
    let line ← Line.make ⟨0, p.x, p.y⟩ ⟨1, 0, 0⟩
    line.transformed tentMatrix

/-- `Edge(plane.intersect(l) for l in lines)`. -/
def edgeOnLines (plane : Plane) (lines : List Line) : Py (List Vec) := lines.mapM plane.intersectLine

/-- The lines of a fillet at the ground, palm.py:69-73 and 79-83. -/
def filletLines (q : Quality) (radius start : ℝ) (center : Vec) : Py (List Line) := do
  let arc ← arc2D q radius start (tau / 4) 0
  arc.mapM fun p => Line.make (⟨0, p.x, p.y⟩ + center) ⟨1, 0, 0⟩

/-- The outer shape, palm.py:40-85. `filletLinesB` is used later. -/
structure PalmShape where
  planeL : Plane
  planeR : Plane
  roofRaise : Vec
  palmBGy : ℝ
  palmFGy : ℝ
  roofL : List Vec
  roofR : List Vec
  filletLB : List Vec
  filletRB : List Vec
  filletLinesB : List Line

/-- palm.py:40-85. -/
def palmShape (q : Quality) (palm : PalmCfg) (floorHeight : ℝ) (thumbLF pinkyRF : Vec) : Py PalmShape := do
  let planeNormal : Vec := ⟨Real.cos palm.taperAngle, -Real.sin palm.taperAngle, 0⟩
  let planeOutset := (pinkyRF - thumbLF).magnitude / 2
  let planeL ← Plane.make ⟨-planeOutset, 0, 0⟩ planeNormal.mirroredX
  let planeR ← Plane.make ⟨planeOutset, 0, 0⟩ planeNormal
  let spine ← roofSpine q palm 0
  let roofL0 ← edgeOnLines planeL spine
  let roofR0 ← edgeOnLines planeR spine
  let first ← pyIndex roofL0 0
  let last ← pyIndex roofL0 (-1)
  let maxZ ← pyMax (roofL0.map Vec.z)
  let roofRaise : Vec := ⟨0, 0, palm.height - floorHeight - maxZ⟩
  let roofL1 := edgeTranslated roofL0 roofRaise
  let roofR1 := edgeTranslated roofR0 roofRaise
  let minRoofZ ← pyMin ((roofL1 ++ roofR1).map Vec.z)
  if palm.height ≤ palm.height - minRoofZ - floorHeight + palm.floorFillet then .error .valueError
  else do
    let filletZ := -floorHeight + palm.floorFillet
    let linesF ← filletLines q palm.floorFillet (tau / 2) ⟨0, last.y + palm.floorFillet, filletZ⟩
    let frontL ← edgeOnLines planeL linesF
    let frontR ← edgeOnLines planeR linesF
    let linesB ← filletLines q palm.floorFillet (tau * (3 / 4)) ⟨0, first.y - palm.floorFillet, filletZ⟩
    let filletLB ← edgeOnLines planeL linesB
    let filletRB ← edgeOnLines planeR linesB
    pure
      { planeL, planeR, roofRaise, palmBGy := first.y, palmFGy := last.y, roofL := roofL1 ++ frontL, roofR := roofR1 ++ frontR
        filletLB, filletRB, filletLinesB := linesB }

/-- The hitch notch, palm.py:87-133. -/
structure PalmNotch where
  filletRG : List Vec
  filletRT : List Vec
  filletLT : List Vec
  filletLG : List Vec
  edgeT : List Vec
  edgeG : List Vec
  backT : List Vec
  backG : List Vec

/-- `e.add(e.mirroredX().reversed())`, palm.py:121-122. -/
def withMirror (e : List Vec) : List Vec := e ++ (e.map Vec.mirroredX).reverse

/-- The corners of the notch, palm.py:89-108: `notchRFT`, `notchRFG`, `notchRBT`, `notchRBG` and `notchTaperOffset`. -/
def notchCorners (palm : PalmCfg) (floorHeight : ℝ) (s : PalmShape) : Py (Vec × Vec × Vec × Vec × Vec) := do
  let notchY := s.palmFGy + palm.floorContactWidth
  let notchBT ← Line.make ⟨0, -palm.bodyMargin, 0⟩ ⟨1, 0, 0⟩
  let notchBG ← Line.make ⟨0, -palm.bodyMargin, -floorHeight⟩ ⟨1, 0, 0⟩
  let notchFT ← Line.make ⟨0, notchY + floorHeight, 0⟩ ⟨1, 0, 0⟩
  let notchFG ← Line.make ⟨0, notchY, -floorHeight⟩ ⟨1, 0, 0⟩
  let floorOffset : Vec := ⟨0, 0, floorHeight⟩
  let taperOffset := floorOffset - s.planeR.normal * floorHeight
  let notchFloorOffset := floorOffset + s.planeR.normal * palm.floorContactWidth
  let notchRG ← Line.make (s.planeR.pos - notchFloorOffset) s.planeR.normal.ortho2D
  let notchRT ← notchRG.translated taperOffset
  let rft ← notchFT.intersect notchRT
  let rfg ← notchFG.intersect notchRG
  let rbt ← notchBT.intersect notchRT
  let rbg ← notchBG.intersect notchRG
  pure (rft, rfg, rbt, rbg, taperOffset)

/-- palm.py:87-139. -/
def palmNotch (q : Quality) (palm : PalmCfg) (floorHeight : ℝ) (s : PalmShape) (hitchLB hitchRB : Vec) : Py PalmNotch := do
  let (rft, rfg, rbt, rbg, taperOffset) ← notchCorners palm floorHeight s
  let taperNormal ← taperOffset.normalized
  let taperPlane ← Plane.make rbg (taperNormal - s.planeR.normal)
  let filletRG ← edgeOnLines taperPlane s.filletLinesB
  let filletRT := edgeTranslated filletRG (rbt - rbg)
  let filletLT := filletRT.map Vec.mirroredX
  let filletLG := filletRG.map Vec.mirroredX
  let cornerRT ← cornerArc2D q palm.hitchCornerRadius rbt rft rft.yz
  let ratio ← pyDiv floorHeight palm.hitchCornerRadius
  let cornerRG := edgeTranslated (edgeScaled (edgeTranslated cornerRT (-rft)) (1 + ratio)) rfg
  let rt0 ← pyIndex filletRT 0
  let rg0 ← pyIndex filletRG 0
  let lb1 ← pyIndex s.filletLB (-1)
  let l0 ← pyIndex s.roofL 0
  let r0 ← pyIndex s.roofR 0
  let rb1 ← pyIndex s.filletRB (-1)
  let lg1 ← pyIndex filletLG (-1)
  let lt1 ← pyIndex filletLT (-1)
  let rt1 ← pyIndex filletRT (-1)
  let rg1 ← pyIndex filletRG (-1)
  let maxHitchW := (hitchLB - hitchRB).magnitude + palm.hitchCornerRadius
  let minHitchY := -(palm.hitchDepth + palm.bodyMargin)
  let n : PalmNotch :=
    { filletRG, filletRT, filletLT, filletLG
      edgeT := withMirror (rt0 :: cornerRT)
      edgeG := withMirror (rg0 :: cornerRG)
      backT := [lb1, l0, r0, rb1]
      backG := [lg1, lt1, rt1, rg1] }
  if rbt.x * 2 ≤ maxHitchW ∨ rft.y ≥ minHitchY then .error .valueError else pure n

/-- The strips of palm.py:141-148. -/
def notchPieces (s : PalmShape) (n : PalmNotch) : List Piece :=
  [strip s.roofL s.roofR, strip n.backT n.backG, strip n.edgeG n.edgeT, strip s.filletLB n.filletLG, strip n.filletLG n.filletLT,
   strip n.filletLT n.filletRT, strip n.filletRT n.filletRG, strip n.filletRG s.filletRB]

/-- The grooves, palm.py:150-229. The names end in O at the outside, I at the inside. -/
structure Groove where
  LTO : List Vec
  LGO : List Vec
  RTO : List Vec
  RGO : List Vec
  LTI : List Vec
  LGI : List Vec
  RTI : List Vec
  RGI : List Vec

/-- An edge of a groove with its ends on the floor, palm.py:171-189. -/
def grooveEdge (plane : Plane) (spine : List Line) (floorOffset : Vec) : Py (List Vec) := do
  let e ← edgeOnLines plane spine
  let first ← pyIndex e 0
  let e := (first.xy - floorOffset) :: e
  let last ← pyIndex e (-1)
  pure (e ++ [last.xy - floorOffset])

/-- `addClamp`, palm.py:191-198. -/
def clamp (size : ℝ) (a b c d : Vec) : Py Piece := do
  let dir ← (d - a).ortho2D.normalized
  let clampOut := dir * size
  let clampUp : Vec := ⟨0, 0, size⟩
  let clampA := a * (8 / 10 : ℝ) + d * (2 / 10 : ℝ) + clampOut + clampUp
  let clampD := a * (2 / 10 : ℝ) + d * (8 / 10 : ℝ) + clampOut + clampUp
  pure (strip [a, b, c, d] [clampA, clampA, clampD, clampD] true)

/-- `edge[1:-1]`. -/
def middlePart (e : List Vec) : List Vec := e.dropLast.drop 1

/-- The lower sides of the grooves, palm.py:200-209. -/
def grooveGround (size : ℝ) (g : Groove) : (clamps : Bool) → Py (List Piece)
  | true => do
    let lgo0 ← pyIndex g.LGO 0
    let lgo1 ← pyIndex g.LGO 1
    let lgi1 ← pyIndex g.LGI 1
    let lgi0 ← pyIndex g.LGI 0
    let c1 ← clamp size lgo0 lgo1 lgi1 lgi0
    let rgi0 ← pyIndex g.RGI 0
    let rgi1 ← pyIndex g.RGI 1
    let rgo1 ← pyIndex g.RGO 1
    let rgo0 ← pyIndex g.RGO 0
    let c2 ← clamp size rgi0 rgi1 rgo1 rgo0
    let lgiA ← pyIndex g.LGI (-1)
    let lgiB ← pyIndex g.LGI (-2)
    let lgoB ← pyIndex g.LGO (-2)
    let lgoA ← pyIndex g.LGO (-1)
    let c3 ← clamp size lgiA lgiB lgoB lgoA
    let rgoA ← pyIndex g.RGO (-1)
    let rgoB ← pyIndex g.RGO (-2)
    let rgiB ← pyIndex g.RGI (-2)
    let rgiA ← pyIndex g.RGI (-1)
    let c4 ← clamp size rgoA rgoB rgiB rgiA
    pure [c1, c2, c3, c4, strip (middlePart g.LGO) (middlePart g.LGI), strip (middlePart g.RGI) (middlePart g.RGO)]
  | false => pure [strip g.LGO g.LGI, strip g.RGI g.RGO]

/-- palm.py:157-189. -/
def Groove.make (q : Quality) (palm : PalmCfg) (floorHeight : ℝ) (s : PalmShape) (groove : GrooveCfg) : Py Groove :=
  if groove.height ≤ palm.floorFillet then .error .valueError
  else do
    let floorOffset : Vec := ⟨0, 0, floorHeight⟩
    let spineT ← roofSpine q palm groove.roofMargin
    let spineG ← roofSpine q palm (groove.roofMargin + groove.height)
    let spineT ← spineT.mapM fun l => l.translated s.roofRaise
    let spineG ← spineG.mapM fun l => l.translated s.roofRaise
    let planeLI ← Plane.make (s.planeL.pos - s.planeL.normal * groove.width) s.planeL.normal
    let planeRI ← Plane.make (s.planeR.pos - s.planeR.normal * groove.width) s.planeR.normal
    let LTO ← grooveEdge s.planeL spineT floorOffset
    let LGO ← grooveEdge s.planeL spineG floorOffset
    let RTO ← grooveEdge s.planeR spineT floorOffset
    let RGO ← grooveEdge s.planeR spineG floorOffset
    let LTI ← grooveEdge planeLI spineT floorOffset
    let LGI ← grooveEdge planeLI spineG floorOffset
    let RTI ← grooveEdge planeRI spineT floorOffset
    let RGI ← grooveEdge planeRI spineG floorOffset
    pure { LTO, LGO, RTO, RGO, LTI, LGI, RTI, RGI }

/-- What the grooves give, palm.py:150-229. -/
structure GrooveParts where
  groove : Option Groove
  pieces : List Piece
  faces : List Piece
  LT : List Vec
  LG : List Vec
  RT : List Vec
  RG : List Vec

/-- The ends of a groove in the floor, palm.py:220-229. -/
def grooveEnds (g : Groove) : Py (List Vec × List Vec) := do
  let l ← [g.LTO, g.LTI, g.LGI, g.LGO].mapM fun e => pyIndex e (-1)
  let l' ← [g.LGO, g.LGI, g.LTI, g.LTO].mapM fun e => pyIndex e 0
  let r ← [g.RTO, g.RTI, g.RGI, g.RGO].mapM fun e => pyIndex e 0
  let r' ← [g.RGO, g.RGI, g.RTI, g.RTO].mapM fun e => pyIndex e (-1)
  pure (l ++ l', r ++ r')

/-- palm.py:150-229. The edges of the faces are moved at the end, palm.py:286-287. -/
def grooveParts (q : Quality) (palm : PalmCfg) (floorHeight : ℝ) (s : PalmShape) (place : Vec → Vec) :
    Option GrooveCfg → Py GrooveParts
  | none => pure { groove := none, pieces := [], faces := [], LT := [], LG := [], RT := [], RG := [] }
  | some groove => do
    let g ← Groove.make q palm floorHeight s groove
    let ground ← grooveGround (groove.height * groove.relClampSize) g (decide (groove.relClampSize > 0))
    let (LG, RG) ← grooveEnds g
    pure
      { groove := some g
        pieces := ground ++ [strip g.LTI g.LTO, strip g.RTO g.RTI]
        faces := [face ((g.LGI ++ g.LTI.reverse).map place), face ((g.RTI ++ g.RGI.reverse).map place),
          face (g.LGO.reverse.map place), face (g.RGO.map place)]
        LT := g.LTO.reverse
        LG
        RT := g.RTO.reverse
        RG }

/-- The positions of the bumpers, palm.py:235-252. -/
def palmBumperPos (palm : PalmCfg) (bumper : BumperCfg) (s : PalmShape) : Py (List Vec) := do
  let inset0 := bumper.margin + bumper.diameter / 2
  let inset1 := match palm.groove with
    | some g => inset0 + (g.roofMargin + g.height)
    | none => inset0
  let inset := max inset1 (palm.floorContactWidth / 2)
  let lineF ← Line.make ⟨0, s.palmFGy + inset, 0⟩ ⟨1, 0, 0⟩
  let lineB ← Line.make ⟨0, s.palmBGy - inset, 0⟩ ⟨1, 0, 0⟩
  let lineL ← Line.make (s.planeL.pos - s.planeL.normal * (palm.floorContactWidth / 2)) s.planeL.normal.ortho2D
  let lf ← lineL.intersect lineF
  let lb ← lineL.intersect lineB
  pure [lf, lb, lf.mirroredX, lb.mirroredX]

/-- The bumpers, palm.py:233-257. -/
def palmBumpers (q : Quality) (floorHeight : ℝ) (palm : PalmCfg) (s : PalmShape) : Option BumperCfg → Py (List Bumper)
  | none => pure []
  | some bumper => do
    let ps ← palmBumperPos palm bumper s
    ps.mapM fun pos => Bumper.make q floorHeight bumper pos false

/-- `placeMatrix`, palm.py:261-263. -/
def palmMatrix (thumbLF pinkyRF : Vec) : Py Mat := do
  let delta ← (thumbLF + pinkyRF).div 2
  pure (((1 : Mat).rotatedZ (angle2D (pinkyRF - thumbLF))).translated delta)

/-- `Palm`, palm.py:17-287, with the intermediate results of `__init__`. -/
structure Palm where
  faces : List Piece
  pieces : List Piece
  shape : PalmShape
  notch : PalmNotch
  grooves : GrooveParts
  bumpers : List Bumper
  matrix : Mat

/-- The faces at the end, palm.py:271-287. -/
def palmFaces (s : PalmShape) (n : PalmNotch) (g : GrooveParts) (bumpers : List Bumper) (place : Vec → Vec) (bossL bossR : Boss) :
    Py (List Piece) := do
  let rb0 ← pyIndex s.filletRB 0
  let r1 ← pyIndex s.roofR (-1)
  let l1 ← pyIndex s.roofL (-1)
  let lb0 ← pyIndex s.filletLB 0
  let floorEdge := n.edgeG.reverse ++ [rb0] ++ g.RG ++ [r1, l1] ++ g.LG ++ [lb0]
  pure [face (floorEdge.map place) (bumpers.map fun b => b.floorEdge.map place),
    neat (s.filletRB ++ s.roofR ++ g.RT) [] false place, neat (s.filletLB ++ s.roofL ++ g.LT) [] true place,
    face (n.edgeT.map place) [bossL.threadHole, bossR.threadHole]]

/-- `Palm.__init__`, palm.py:19-287. -/
def Palm.make (cfg : KeyboardCfg) (palm : PalmCfg) (points : Points) (h : Hitch) : Py Palm := do
  let floorHeight := cfg.floor.outerHeight
  let thumbLF := points.thumbOLF.xy
  let pinkyRF := points.pinkyORF.xy
  let matrix ← palmMatrix thumbLF pinkyRF
  let place := fun (v : Vec) => v.transformed matrix
  let shape ← palmShape cfg.quality palm floorHeight thumbLF pinkyRF
  let notch ← palmNotch cfg.quality palm floorHeight shape h.olb h.orb
  let grooves ← grooveParts cfg.quality palm floorHeight shape place palm.groove
  let bumpers ← palmBumpers cfg.quality floorHeight palm shape cfg.bumper
  let faces ← palmFaces shape notch grooves bumpers place h.bossL h.bossR
  pure
    { faces := grooves.faces ++ faces
      pieces := (notchPieces shape notch ++ grooves.pieces ++ bumpers.map fun b => done b.triangles).map (Piece.moved place) ++
        [done h.bossL.threadTriangles, done h.bossR.threadTriangles]
      shape, notch, grooves, bumpers, matrix }

end

end Chrumm.Part
