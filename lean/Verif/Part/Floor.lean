import Verif.Part.Body
import Verif.Part.Hex

/-! `floor.py`: the floor of a keyboard half. -/

namespace Chrumm.Part
open Geo

noncomputable section
open Classical

/-- The position of `_cornerBumper`, floor.py:210-225. -/
def cornerBumperPos (cornerRadius : ℝ) (a b c : Vec) (bumperInset : ℝ) : Py Vec := do
  let aDir ← (a - b).normalized2D
  let cDir ← (c - b).normalized2D
  let cornerAngle ← pyAcos (aDir.dot cDir)
  let cornerDiag ← pyDiv cornerRadius (Real.sin (cornerAngle / 2))
  let bumperDiag ← pyDiv bumperInset (Real.sin (cornerAngle / 2))
  let diagOverlap := (cornerDiag - cornerRadius) - (bumperDiag - bumperInset)
  let bumperDir ← (aDir + cDir).normalized2D
  pure (b + bumperDir * (bumperDiag + max 0 diagOverlap))

/-- `_cornerBumper`, floor.py:210-225. -/
def cornerBumper (cfg : KeyboardCfg) (bumper : BumperCfg) (a b c : Vec) (bumperInset : ℝ) : Py Bumper := do
  let pos ← cornerBumperPos cfg.outerCornerRadius a b c bumperInset
  Bumper.make cfg.quality cfg.floor.outerHeight bumper pos false

/-- `profile`, floor.py:47-54. -/
structure Profile where
  p0 : List Vec
  p1 : List Vec
  p2 : List Vec
  p3 : List Vec
  p4 : List Vec
  p5 : List Vec
  p6 : List Vec

/-- floor.py:28-54. -/
def floorProfile (cfg : FloorCfg) (outlineI outlineO : List Vec) : Py Profile := do
  let lipT : Vec := ⟨0, 0, cfg.lipHeight⟩
  let floorOG : Vec := ⟨0, 0, -cfg.outerHeight⟩
  let floorIG : Vec := ⟨0, 0, floorOG.z + cfg.innerHeight⟩
  let chamferT : Vec := ⟨0, 0, floorIG.z + cfg.innerChamfer⟩
  let lipSketchI ← naiveOffset2D outlineI (-cfg.lipMargin - cfg.lipThickness)
  let lipSketchO ← naiveOffset2D outlineI (-cfg.lipMargin)
  let chamferSketch ← naiveOffset2D outlineI (-cfg.lipMargin - cfg.lipThickness - cfg.innerChamfer)
  pure
    { p0 := edgeTranslated outlineO floorOG
      p1 := outlineO
      p2 := lipSketchO
      p3 := edgeTranslated lipSketchO lipT
      p4 := edgeTranslated lipSketchI lipT
      p5 := edgeTranslated lipSketchI chamferT
      p6 := edgeTranslated chamferSketch floorIG }

/-- `edge[0] = first; edge[-1] = last`, floor.py:115-117. -/
def setEnds (edge : List Vec) (first last : Vec) : Py (List Vec) :=
  if edge = [] then .error .indexError else pure ((edge.set 0 first).set (edge.length - 1) last)

/-- Checks of floor.py:88-111. -/
def floorBracketChecks (cfg : KeyboardCfg) (body : Body) (f b : FloorBracket) : Py Unit :=
  let sketch := fun (e : List Vec) => e.map fun p => (⟨p.y, p.z, 0⟩ : Vec)
  match body.bracketF, body.bracketB with
  | some bodyF, some bodyB =>
    if (sketch bodyF.splitEdge).any (contains2D (sketch f.splitEdge)) then .error .valueError
    else match cfg.cable with
      | none => pure ()
      | some cable => do
        let offset ← naiveOffset2D (sketch bodyB.splitEdge) (-cable.diameter)
        if offset.any (contains2D (sketch b.splitEdge)) then .error .valueError else pure ()
  | _, _ => .error .attributeError

/-- What the bracket stage gives, floor.py:69-132. -/
structure FloorJoint where
  profile : Profile
  innerEdge : List Vec
  splitEdge : List Vec
  splitHoles : List (List Vec)
  pieces : List Piece
  brackets : Option (FloorBracket × FloorBracket)

/-- The ends of the profile, from start to end through all edges, floor.py:131-132. -/
def profileEnds (p : Profile) : Py (List Vec × List Vec) := do
  let starts ← [p.p0, p.p1, p.p2, p.p3, p.p4, p.p5, p.p6].mapM fun e => pyIndex e 0
  let ends ← [p.p6, p.p5, p.p4, p.p3, p.p2, p.p1, p.p0].mapM fun e => pyIndex e (-1)
  pure (starts, ends)

/-- floor.py:71-132. -/
def floorJoint (cfg : KeyboardCfg) (side : Side) (body : Body) (p : Profile) : Option BracketCfg → Py FloorJoint
  | some bc => do
    let isNut := decide (side = cfg.nutSide)
    let a0 ← pyIndex p.p6 0
    let a1 ← pyIndex p.p6 (-1)
    let c0 ← pyIndex p.p5 0
    let d0 ← pyIndex p.p4 0
    let e0 ← pyIndex p.p3 0
    let f ← FloorBracket.make cfg.quality cfg.taper bc a0 a1 c0 d0 e0 isNut
    let c1 ← pyIndex p.p5 (-1)
    let d1 ← pyIndex p.p4 (-1)
    let e1 ← pyIndex p.p3 (-1)
    let b ← FloorBracket.make cfg.quality cfg.taper bc a1 a0 c1 d1 e1 isNut
    let _ ← floorBracketChecks cfg body f b
    let f1 ← pyIndex f.lipEdge (-1)
    let b1 ← pyIndex b.lipEdge (-1)
    let p6 ← setEnds p.p6 f1 b1
    let f2 ← pyIndex f.lipEdge (-2)
    let b2 ← pyIndex b.lipEdge (-2)
    let p5 ← setEnds p.p5 f2 b2
    let f3 ← pyIndex f.lipEdge (-3)
    let b3 ← pyIndex b.lipEdge (-3)
    let p4 ← setEnds p.p4 f3 b3
    let f4 ← pyIndex f.lipEdge (-4)
    let b4 ← pyIndex b.lipEdge (-4)
    let p3 ← setEnds p.p3 f4 b4
    let starts ← [p.p0, p.p1, p.p2].mapM fun e => pyIndex e 0
    let ends ← [p.p2, p.p1, p.p0].mapM fun e => pyIndex e (-1)
    pure
      { profile := { p with p3, p4, p5, p6 }
        innerEdge := b.taperEdge ++ f.taperEdge
        splitEdge := starts ++ f.splitEdge ++ b.splitEdge ++ ends
        splitHoles := [f.splitHole, b.splitHole]
        pieces := f.pieces ++ b.pieces
        brackets := some (f, b) }
  | none => do
    let (starts, ends) ← profileEnds p
    pure { profile := p, innerEdge := [], splitEdge := starts ++ ends, splitHoles := [], pieces := [], brackets := none }

/-- The hexagonal holes, floor.py:134-145: `hexagonsI` and `hexagonsO`. -/
def floorHex (cfg : KeyboardCfg) (p6 : List Vec) : Option HexCfg → Py (List (List Vec) × List (List Vec))
  | some hex => do
    let floorOG : Vec := ⟨0, 0, -cfg.floor.outerHeight⟩
    let floorIG : Vec := ⟨0, 0, floorOG.z + cfg.floor.innerHeight⟩
    let border ← naiveOffset2D p6 (-hex.wallMargin) true
    let hexagons ← hexGrid2D cfg.quality hex border
    pure (hexagons.map fun h => edgeTranslated h floorIG, hexagons.map fun h => edgeTranslated h floorOG)
  | none => pure ([], [])

/-- The bumpers, floor.py:155-158. -/
structure FloorBumpers where
  rf : Bumper
  rb : Bumper
  lf : Bumper
  lb : Bumper

/-- floor.py:147-158. -/
def floorBumpers (cfg : KeyboardCfg) (points : Points) (p0 : List Vec) : Option BumperCfg → Py (Option FloorBumpers)
  | some bumper => do
    let inset := bumper.margin + bumper.diameter / 2
    let rf ← cornerBumper cfg bumper points.alnumOLB points.pinkyORB points.pinkyORF inset
    let rb ← cornerBumper cfg bumper points.pinkyORB points.pinkyORF points.thumbORF inset
    let first ← pyIndex p0 0
    let lf ← Bumper.make cfg.quality cfg.floor.outerHeight bumper (first + ⟨0, inset, 0⟩) true
    let last ← pyIndex p0 (-1)
    let lb ← Bumper.make cfg.quality cfg.floor.outerHeight bumper (last - ⟨0, inset, 0⟩) true
    pure (some { rf, rb, lf, lb })
  | none => pure none

/-- `bosses`, floor.py:175-183. -/
def floorBosses (fp : FullPlan) : Option PalmCfg → Py (List Boss)
  | none => pure [fp.bosses.alnumB, fp.bosses.thumbF, fp.bosses.pinkyB, fp.bosses.pinkyF]
  | some _ =>
    match fp.hitch with
    | some h => pure [fp.bosses.alnumB, fp.bosses.thumbF, fp.bosses.pinkyB, fp.bosses.pinkyF, h.bossL, h.bossR]
    | none => .error .attributeError

/-- `Edge(e[0].yz, e, e[-1].yz)`, floor.py:197-198. -/
def fillGaps (e : List Vec) : Py (List Vec) := do
  let first ← pyIndex e 0
  let last ← pyIndex e (-1)
  pure ([first.yz] ++ e ++ [last.yz])

/-- `Floor`, floor.py:15-207, with the intermediate results of `__init__`. -/
structure Floor where
  faces : List Piece
  pieces : List Piece
  sketch : Profile
  joint : FloorJoint
  hexI : List (List Vec)
  hexO : List (List Vec)
  bumpers : Option FloorBumpers
  bosses : List Boss

/-- The bumpers' contributions to `splitEdge`, `floorEdge`, `floorHoles` and the triangles, floor.py:160-171. -/
def FloorBumpers.splitEdge (b : FloorBumpers) : List Vec := b.lb.splitEdge ++ b.lf.splitEdge
def FloorBumpers.floorEdge (b : FloorBumpers) : List Vec := b.lf.floorEdge ++ b.lb.floorEdge
def FloorBumpers.floorHoles (b : FloorBumpers) : List (List Vec) := [b.rf.floorEdge, b.rb.floorEdge]
def FloorBumpers.pieces (b : FloorBumpers) : List Piece :=
  [done b.rf.triangles, done b.rb.triangles, done b.lf.triangles, done b.lb.triangles]

/-- The faces of the floor, floor.py:58, 192-194, 203-207. -/
def floorFaceList (j : FloorJoint) (hexI hexO : List (List Vec)) (b : Option FloorBumpers) (bosses : List Boss) : List Piece :=
  let p := j.profile
  [neat (j.splitEdge ++ (b.map FloorBumpers.splitEdge).getD []) j.splitHoles,
   face (p.p0.reverse ++ (b.map FloorBumpers.floorEdge).getD [])
     (hexO ++ (b.map FloorBumpers.floorHoles).getD [] ++ bosses.map Boss.headHole),
   face (p.p1 ++ p.p2.reverse) (bosses.map Boss.clearanceHole),
   neat (p.p3 ++ p.p4.reverse),
   face (j.innerEdge ++ p.p6) (hexI.map List.reverse)]

/-- `Floor.__init__`, floor.py:17-207. -/
def Floor.make (cfg : KeyboardCfg) (fp : FullPlan) (body : Body) : Py Floor := do
  let sketch ← floorProfile cfg.floor body.outlineI body.outlineO
  let joint ← floorJoint cfg fp.plan.side body sketch cfg.bracket
  let p := joint.profile
  let (hexI, hexO) ← floorHex cfg p.p6 cfg.floor.hexHoles
  let bumpers ← floorBumpers cfg fp.plan.points p.p0 cfg.bumper
  let bosses ← floorBosses fp cfg.palm
  let q2 ← fillGaps p.p2
  let q3 ← fillGaps p.p3
  pure
    { faces := floorFaceList joint hexI hexO bumpers bosses
      pieces := joint.pieces ++ (hexI.zip hexO).map (fun h => strip h.1 h.2 true) ++ (bumpers.map FloorBumpers.pieces).getD [] ++
        bosses.map (fun b => done b.headTriangles) ++ [strip p.p0 p.p1, strip q2 q3, strip p.p4 p.p5, strip p.p5 p.p6]
      sketch, joint, hexI, hexO, bumpers, bosses }

end

end Chrumm.Part
