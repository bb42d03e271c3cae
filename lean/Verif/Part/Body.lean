import Verif.Part.FullPlan

/-! `body.py`: the main body of a keyboard half. -/

namespace Chrumm.Part
open Geo

noncomputable section
open Classical

/-- `_chamfer`, body.py:431-451. Only the last step is inside `try`. -/
def chamferPoint (a b c normal : Vec) (size : ℝ) : Py Vec := do
  let plane ← Plane.make b normal
  let pa ← plane.projectNormal a
  let ab ← Line.make b (b - pa)
  let pc ← plane.projectNormal c
  let bc ← Line.make b (pc - b)
  let abOrtho ← (normal.cross ab.dir).normalized
  let ab ← ab.translated (abOrtho * size)
  let bcOrtho ← (normal.cross bc.dir).normalized
  let bc ← bc.translated (bcOrtho * size)
  match ab.intersect bc with
  | .error .zeroDivision => pure ab.pos
  | r => r

/-- `_parallelChamfer`, body.py:454-463. -/
def parallelChamfer (a b c prevChamfer : Vec) : Py Vec := do
  let parallel ← Line.make prevChamfer (b - a)
  let cutoff ← Line.make b (c - b)
  parallel.intersect cutoff

/-- `_cornerChamfer`, body.py:466-473. -/
def cornerChamfer (prevPoint : Vec) (corner : List Vec) (nextPoint normal : Vec) (size : ℝ) : Py (List Vec) :=
  match corner with
  | [] => pure []
  | b :: rest => do
    let p ← chamferPoint prevPoint b (rest.headD nextPoint) normal size
    let ps ← cornerChamfer b rest nextPoint normal size
    pure (p :: ps)

/-- The rounded corners and the bosses in the walls, body.py:85-106. The last letter is G on the ground, and T at the top. -/
structure BodyCorners where
  ILFG : List Vec
  IRFG : List Vec
  IRBG : List Vec
  OLFG : List Vec
  ORFG : List Vec
  ORBG : List Vec
  ILFT : List Vec
  IRFT : List Vec
  IRBT : List Vec
  OLFT : List Vec
  ORFT : List Vec
  ORBT : List Vec
  bossLB : List Vec
  bossRB : List Vec
  bossRF : List Vec
  bossLF : List Vec

/-- The checks of body.py:39-46. -/
def bodyChecks (cfg : KeyboardCfg) : Py Unit :=
  if cfg.body.innerChamfer ≥ cfg.outerCornerRadius - cfg.body.wallThickness then .error .valueError
  else if cfg.body.innerChamfer ≥ cfg.boss.innerWallFillet then .error .valueError
  else if cfg.outerChamfer ≥ cfg.outerCornerRadius then .error .valueError
  else pure ()

/-- `Edge(plane.projectZ(p) for p in edge)`. -/
def edgeProjectZ (plane : Plane) (edge : List Vec) : Py (List Vec) := edge.mapM plane.projectZ

/-- The check of body.py:108-114. `or` stops at the first true value. -/
def bossOverlap (c : BodyCorners) (thumbIRF : Vec) : Py Unit := do
  let rb ← pyIndex c.bossRB (-1)
  let irb ← pyIndex c.IRBT 0
  if rb.x ≥ irb.x then .error .valueError
  else do
    let rf ← pyIndex c.bossRF (-1)
    if rf.x ≤ thumbIRF.x then .error .valueError
    else do
      let lf ← pyIndex c.bossLF (-1)
      let ilf ← pyIndex c.ILFT 0
      if lf.x ≤ ilf.x then .error .valueError else pure ()

/-- body.py:85-114. -/
def bodyCorners (cfg : KeyboardCfg) (fp : FullPlan) : Py BodyCorners := do
  let q := cfg.quality
  let radiusO := cfg.outerCornerRadius
  let radiusI := radiusO - cfg.body.wallThickness
  let p := fp.plan.points
  let t := fp.plan.tent
  let ILFG ← cornerArc2D q radiusI p.thumbIRF p.thumbILF p.thumbILF.yz
  let IRFG ← cornerArc2D q radiusI p.pinkyIRB p.pinkyIRF p.thumbILF
  let IRBG ← cornerArc2D q radiusI p.alnumIRB p.pinkyIRB p.pinkyIRF
  let OLFG ← cornerArc2D q radiusO p.thumbOLF.yz p.thumbOLF p.thumbORF
  let ORFG ← cornerArc2D q radiusO p.thumbOLF p.pinkyORF p.pinkyORB
  let ORBG ← cornerArc2D q radiusO p.pinkyORF p.pinkyORB p.alnumORB
  let ILFT ← edgeProjectZ t.thumbIT ILFG
  let IRFT ← edgeProjectZ t.pinkyIT IRFG
  let IRBT ← edgeProjectZ t.pinkyIT IRBG
  let OLFT ← edgeProjectZ t.thumbOT OLFG
  let ORFT ← edgeProjectZ t.pinkyOT ORFG
  let ORBT ← edgeProjectZ t.pinkyOT ORBG
  let bossLB ← edgeProjectZ t.alnumIT fp.bosses.alnumB.wallEdge
  let bossRB ← edgeProjectZ t.pinkyIT fp.bosses.pinkyB.wallEdge
  let bossRF ← edgeProjectZ t.pinkyIT fp.bosses.pinkyF.wallEdge
  let bossLF ← edgeProjectZ t.thumbIT fp.bosses.thumbF.wallEdge
  let c : BodyCorners := ⟨ILFG, IRFG, IRBG, OLFG, ORFG, ORBG, ILFT, IRFT, IRBT, OLFT, ORFT, ORBT, bossLB, bossRB, bossRF, bossLF⟩
  let _ ← bossOverlap c p.thumbIRF
  pure c

/-- The step between the alnum and thumb keys, body.py:116-146. -/
structure BodyStep where
  alnumILF : Vec
  alnumOLF : Vec
  IG : List Vec
  IT : List Vec
  OG : List Vec
  OT : List Vec

/-- `Edge(plane.intersect(Line(p, direction)) for p in edge)`. -/
def edgeAlong (plane : Plane) (direction : Vec) (edge : List Vec) : Py (List Vec) :=
  edge.mapM fun p => do
    let line ← Line.make p direction
    plane.intersectLine line

/-- body.py:116-136. -/
def bodyStep (cfg : KeyboardCfg) (fp : FullPlan) : Py BodyStep := do
  let p := fp.plan.points
  let t := fp.plan.tent
  let normal := t.alnumOT.normal
  let stepDir ← (p.thumbOLB - p.alnumOLF).normalized
  let radiusO := if cfg.outerChamfer > 0 then cfg.outerCornerRadius else 0
  let radiusI := if cfg.body.innerChamfer > 0 then cfg.outerCornerRadius + cfg.body.wallThickness else 0
  let alnumILF ← chamferPoint p.ridgeIRF p.alnumILF p.alnumIRF normal (cfg.body.innerChamfer * (125 / 100))
  let alnumOLF ← chamferPoint p.ridgeORF p.alnumOLF p.alnumORF normal (cfg.outerChamfer * (125 / 100))
  let planeI ← Plane.fromPoints p.alnumIRF alnumILF p.ridgeIRF
  let planeO ← Plane.fromPoints p.alnumORF alnumOLF p.ridgeORF
  let arcI ← cornerArc2D cfg.quality radiusI p.ridgeIRF p.thumbILB p.alnumIRF
  let arcO ← cornerArc2D cfg.quality radiusO p.alnumORF p.thumbOLB p.ridgeORF
  let IG ← edgeProjectZ t.thumbIT arcI
  let OG ← edgeProjectZ t.thumbOT arcO
  let IT ← edgeAlong planeI stepDir IG
  let OT ← edgeAlong planeO stepDir OG
  pure { alnumILF, alnumOLF, IG, IT, OG, OT }

/-- The strips of the step, body.py:138-146. -/
def stepPieces (p : Points) (s : BodyStep) : List Piece :=
  let stepEdgeIG := [p.ridgeIRF] ++ s.IG ++ [p.alnumIRF]
  let stepEdgeIT := [p.ridgeIRF] ++ s.IT ++ [p.alnumIRF]
  let stepEdgeOG := [p.alnumORF] ++ s.OG ++ [p.ridgeORF]
  let stepEdgeOT := [p.alnumORF] ++ s.OT ++ [p.ridgeORF]
  [strip stepEdgeIT stepEdgeIG, strip stepEdgeOT stepEdgeOG, strip [s.alnumILF] stepEdgeIT, strip [s.alnumOLF] stepEdgeOT]

/-- The outer chamfer, body.py:148-169. The last letter is C below the chamfer, and T above. -/
structure OuterRim where
  OLFC : List Vec
  ORFC : List Vec
  ORBC : List Vec
  thumbORFC : Vec
  alnumORBC : Vec
  alnumOLBC : Vec
  OLFT : List Vec
  ORFT : List Vec
  ORBT : List Vec
  thumbORFT : Vec
  alnumORBT : Vec
  alnumOLBT : Vec

/-- body.py:148-166. -/
def outerRim (cfg : KeyboardCfg) (fp : FullPlan) (c : BodyCorners) (s : BodyStep) : Py OuterRim := do
  let p := fp.plan.points
  let thumbNorm := fp.plan.tent.thumbOT.normal
  let pinkyNorm := fp.plan.tent.pinkyOT.normal
  let down : Vec := ⟨0, 0, -cfg.outerChamfer⟩
  let OLFT ← cornerChamfer p.thumbOLF.yz c.OLFT p.thumbORF thumbNorm cfg.outerChamfer
  let ORFT ← cornerChamfer p.thumbORF c.ORFT p.pinkyORB pinkyNorm cfg.outerChamfer
  let ORBT ← cornerChamfer p.pinkyORF c.ORBT p.alnumORB pinkyNorm cfg.outerChamfer
  let orf0 ← pyIndex ORFT 0
  let thumbORFT ← parallelChamfer p.pinkyORF p.thumbORF p.alnumORF orf0
  let orb1 ← pyIndex ORBT (-1)
  let alnumORBT ← parallelChamfer p.pinkyORB p.alnumORB p.alnumORF orb1
  let alnumOLBT ← parallelChamfer p.alnumORB p.alnumOLB s.alnumOLF alnumORBT
  pure
    { OLFC := edgeTranslated c.OLFT down, ORFC := edgeTranslated c.ORFT down, ORBC := edgeTranslated c.ORBT down
      thumbORFC := p.thumbORF + down, alnumORBC := p.alnumORB + down, alnumOLBC := p.alnumOLB + down
      OLFT, ORFT, ORBT, thumbORFT, alnumORBT, alnumOLBT }

/-- The inner chamfer, body.py:171-204. -/
structure InnerRim where
  LBC : List Vec
  RBC : List Vec
  RFC : List Vec
  LFC : List Vec
  IRBC : List Vec
  IRFC : List Vec
  ILFC : List Vec
  alnumILBC : Vec
  alnumIRBC : Vec
  thumbIRFC : Vec
  LBT : List Vec
  RBT : List Vec
  RFT : List Vec
  LFT : List Vec
  IRBT : List Vec
  IRFT : List Vec
  ILFT : List Vec
  alnumIRBT : Vec
  alnumILBT : Vec
  thumbIRFT : Vec

/-- body.py:197-204. Without a crease between thumb and pinky keys (`flat`), the alnum edge ends at the step. -/
def innerEnds (p : Points) (alnumILF : Vec) (IRBT IRFT : List Vec) : (flat : Bool) → Py (Vec × Vec × Vec)
  | true => do
    let irb0 ← pyIndex IRBT 0
    let alnumIRBT ← parallelChamfer p.pinkyIRB p.alnumIRB p.alnumIRF irb0
    let alnumILBT ← parallelChamfer p.alnumIRB p.alnumILB alnumILF alnumIRBT
    let irf1 ← pyIndex IRFT (-1)
    let thumbIRFT ← parallelChamfer p.pinkyIRF p.thumbIRF p.alnumIRF irf1
    pure (alnumIRBT, alnumILBT, thumbIRFT)
  | false => do
    let irb0 ← pyIndex IRBT 0
    let alnumIRBT ← parallelChamfer p.pinkyIRB p.alnumIRB p.thumbIRF irb0
    let alnumILBT ← parallelChamfer p.alnumIRB p.alnumILB alnumILF alnumIRBT
    let irf1 ← pyIndex IRFT (-1)
    let thumbIRFT ← parallelChamfer p.pinkyIRF p.thumbIRF p.alnumIRB irf1
    pure (alnumIRBT, alnumILBT, thumbIRFT)

/-- body.py:171-204. -/
def innerRim (cfg : KeyboardCfg) (fp : FullPlan) (c : BodyCorners) (s : BodyStep) : Py InnerRim := do
  let p := fp.plan.points
  let alnumNorm := -fp.plan.tent.alnumOT.normal
  let thumbNorm := -fp.plan.tent.thumbOT.normal
  let pinkyNorm := -fp.plan.tent.pinkyOT.normal
  let size := cfg.body.innerChamfer
  let down : Vec := ⟨0, 0, -size⟩
  let LBT ← cornerChamfer p.alnumILB c.bossLB p.alnumIRB alnumNorm size
  let RBT ← cornerChamfer p.alnumIRB c.bossRB p.pinkyIRB pinkyNorm size
  let RFT ← cornerChamfer p.pinkyIRF c.bossRF p.thumbIRF pinkyNorm size
  let LFT ← cornerChamfer p.thumbIRF c.bossLF p.thumbILF thumbNorm size
  let IRBT ← cornerChamfer p.alnumIRB c.IRBT p.pinkyIRF pinkyNorm size
  let IRFT ← cornerChamfer p.pinkyIRB c.IRFT p.thumbIRF pinkyNorm size
  let ILFT ← cornerChamfer p.thumbIRF c.ILFT p.thumbILF.yz thumbNorm size
  let (alnumIRBT, alnumILBT, thumbIRFT) ←
    innerEnds p s.alnumILF IRBT IRFT (decide (cfg.body.thumbTentAngle = cfg.body.pinkyTentAngle))
  pure
    { LBC := edgeTranslated c.bossLB down, RBC := edgeTranslated c.bossRB down, RFC := edgeTranslated c.bossRF down
      LFC := edgeTranslated c.bossLF down, IRBC := edgeTranslated c.IRBT down, IRFC := edgeTranslated c.IRFT down
      ILFC := edgeTranslated c.ILFT down
      alnumILBC := p.alnumILB + down, alnumIRBC := p.alnumIRB + down, thumbIRFC := p.thumbIRF + down
      LBT, RBT, RFT, LFT, IRBT, IRFT, ILFT, alnumIRBT, alnumILBT, thumbIRFT }

/-- The keys of the half, body.py:81-83. -/
structure BodyKeys where
  alnum : List Key
  pinky : List Key
  thumb : List Key

/-- body.py:81-83. -/
def bodyKeys (p : Plan) : Py BodyKeys := do
  let alnum ← p.layout.alnum (some p.side)
  let pinky ← p.layout.pinky (some p.side)
  pure { alnum, pinky, thumb := p.layout.thumb (some p.side) }

/-- The key plates, body.py:206-221: the faces. -/
def plateFaces (p : Points) (k : BodyKeys) (s : BodyStep) (o : OuterRim) (i : InnerRim) : List Piece :=
  let alnumEdgeI := i.LBT ++ [i.alnumIRBT, p.alnumIRF, s.alnumILF, i.alnumILBT]
  let pinkyEdgeI := [i.alnumIRBT] ++ i.RBT ++ i.IRBT ++ i.IRFT ++ i.RFT ++ [i.thumbIRFT]
  let thumbEdgeI := [i.thumbIRFT] ++ i.LFT ++ i.ILFT ++ [p.ridgeIRF] ++ s.IG ++ [p.alnumIRF]
  let alnumEdgeO := [s.alnumOLF, p.alnumORF, o.alnumORBT, o.alnumOLBT]
  let pinkyEdgeO := o.ORFT ++ o.ORBT ++ [o.alnumORBT, p.alnumORF, o.thumbORFT]
  let thumbEdgeO := o.OLFT ++ [o.thumbORFT, p.alnumORF] ++ s.OG ++ [p.ridgeORF]
  [face alnumEdgeI (k.alnum.map Key.roofHoleI), face pinkyEdgeI (k.pinky.map Key.roofHoleI),
   face thumbEdgeI (k.thumb.map Key.roofHoleI), face alnumEdgeO (k.alnum.map Key.roofHoleO),
   face pinkyEdgeO (k.pinky.map Key.roofHoleO), face thumbEdgeO (k.thumb.map Key.roofHoleO)]

/-- The other triangles of the key plates, body.py:223-226. -/
def platePieces (p : Points) (k : BodyKeys) (i : InnerRim) : List Piece :=
  done [⟨p.alnumIRF, i.alnumIRBT, i.thumbIRFT⟩] :: (k.alnum ++ k.pinky ++ k.thumb).map fun key => done key.triangles

/-- The surroundings of the encoder hole, body.py:228-259. -/
structure EncoderHole where
  splitF : List Vec
  splitB : List Vec
  edgeI : List Vec
  edgeO : List Vec
  pieces : List Piece

/-- The encoder, body.py:230-256. The check is made for the points of `roofEdgeI` in order. -/
def encoderHole (cfg : KeyboardCfg) (p : Points) (s : BodyStep) : Option EncoderCfg → Py EncoderHole
  | some ec => do
    let edgeI := [s.alnumILF.yz, s.alnumILF, p.ridgeIRF, p.ridgeIRF.yz]
    let edgeO := [p.ridgeORF.yz, p.ridgeORF, s.alnumOLF, s.alnumOLF.yz]
    let pos := p.ridgeORF.yz * (1 - ec.relPosition) + s.alnumOLF.yz * ec.relPosition
    let planeI ← Plane.fromPoints p.ridgeIRF s.alnumILF p.ridgeIRF.yz
    let planeO ← Plane.fromPoints p.ridgeORF s.alnumOLF p.ridgeORF.yz
    let plane ← Plane.make pos planeO.normal
    let e ← Encoder.make cfg.quality cfg.taper ec plane planeI
    if e.roofEdgeI.any fun v => decide (v.x > 0) && !contains2D edgeI v then .error .valueError
    else pure ⟨e.splitEdgeF, e.splitEdgeB, edgeI ++ e.roofEdgeI, edgeO ++ e.roofEdgeO, e.pieces⟩
  | none => pure
    { splitF := [p.ridgeORF, p.ridgeIRF], splitB := [p.ridgeIRF, p.ridgeORF]
      edgeI := [s.alnumILF.yz, s.alnumILF, p.ridgeIRF, p.ridgeIRF.yz]
      edgeO := [p.ridgeORF.yz, p.ridgeORF, s.alnumOLF, s.alnumOLF.yz], pieces := [] }

/-- The edges of the ridge that do not depend on the brackets, body.py:261-275. -/
structure Ridge where
  IT : List Vec
  IB : List Vec
  OB : List Vec
  ORF : List Vec
  ORB : List Vec
  IRF : List Vec
  splitF : List Vec
  splitB : List Vec
  ilfg : Vec
  ilfc : Vec
  ilft : Vec

/-- body.py:261-275. -/
def ridgeEdges (p : Points) (c : BodyCorners) (s : BodyStep) (o : OuterRim) (i : InnerRim) (e : EncoderHole) : Py Ridge := do
  let olfg ← pyIndex c.OLFG 0
  let olfc ← pyIndex o.OLFC 0
  let olft ← pyIndex o.OLFT 0
  let ilfg ← pyIndex c.ILFG (-1)
  let ilfc ← pyIndex i.ILFC (-1)
  let ilft ← pyIndex i.ILFT (-1)
  let ORF := [olfg, olfc, olft, p.ridgeORF]
  pure
    { IT := [i.alnumILBT, s.alnumILF, s.alnumILF.yz]
      IB := [p.alnumILB.xy.yz, p.alnumILB.xy, i.alnumILBC]
      OB := [o.alnumOLBC.yz, o.alnumOLBC, p.alnumOLB.xy, p.alnumOLB.xy.yz]
      ORF
      ORB := [o.alnumOLBC, o.alnumOLBT, s.alnumOLF]
      IRF := [ilfg.yz, ilfg, ilfc, ilft, p.ridgeIRF, p.ridgeIRF.yz]
      splitF := [ilfg] ++ ORF ++ e.splitF ++ [p.ridgeIRF]
      splitB := [s.alnumILF] ++ e.splitB ++ [s.alnumOLF, o.alnumOLBT, o.alnumOLBC]
      ilfg, ilfc, ilft }

/-- The result of the bracket stage, body.py:277-342: the final edges, and what becomes part of the body. `chamferC` and
`chamferT` are the first points of the inner chamfer (body.py:357, 362). -/
structure Joint where
  splitF : List Vec
  splitB : List Vec
  IT : List Vec
  IB : List Vec
  OB : List Vec
  ILF : List Vec
  holesF : List (List Vec)
  holesB : List (List Vec)
  faces : List Piece
  pieces : List Piece
  chamferC : Vec
  chamferT : Vec
  bracketF : Option CornerBracket
  bracketB : Option CornerBracket

/-- The checks of body.py:285-299. -/
def bracketChecks (p : Points) (r : Ridge) (i : InnerRim) (f b : CornerBracket) (lipHeight : ℝ) : Py Unit := do
  let thumbLineL ← Line.make p.ridgeIRF (r.ilft - p.ridgeIRF)
  let maxY ← pyMax (f.splitEdge.map Vec.y)
  let gapFB := p.ridgeIRF.y - maxY
  let distances ← f.roofEdge.mapM thumbLineL.distance2D
  let gapFR ← pyMin distances
  let minZ ← pyMin (f.splitEdge.map Vec.z)
  let gapFG := minZ - lipHeight
  if gapFB < 1 / 1000 ∨ gapFR < 1 / 1000 ∨ gapFG < 1 / 1000 then .error .valueError
  else do
    let wall1 ← pyIndex b.wallEdge (-1)
    let gapBR := i.alnumILBC.x - wall1.x
    let minZB ← pyMin (b.splitEdge.map Vec.z)
    let gapBG := minZB - lipHeight
    if gapBR < 1 / 1000 ∨ gapBG < 1 / 1000 then .error .valueError else pure ()

/-- The cable hole, body.py:301-316: `splitB`, `OB`, `IB`, the faces and pieces, for a bracket with the given wall edge. -/
def cableHole (cfg : KeyboardCfg) (p : Points) (r : Ridge) (b : BracketCfg) (wallEdge : List Vec) (lipHeight : ℝ) :
    Option CableCfg → Py (List Vec × List Vec × List Vec × List Piece × List Piece)
  | some cc => do
    let wall0 ← pyIndex wallEdge 0
    let cable ← Cable.make cfg.quality cfg.taper cc (b.holeLength + b.counterboreLength) wall0 (p.alnumOLB.xy.y - p.alnumILB.xy.y)
    let g1 ← pyIndex cable.splitEdgeG (-1)
    let g0 ← pyIndex cable.splitEdgeG 0
    if g1.z < 1 / 1000 ∨ g0.z < lipHeight then .error .valueError
    else pure (r.splitB ++ cable.splitEdgeT, r.OB ++ cable.wallEdgeB, cable.wallEdgeF ++ r.IB,
      [face ([p.alnumOLB.xy.yz, p.alnumILB.xy.yz] ++ cable.splitEdgeG)], cable.pieces)
  | none => pure (r.splitB ++ [p.alnumOLB.xy.yz, p.alnumILB.xy.yz], r.OB, r.IB, [], [])

/-- The ridge with or without brackets, body.py:277-342. -/
def makeJoint (cfg : KeyboardCfg) (fp : FullPlan) (s : BodyStep) (i : InnerRim) (r : Ridge) : Option BracketCfg → Py Joint
  | some bc => do
    let p := fp.plan.points
    let lipHeight := cfg.floor.lipHeight + cfg.floor.lipMargin
    let isNut := decide (fp.plan.side = cfg.nutSide)
    let f ← CornerBracket.make cfg.quality cfg.taper bc cfg.cable r.ilft p.ridgeIRF r.ilfc isNut
    let b ← CornerBracket.make cfg.quality cfg.taper bc cfg.cable i.alnumILBT s.alnumILF i.alnumILBC isNut
    let pinky ← fp.plan.layout.pinky
    let ref ← pyIndex pinky 0
    let t ← RoofBracket.make cfg.quality cfg.taper bc cfg.mount cfg.body.splitAngle cfg.switch.innerHeight
      i.alnumILBT s.alnumILF ref.matrix isNut
    let _ ← bracketChecks p r i f b lipHeight
    let (splitB, OB, IB, faces, pieces) ← cableHole cfg p r bc b.wallEdge lipHeight cfg.cable
    let wall1 ← pyIndex b.wallEdge (-1)
    let roof0 ← pyIndex b.roofEdge 0
    pure
      { IT := r.IT ++ t.roofEdge ++ b.roofEdge.reverse
        IB := IB ++ b.wallEdge.reverse
        OB
        ILF := f.wallEdge ++ f.roofEdge
        splitF := r.splitF ++ f.splitEdge
        splitB := splitB ++ b.splitEdge ++ t.splitEdge
        holesB := b.splitHoles ++ [t.splitHole]
        holesF := f.splitHoles
        faces
        pieces := pieces ++ b.pieces ++ f.pieces ++ t.pieces
        chamferC := wall1
        chamferT := roof0
        bracketF := some f
        bracketB := some b }
  | none =>
    let p := fp.plan.points
    pure
      { IT := r.IT ++ [i.alnumILBT.yz]
        IB := r.IB ++ [i.alnumILBC.yz]
        OB := r.OB
        ILF := r.IRF.map Vec.yz
        splitF := r.splitF ++ [r.ilft, r.ilfc]
        splitB := r.splitB ++ [p.alnumOLB.xy.yz, p.alnumILB.xy.yz, i.alnumILBC, i.alnumILBT]
        holesB := []
        holesF := []
        faces := []
        pieces := []
        chamferC := i.alnumILBC.yz
        chamferT := i.alnumILBT.yz
        bracketF := none
        bracketB := none }

/-- The faces of the ridge, body.py:344-348. -/
def jointFaces (j : Joint) : List Piece :=
  [neat (j.splitF.map Vec.yz) j.holesF, neat (j.splitB.map Vec.yz) j.holesB, face j.OB, face j.IT, neat j.IB]

/-- The strips of the ridge, body.py:350-352. -/
def jointPieces (r : Ridge) (j : Joint) : List Piece :=
  [strip r.ORF (r.ORF.map Vec.yz), strip (r.ORB.map Vec.yz) r.ORB, strip j.ILF r.IRF]

/-- The inner wall below the chamfer, body.py:358-359, 378-380. -/
def InnerRim.wall (i : InnerRim) : List Vec :=
  [i.alnumILBC] ++ i.LBC ++ [i.alnumIRBC] ++ i.RBC ++ i.IRBC ++ i.IRFC ++ i.RFC ++ [i.thumbIRFC] ++ i.LFC ++ i.ILFC

/-- The inner wall above the chamfer, body.py:363-364. -/
def InnerRim.top (i : InnerRim) : List Vec :=
  [i.alnumILBT] ++ i.LBT ++ [i.alnumIRBT] ++ i.RBT ++ i.IRBT ++ i.IRFT ++ i.RFT ++ [i.thumbIRFT] ++ i.LFT ++ i.ILFT

/-- The outer wall below the chamfer, body.py:366, 374-376. -/
def OuterRim.wall (o : OuterRim) : List Vec :=
  o.OLFC ++ [o.thumbORFC] ++ o.ORFC ++ o.ORBC ++ [o.alnumORBC, o.alnumOLBC]

/-- The outer wall above the chamfer, body.py:367. -/
def OuterRim.top (o : OuterRim) : List Vec :=
  o.OLFT ++ [o.thumbORFT] ++ o.ORFT ++ o.ORBT ++ [o.alnumORBT, o.alnumOLBT]

/-- Chamfers and walls, body.py:354-383. -/
def wallPieces (o : OuterRim) (i : InnerRim) (j : Joint) : List Piece :=
  [strip o.wall o.top, strip ([j.chamferC] ++ i.wall) ([j.chamferT] ++ i.top),
   strip (o.wall.map Vec.xy) o.wall, strip (i.wall.map Vec.xy) i.wall]

/-- The outline of the bottom, body.py:394-399. -/
def floorEdge (p : Points) (c : BodyCorners) (i : InnerRim) : List Vec :=
  [p.alnumOLB.xy, p.alnumOLB.xy.yz, p.alnumILB.xy.yz, p.alnumILB.xy] ++ i.LBC ++ [p.alnumIRB] ++ i.RBC ++ c.IRBG ++ c.IRFG ++
    i.RFC ++ [p.thumbIRF] ++ i.LFC ++ c.ILFG ++ [p.thumbILF.yz, p.thumbOLF.yz] ++ c.OLFG ++ [p.thumbORF] ++ c.ORFG ++ c.ORBG ++
    [p.alnumORB]

/-- The bottom and the threads of the bosses, body.py:385-405. -/
def floorPieces (b : Bosses) : List Piece :=
  [done b.alnumB.threadTriangles, done b.pinkyB.threadTriangles, done b.pinkyF.threadTriangles, done b.thumbF.threadTriangles]
def floorFaces (p : Points) (c : BodyCorners) (i : InnerRim) (b : Bosses) : List Piece :=
  [neat ((floorEdge p c i).map Vec.xy) [b.alnumB.threadHole, b.pinkyB.threadHole, b.pinkyF.threadHole, b.thumbF.threadHole] true]

/-- The hitch in the outline, body.py:414-424. -/
def hitchOutline (cfg : KeyboardCfg) (p : Points) (c : BodyCorners) : Option PalmCfg → Option Hitch → Py (List Vec)
  | some palm, some h => do
    let radius := palm.hitchCornerRadius
    let orf0 ← pyIndex c.ORFG 0
    let a1 ← cornerArc2D cfg.quality radius p.thumbOLF h.olb h.olf
    let a2 ← cornerArc2D cfg.quality radius h.olb h.olf h.orf
    let a3 ← cornerArc2D cfg.quality radius h.olf h.orf h.orb
    let a4 ← cornerArc2D cfg.quality radius h.orf h.orb orf0
    pure (a1 ++ a2 ++ a3 ++ a4)
  | _, _ => pure []

/-- `outlineO` before it is flattened and collapsed, body.py:409, 414-426. -/
def outlineORaw (p : Points) (c : BodyCorners) (hitch : List Vec) : List Vec :=
  [p.thumbOLF.yz] ++ c.OLFG ++ hitch ++ c.ORFG ++ c.ORBG ++ [p.alnumOLB, p.alnumOLB.yz]

/-- `outlineI` before it is flattened, collapsed and reversed, body.py:410-412. -/
def outlineIRaw (p : Points) (c : BodyCorners) (i : InnerRim) : List Vec :=
  [p.alnumILB.yz, p.alnumILB] ++ i.LBC ++ i.RBC ++ c.IRBG ++ c.IRFG ++ i.RFC ++ i.LFC ++ c.ILFG ++ [p.thumbILF.yz]

/-- `Body`, body.py:24-30, with the intermediate results of `__init__`. -/
structure Body where
  outlineI : List Vec
  outlineO : List Vec
  bracketF : Option CornerBracket
  bracketB : Option CornerBracket
  faces : List Piece
  pieces : List Piece
  corners : BodyCorners
  step : BodyStep
  outer : OuterRim
  inner : InnerRim
  encoder : EncoderHole
  ridge : Ridge
  joint : Joint
  keys : BodyKeys

/-- `Body.__init__`, body.py:24-428. -/
def Body.make (cfg : KeyboardCfg) (fp : FullPlan) : Py Body := do
  let _ ← bodyChecks cfg
  let p := fp.plan.points
  let keys ← bodyKeys fp.plan
  let corners ← bodyCorners cfg fp
  let step ← bodyStep cfg fp
  let outer ← outerRim cfg fp corners step
  let inner ← innerRim cfg fp corners step
  let encoder ← encoderHole cfg p step cfg.encoder
  let ridge ← ridgeEdges p corners step outer inner encoder
  let joint ← makeJoint cfg fp step inner ridge cfg.bracket
  let hitch ← hitchOutline cfg p corners cfg.palm fp.hitch
  pure
    { outlineO := collapsed ((outlineORaw p corners hitch).map Vec.xy) (1 / 1000)
      outlineI := (collapsed ((outlineIRaw p corners inner).map Vec.xy) (1 / 1000)).reverse
      bracketF := joint.bracketF
      bracketB := joint.bracketB
      faces := plateFaces p keys step outer inner ++ [face encoder.edgeI, face encoder.edgeO] ++ joint.faces ++ jointFaces joint ++
        floorFaces p corners inner fp.bosses
      pieces := stepPieces p step ++ platePieces p keys inner ++ encoder.pieces ++ joint.pieces ++ jointPieces ridge joint ++
        wallPieces outer inner joint ++ floorPieces fp.bosses
      corners, step, outer, inner, encoder, ridge, joint, keys }

end

end Chrumm.Part
