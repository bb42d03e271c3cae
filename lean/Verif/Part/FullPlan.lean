import Verif.Part.Bracket
import Verif.Part.Encoder

/-! The whole configuration, and the rest of `plan.py`: the bosses and the palm hitch. -/

namespace Chrumm.Part
open Geo

/-- The values of `cfg.floor.hexHoles`. -/
structure HexCfg where
  wallMargin : ℝ
  minDiameter : ℝ
  maxDiameter : ℝ
  cornerRadius : ℝ
  xOffset : ℝ
  yOffset : ℝ
  holeMargin : ℝ

/-- The values of `cfg.floor`. -/
structure FloorCfg where
  outerHeight : ℝ
  innerHeight : ℝ
  innerChamfer : ℝ
  lipThickness : ℝ
  lipHeight : ℝ
  lipMargin : ℝ
  hexHoles : Option HexCfg

/-- The values of `cfg.palm.groove`. -/
structure GrooveCfg where
  width : ℝ
  height : ℝ
  roofMargin : ℝ
  relClampSize : ℝ

/-- The values of `cfg.palm`. -/
structure PalmCfg where
  taperAngle : ℝ
  bodyMargin : ℝ
  height : ℝ
  depth : ℝ
  tentAngle : ℝ
  tiltAngle : ℝ
  relRoofRoundness : ℝ
  roofFillet : ℝ
  floorFillet : ℝ
  floorContactWidth : ℝ
  hitchDepth : ℝ
  hitchScrewPitch : ℝ
  hitchCornerRadius : ℝ
  groove : Option GrooveCfg

/-- The configuration (chrumm.json) of the printed parts. Sections that can be missing are optional. `outerCornerRadius`
and `outerChamfer` belong to `cfg.body`, `nutSide` to `cfg.bracket`, and `mount` is `cfg.pcb.mount`. -/
structure KeyboardCfg where
  quality : Quality
  layout : LayoutCfg
  switch : SwitchCfg
  body : BodyCfg
  outerCornerRadius : ℝ
  outerChamfer : ℝ
  boss : BossCfg
  support : Option SupportCfg
  encoder : Option EncoderCfg
  bracket : Option BracketCfg
  nutSide : Side
  cable : Option CableCfg
  mount : Option MountBoss
  floor : FloorCfg
  palm : Option PalmCfg
  bumper : Option BumperCfg

/-- The part of the configuration that is used until the bosses are made. -/
def KeyboardCfg.plan (cfg : KeyboardCfg) : PlanCfg :=
  { layout := cfg.layout
    switch := cfg.switch
    body := cfg.body
    boss := ⟨cfg.boss.diameter, cfg.boss.outerWallMargin⟩
    floor := ⟨cfg.floor.lipHeight, cfg.floor.outerHeight, cfg.floor.innerHeight⟩ }

/-- `cfg.support.holeTaperAngle`, if there is one. -/
def KeyboardCfg.taper (cfg : KeyboardCfg) : Option ℝ := cfg.support.map SupportCfg.holeTaperAngle

/-- `plan.bosses`, plan.py:318-323. -/
structure Bosses where
  alnumB : Boss
  pinkyB : Boss
  pinkyF : Boss
  thumbF : Boss

/-- The points and bosses of the palm hitch, plan.py:354-362. -/
structure Hitch where
  olb : Vec
  orb : Vec
  olf : Vec
  orf : Vec
  bossL : Boss
  bossR : Boss

/-- A plan with its bosses and the palm hitch. -/
structure FullPlan where
  plan : Plan
  bosses : Bosses
  hitch : Option Hitch

noncomputable section

/-- A boss of the body, plan.py:320-323. -/
def bodyBoss (cfg : KeyboardCfg) (pos wallDirection : Vec) (roof : Plane) : Py Boss :=
  Boss.make cfg.quality cfg.body.wallThickness cfg.floor.outerHeight cfg.boss cfg.support pos ⟨1, 0, 0⟩ (some wallDirection)
    (some roof)

/-- plan.py:318-323. -/
def Bosses.make (cfg : KeyboardCfg) (p : Plan) : Py Bosses := do
  let alnumB ← bodyBoss cfg p.bossPos.alnumB p.linesB.1.dir p.tent.alnumOT
  let pinkyB ← bodyBoss cfg p.bossPos.pinkyB p.linesB.1.dir p.tent.pinkyOT
  let pinkyF ← bodyBoss cfg p.bossPos.pinkyF p.linesF.1.dir p.tent.pinkyOT
  let thumbF ← bodyBoss cfg p.bossPos.thumbF p.linesF.1.dir p.tent.thumbOT
  pure ⟨alnumB, pinkyB, pinkyF, thumbF⟩

/-- The positions of the hitch, plan.py:327-357: the corners `hitchOLB`, `hitchORB`, `hitchOLF`, `hitchORF`, the screws
`hitchBossL`, `hitchBossR`, and `hitchOrthoL`. -/
def hitchPoints (palm : PalmCfg) (pinkyORF thumbOLF : Vec) : Py (Vec × Vec × Vec × Vec × Vec × Vec × Vec) := do
  let pinkyRFG := pinkyORF.xy
  let thumbLFG := thumbOLF.xy
  let wallDir ← (thumbLFG - pinkyRFG).normalized
  let wallOrtho := wallDir.ortho2D
  let hitchDirL := wallOrtho.transformed ((1 : Mat).rotatedZ palm.taperAngle)
  let hitchDirR := -(wallOrtho.transformed ((1 : Mat).rotatedZ (-palm.taperAngle)))
  let hitchOrthoL := hitchDirL.ortho2D
  let hitchOrthoR := hitchDirR.ortho2D
  let hitchB ← (thumbLFG + pinkyRFG).div 2
  let hitchM := hitchB + wallOrtho * (palm.bodyMargin + palm.hitchDepth / 2)
  let hitchF := hitchB + wallOrtho * (palm.bodyMargin + palm.hitchDepth)
  let halfPitch ← (wallDir * palm.hitchScrewPitch).div 2
  let hitchBossL := hitchM + halfPitch
  let hitchBossR := hitchM - halfPitch
  let hitchLineB ← Line.make hitchB wallDir
  let hitchLineF ← Line.make hitchF wallDir
  let halfL ← (hitchOrthoL * palm.hitchDepth).div 2
  let hitchLineL ← Line.make (hitchBossL - halfL) hitchDirL
  let halfR ← (hitchOrthoR * palm.hitchDepth).div 2
  let hitchLineR ← Line.make (hitchBossR - halfR) hitchDirR
  let olb ← hitchLineB.intersect hitchLineL
  let orb ← hitchLineB.intersect hitchLineR
  let olf ← hitchLineF.intersect hitchLineL
  let orf ← hitchLineF.intersect hitchLineR
  pure (olb, orb, olf, orf, hitchBossL, hitchBossR, hitchOrthoL)

/-- The palm hitch, plan.py:325-362. -/
def Hitch.make (cfg : KeyboardCfg) (p : Plan) : Option PalmCfg → Py (Option Hitch)
  | none => pure none
  | some palm => do
    let (olb, orb, olf, orf, posL, posR, orthoL) ← hitchPoints palm p.points.pinkyORF p.points.thumbOLF
    let boss := fun (pos : Vec) =>
      Boss.make cfg.quality cfg.body.wallThickness cfg.floor.outerHeight cfg.boss cfg.support pos orthoL none none
    let bossL ← boss posL
    let bossR ← boss posR
    pure (some ⟨olb, orb, olf, orf, bossL, bossR⟩)

/-- `Plan.__init__`, plan.py:45-362. -/
def FullPlan.make (cfg : KeyboardCfg) (side : Side) : Py FullPlan := do
  let p ← Plan.make cfg.plan side
  let bosses ← Bosses.make cfg p
  let hitch ← Hitch.make cfg p cfg.palm
  pure ⟨p, bosses, hitch⟩

end

end Chrumm.Part
