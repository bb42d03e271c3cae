import Verif.Spec.Body
import Verif.Spec.Cable
import Verif.Spec.Floor
import Verif.Spec.Palm
import Verif.Spec.Support
import Verif.Spec.Bracket
import Verif.Spec.Encoder
import Verif.Part.FullPlan

/-! The configuration that is shipped with the project, body/chrumm.json, as it is seen by the program: angles are in
radians (cfg.py:15-17), the rest is unchanged. -/

namespace Chrumm.Part.Spec
open Geo

/-- An angle in degrees, as it is written in the file. -/
noncomputable def deg (a : ℝ) : ℝ := a * Real.pi / 180

/-- chrumm.json:3-6. -/
noncomputable def shippedQuality : Quality := ⟨0.01, deg 30⟩

/-- chrumm.json:81-86, the part of `layout` above the thumbs: four equal rows and the last one. -/
noncomputable def shippedStaggers : List (List (List Stagger)) :=
  let n := fun l : List ℝ => l.map Stagger.num
  let row := [n [0, 0], n [4.8, 7.2, 4.8, 2.4], n [2.4, 4.8, 7.2, 4.8], n [0, 0, 0]]
  let e := Stagger.list []
  [row, row, row, row, [[.list [2.375, 0], e], [e, e, e, e], [e, e, e, e], n [0, 0, 0]]]

/-- chrumm.json:75-89. The angles of the thumb keys stay in degrees until they are used (layout.py:82). -/
noncomputable def shippedLayout : LayoutCfg where
  columnPitch := 19
  rowPitch := 19
  capWidth := 18
  capDepth := 18
  capTopToPlate := 14
  fingerStaggers := shippedStaggers
  thumbUnits := [[1, 1.25, 1.25, 1.25], [1.25, 1.25, 1.25, 1]]
  thumbAngles := [[0, 3, 18, 36], [36, 18, 3, 0]]
  thumbOffsets := [[0, 4.8], [0, 4.8]]

/-- chrumm.json:90-104. -/
noncomputable def shippedSwitch : SwitchCfg where
  width := 14.1
  depth := 13.9
  pinHeight := 3.3
  innerHeight := 5
  outerMargin := 4
  innerMargin := 2
  floorMargin := 0.33
  entryChamfer := 0.4
  clipNotch := some ⟨8, 0.9, 1.4, deg 60, false⟩

/-- chrumm.json:7-24. -/
noncomputable def shippedBody : BodyCfg where
  splitAngle := deg 12
  tiltAngle := deg (-3)
  alnumTentAngle := deg 12
  thumbTentAngle := deg 3
  pinkyTentAngle := deg 3
  alnumBackAngle := deg (-4.8)
  alnumFrontAngle := deg 2.4
  thumbFrontAngle := deg 7.2
  minRoofHeight := 8.2
  minRidgeWidth := 13.5
  relRidgeTaper := 0.25
  wallThickness := 4
  roofThickness := 4
  alnumFrontThickness := 3
  innerChamfer := 1

/-- chrumm.json:25-36. -/
noncomputable def shippedBoss : BossCfg where
  diameter := 9.2
  innerWallFillet := 3
  outerWallMargin := 0.4
  countersinkDiameter := 6.4
  clearanceHoleDiameter := 4
  clearanceHoleLength := 1.3
  threadDiameter := 4.2
  minThreadLength := 6.5
  maxThreadLength := 8
  threadRoofMargin := 1.7
  threadChamfer := 1

/-- chrumm.json:37-51. -/
noncomputable def shippedFloor : FloorCfg where
  outerHeight := 3
  innerHeight := 1.8
  innerChamfer := 1
  lipThickness := 0.87
  lipHeight := 1.2
  lipMargin := 0.6
  hexHoles := some ⟨4, 8, 24, 1, -22, -12, 5⟩

/-- chrumm.json:52-70. -/
noncomputable def shippedPalm : PalmCfg where
  taperAngle := deg 7.2
  bodyMargin := 1.5
  height := 24
  depth := 80
  tentAngle := deg 3
  tiltAngle := deg 6
  relRoofRoundness := 0.2
  roofFillet := 6
  floorFillet := 1
  floorContactWidth := 15
  hitchDepth := 15
  hitchScrewPitch := 50
  hitchCornerRadius := 5
  groove := some ⟨10, 1.8, 2.5, 0.5⟩

/-- chrumm.json:105-112. -/
noncomputable def shippedEncoder : EncoderCfg := ⟨13.7, 12.8, 8, 1.7, 0.4, 3, 0.55⟩

/-- chrumm.json:113-124. -/
noncomputable def shippedSupport : SupportCfg where
  minOverhangAngle := deg 30
  holeTaperAngle := deg 45
  baseWidth := 5.2
  baseDepth := 2.6
  sideGap := 0.5
  baseGap := 0.2
  topGap := 0.2
  topDepth := 1
  relBasePosition := some 0
  relBaseInset := some 0.64
  relTopInset := some 0.83

/-- chrumm.json:125-139. -/
noncomputable def shippedBracket : BracketCfg where
  nutAcrossFlats := 5.7
  counterboreDiameter := 5.9
  counterboreLength := 2.7
  holeDiameter := 3.3
  holeLength := 1.8
  taperAngle := deg 30
  taperMargin := 2.1
  wallMargin := 0.5
  baseMargin := 0.2
  apexMargin := 0.87
  backCornerExtraMargin := 0.5
  frontFloorExtraMargin := 0
  cornerRadius := 1.5

/-- chrumm.json:140-150. -/
noncomputable def shippedCable : CableCfg where
  diameter := 4
  wallExitFillet := 1.5
  minBendRadius := 4
  wallBumpRadius := 1
  wallBumpTaperAngle := deg 30
  bracketInset := 0.6
  ziptieWidth := 3.6
  ziptieHeight := 1.8
  gripHumpWidth := 4.8
  gripHumpHeight := 3

/-- chrumm.json, without the sections of the knob and of the thickness of the circuit board. The mount is
chrumm.json:153-159, and the bumper is chrumm.json:71-74. -/
noncomputable def shipped : KeyboardCfg where
  quality := shippedQuality
  layout := shippedLayout
  switch := shippedSwitch
  body := shippedBody
  outerCornerRadius := 10
  outerChamfer := 2
  boss := shippedBoss
  support := some shippedSupport
  encoder := some shippedEncoder
  bracket := some shippedBracket
  nutSide := .left
  cable := some shippedCable
  mount := some ⟨3, 7.4, 4, 6.4, 90.9, 33.4⟩
  floor := shippedFloor
  palm := some shippedPalm
  bumper := some ⟨8.4, 1, 3⟩

end Chrumm.Part.Spec
