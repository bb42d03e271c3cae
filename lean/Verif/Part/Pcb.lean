import Verif.Part.Plan
import Verif.Part.Arc

/-! `pcb.py`: the positions of the switches on the circuit board. -/

namespace Chrumm.Part
open Geo

noncomputable section
open Classical

/-- The values of `cfg.pcb.mount`. -/
structure MountCfg where
  threadDiameter : ℝ
  xDistToFirstPinky : ℝ
  yDistToFirstPinky : ℝ

/-- The values of `cfg.pcb`; `mount` is `none` if it is falsy. -/
structure PcbCfg where
  thickness : ℝ
  mount : Option MountCfg

/-- The matrix of pcb.py:58-61. -/
def pinkyAlign (body : BodyCfg) : Mat :=
  (((1 : Mat).rotatedZ (-body.splitAngle)).rotatedX (-body.tiltAngle)).rotatedY (-body.pinkyTentAngle)

/-- `_flattenLayout`, pcb.py:48-92. The mutation of the copied layout is its result. -/
def flattenLayout (body : BodyCfg) (switch : SwitchCfg) (pcb : PcbCfg) (l : Layout) : Py Layout := do
  let _ ← l.all
  let l := l.mapAll (·.transform (pinkyAlign body))
  let alnumAngle := body.alnumTentAngle - body.pinkyTentAngle
  let maxAlnum ← l.maxAlnum
  let minPinky ← l.minPinky
  let midPos ← (maxAlnum.position + minPinky.position).div 2
  let midDir : Vec := ⟨Real.sin (alnumAngle / 2), 0, Real.cos (alnumAngle / 2)⟩
  let pcbPos := minPinky.position - ⟨0, 0, switch.innerHeight + pcb.thickness⟩
  let pcbDir : Vec := ⟨1, 0, 0⟩
  let midLine ← Line.make midPos midDir
  let pcbLine ← Line.make pcbPos pcbDir
  let alnumPivot ← pcbLine.intersect midLine
  let alnumAlign := (1 : Mat).rotatedY (-alnumAngle) (some alnumPivot)
  let _ ← l.alnum
  let l := l.mapGroup 0 (·.transform alnumAlign)
  let pinky ← l.pinky
  let first ← pyIndex pinky 0
  let originDelta := -first.position
  let _ ← l.all
  pure (l.mapAll (·.translate originDelta))

/-- `_writeKiCadMarker`, pcb.py:108-130. `pretty` is the local function that formats a number. -/
def writeKiCadMarker (pretty : ℝ → String) (matrix : Mat) (width height : ℝ) (layer : String) : String :=
  let m0 := (⟨-width / 2, -height / 2, 0⟩ : Vec).transformed matrix
  let m1 := (⟨width / 2, -height / 2, 0⟩ : Vec).transformed matrix
  let m2 := (0 : Vec).transformed matrix
  let coord (p : Vec) := pretty (-p.x) ++ " " ++ pretty (-p.y)
  let angle := pretty (angle2D (m1 - m0) * 180 / Real.pi)
  let line (a b : Vec) := "  (fp_line (start " ++ coord a ++ ") (end " ++ coord b ++ ") (layer \"" ++ layer ++ ".Cu\") (width 0.05))\n"
  line m2 m0 ++ line m0 m1 ++ line m1 m2 ++
    if angle ≠ "0" then "  (fp_text user \"-" ++ angle ++ "°\" (at " ++ coord m2 ++ ") (layer \"" ++ layer ++ ".Fab\")\n" ++
      "    (effects (font (size 3 3) (thickness 0.3)) (justify left)))\n"
    else ""

/-- `_writeKeys`, pcb.py:94-98. -/
def writeKeys (pretty : ℝ → String) (switch : SwitchCfg) (keys : List Key) (layer : String) : String :=
  String.join (keys.map fun key => writeKiCadMarker pretty key.matrix switch.width switch.depth layer)

/-- `_writeMounts`, pcb.py:100-105. -/
def writeMounts (pretty : ℝ → String) (mount : MountCfg) (l : Layout) (layer : String) : Py String := do
  let pinky ← l.pinky
  let first ← pyIndex pinky 0
  let matrix := first.matrix.translated ⟨-mount.xDistToFirstPinky, -mount.yDistToFirstPinky, 0⟩
  pure (writeKiCadMarker pretty matrix mount.threadDiameter mount.threadDiameter layer)

/-- The text of pcb.py:32-35. -/
def footprintHead : String :=
  "(footprint \"\" (generator chrumm)\n" ++
  "  (attr board_only exclude_from_pos_files exclude_from_bom)\n" ++
  "  (fp_text reference \"\" (at 0 0) (layer \"F.Fab\") hide)\n" ++
  "  (fp_text value \"\" (at 0 0) (layer \"F.Fab\") hide)\n"

/-- `toKiCadFootprint`, pcb.py:17-45; the layouts of both plans are its arguments. The warning is not modelled. -/
def toKiCadFootprint (pretty : ℝ → String) (body : BodyCfg) (switch : SwitchCfg) (pcb : PcbCfg) (planR planL : Layout) : Py String := do
  let layoutR ← flattenLayout body switch pcb planR
  let layoutL ← flattenLayout body switch pcb planL
  let allR ← layoutR.all
  let allL ← layoutL.all
  if (allR ++ allL).any fun key => decide (|key.position.z| > 1e-6) then pure ""
  else do
    let keysR ← layoutR.all (some .right)
    let keysL ← layoutL.all (some .left)
    let text := footprintHead ++ writeKeys pretty switch keysR "F" ++ writeKeys pretty switch keysL "B"
    let mounts ← match pcb.mount with
      | none => pure ""
      | some mount => do
        let r ← writeMounts pretty mount layoutR "F"
        let l ← writeMounts pretty mount layoutL "B"
        pure (r ++ l)
    pure (text ++ mounts ++ ")\n")

end

end Chrumm.Part
