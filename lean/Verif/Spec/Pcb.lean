import Verif.Part.Pcb
import Verif.Spec.Plan

/-! What the circuit board's footprint should be. -/

namespace Chrumm.Part.Spec
open Geo Geo.Spec

/-- The depth of the bottom of the board below the switch plate. -/
def boardDepth (cfg : PlanCfg) (pcb : PcbCfg) : ℝ := cfg.switch.innerHeight + pcb.thickness

/-- By how much the alnum keys are closer to the pinky keys on the flat board than in the flat layout (negative: the crease
makes room for the keycaps and for the bent board). -/
noncomputable def unfoldGap (cfg : PlanCfg) (pcb : PcbCfg) : ℝ :=
  let half := (cfg.body.alnumTentAngle - cfg.body.pinkyTentAngle) / 2
  cfg.layout.columnPitch * (1 - 1 / Real.cos half) -
    2 * (cfg.layout.capTopToPlate + boardDepth cfg pcb) * (Real.sin half / Real.cos half)

/-- The three lines of a marker with the corners `a`, `b` and the centre `c`. The footprint is seen from below: the marker of
a point `(x, y)` is at `(-x, -y)`. -/
noncomputable def markerLines (pretty : ℝ → String) (layer : String) (a b c : Vec) : String :=
  let at' (p : Vec) := pretty (-p.x) ++ " " ++ pretty (-p.y)
  let line (p q : Vec) := "  (fp_line (start " ++ at' p ++ ") (end " ++ at' q ++ ") (layer \"" ++ layer ++ ".Cu\") (width 0.05))\n"
  line c a ++ line a b ++ line b c

/-- The label of a turned marker. -/
noncomputable def markerLabel (pretty : ℝ → String) (layer : String) (degrees : ℝ) (c : Vec) : String :=
  "  (fp_text user \"-" ++ pretty degrees ++ "°\" (at " ++ pretty (-c.x) ++ " " ++ pretty (-c.y) ++ ") (layer \"" ++ layer ++
    ".Fab\")\n    (effects (font (size 3 3) (thickness 0.3)) (justify left)))\n"

/-- The marker of an upright rectangle with its centre at `c`. -/
noncomputable def uprightMarker (pretty : ℝ → String) (layer : String) (width height : ℝ) (c : Vec) : String :=
  markerLines pretty layer ⟨c.x - width / 2, c.y - height / 2, 0⟩ ⟨c.x + width / 2, c.y - height / 2, 0⟩ c

/-- The marker of a rectangle that is moved to its place by `place`: its two lower corners are connected with its centre. If its
lower side is turned, it is labelled with the angle. -/
noncomputable def placedMarker (pretty : ℝ → String) (layer : String) (width height : ℝ) (place : Vec → Vec) : String :=
  let a := place ⟨-width / 2, -height / 2, 0⟩
  let b := place ⟨width / 2, -height / 2, 0⟩
  let degrees := Complex.arg ⟨b.x - a.x, b.y - a.y⟩ * 180 / Real.pi
  markerLines pretty layer a b (place 0) ++ if pretty degrees = "0" then "" else markerLabel pretty layer degrees (place 0)

/-- The markers of one side of the board: alnum, pinky and thumb keys at the points `place` of the flat layout. -/
noncomputable def sideMarkers (pretty : ℝ → String) (layer : String) (switch : SwitchCfg) (alnum pinky thumb : List Key)
    (first : Vec) (gap : ℝ) (thumbPlace : Vec → Vec) : String :=
  String.join (alnum.map fun k => uprightMarker pretty layer switch.width switch.depth (k.position - first + ⟨gap, 0, 0⟩)) ++
  String.join (pinky.map fun k => uprightMarker pretty layer switch.width switch.depth (k.position - first)) ++
  String.join (thumb.map fun k => placedMarker pretty layer switch.width switch.depth fun v => thumbPlace (v.transformed k.matrix))

/-- The height of a point above the plane of a key. -/
def heightAbove (k : Key) (v : Vec) : ℝ :=
  let n := (⟨0, 0, 1⟩ : Vec).transformed k.matrix - k.position
  (v.x - k.position.x) * n.x + (v.y - k.position.y) * n.y + (v.z - k.position.z) * n.z

end Chrumm.Part.Spec
