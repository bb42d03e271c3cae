import Verif.Spec.Arc
import Verif.Part.Key
import Verif.Part.Boss

/-! Vocabulary for the meshes of the parts. -/

namespace Chrumm.Part.Spec
open Geo Geo.Spec

/-- Sensible values of `cfg.quality`: chords are at least 0.001 high and 0.1 radians wide, and at most a quarter of a
circle wide. -/
structure SaneQuality (q : Quality) : Prop where
  height : 1 / 1000 ≤ q.maxChordHeight
  angle : 1 / 10 ≤ q.maxChordAngle
  quarter : q.maxChordAngle ≤ Real.pi / 2

/-- The triangles close the gap that is left by others whose boundary is `loops`: together, each directed edge is used
as often as its reverse. -/
def Closes [DecidableEq Vec] (ts : List (Tri Vec)) (loops : List (Vec × Vec)) : Prop :=
  SameChain (meshEdges ts ++ loops) []

/-- The dimensions of a clip notch that fits into the back wall of a hole: it leaves room at the sides and above, it
does not cut through, and its tapered sides do not meet. -/
structure FitsClip (holeW holeH chamfer : ℝ) (c : ClipCfg) : Prop where
  depth_pos : 1 / 100 ≤ c.depth
  inner_pos : 1 / 100 ≤ c.width - 2 * (c.depth * Real.tan c.taperAngle)
  width_pos : 1 / 100 ≤ c.width
  side : c.width + 1 / 100 ≤ holeW
  above : chamfer + 1 / 100 ≤ c.height
  below : c.height + 1 / 100 ≤ holeH
  taper : Real.cos c.taperAngle ≠ 0

/-- Sensible dimensions of a key hole: it is not too small, it has no chamfer or one that is not too small, and the
chamfer leaves a part of the wall. -/
structure SaneHole (holeW holeD holeH chamfer : ℝ) (clip : Option ClipCfg) : Prop where
  width : 1 ≤ holeW
  depth : 1 ≤ holeD
  chamfer_size : chamfer = 0 ∨ 1 / 100 ≤ chamfer
  height : chamfer + 1 / 100 ≤ holeH
  notch : ∀ c ∈ clip, FitsClip holeW holeH chamfer c

/-- Sensible dimensions of a screw head in a floor of the given height: no step of its profile is smaller than 0.001,
unless there is none. The countersink may be cut off by the floor. -/
structure SaneHead (outerHeight : ℝ) (cfg : BossCfg) : Prop where
  clear : 1 ≤ cfg.clearanceHoleDiameter
  length : cfg.clearanceHoleLength = 0 ∨ 1 / 1000 ≤ cfg.clearanceHoleLength
  wider : cfg.countersinkDiameter = cfg.clearanceHoleDiameter ∨
    cfg.clearanceHoleDiameter + 1 / 500 ≤ cfg.countersinkDiameter
  deeper : cfg.clearanceHoleLength = outerHeight ∨ cfg.clearanceHoleLength + 1 / 1000 ≤ outerHeight
  rest : let sunk := cfg.clearanceHoleLength + (cfg.countersinkDiameter - cfg.clearanceHoleDiameter) / 2
    outerHeight ≤ sunk ∨ sunk + 1 / 1000 ≤ outerHeight

/-- Sensible dimensions of a thread. -/
structure SaneThread (cfg : BossCfg) (support : Option SupportCfg) : Prop where
  radius : 1 ≤ cfg.threadDiameter
  chamfer : cfg.threadChamfer = 0 ∨ 1 / 1000 ≤ cfg.threadChamfer
  length : cfg.threadChamfer + 1 / 1000 ≤ cfg.maxThreadLength
  taper : ∀ s ∈ support, s.holeTaperAngle ≤ 0 ∨ 1 / 10 ≤ s.holeTaperAngle ∧ s.holeTaperAngle ≤ Real.pi / 2

/-- The roof faces upwards, and above a thread of at least the minimal length it is not so steep that it cuts through
the thread's wall. -/
structure NotTooSteep (cfg : BossCfg) (roof : Plane) : Prop where
  up : 0 < roof.normal.z
  steep : Real.sqrt (roof.normal.x ^ 2 + roof.normal.y ^ 2) * cfg.threadDiameter ≤
    roof.normal.z * (cfg.minThreadLength - cfg.threadChamfer - 1 / 1000)

end Chrumm.Part.Spec

namespace Chrumm.Part.Spec
open Geo Geo.Spec

/-- A smooth transition from a wall, along the line at height `R - P`, to a boss of radius `R` around the origin: a
fillet of radius `F` around `C` that starts on the wall, right below its center, a straight line that touches fillet and
boss, and an arc of the boss that ends at its highest point. Nothing is inside the boss, below the wall or above the
boss. -/
structure SmoothTransition (P R F : ℝ) (C : Vec) (fillet boss : List Vec) : Prop where
  center : C.y = R - P + F
  start : fillet.head? = some ⟨C.x, R - P, 0⟩
  finish : boss.getLast? = some ⟨0, R, 0⟩
  on_fillet : ∀ p ∈ fillet, distSq2D C p = F ^ 2
  on_boss : ∀ p ∈ boss, distSq2D 0 p = R ^ 2
  tangent : ∃ f b : Vec, fillet.getLast? = some f ∧ boss.head? = some b ∧ (b - f).dot b = 0 ∧ (b - f).dot (f - C) = 0 ∧
    f.y ≤ b.y ∧ b.x ≤ f.x
  outside : ∀ p ∈ fillet, R ^ 2 ≤ distSq2D 0 p
  bounds : ∀ p ∈ fillet ++ boss, 0 ≤ p.x ∧ R - P ≤ p.y ∧ p.y ≤ R ∧ p.z = 0

end Chrumm.Part.Spec
