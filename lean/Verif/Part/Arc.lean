import Verif.Geo.Flat
import Mathlib.Analysis.SpecialFunctions.Complex.Arg
import Mathlib.Analysis.SpecialFunctions.Trigonometric.Inverse

/-! `arc.py`: arcs and holes. -/

namespace Chrumm.Part
open Geo

/-- The values of `cfg.quality`. -/
structure Quality where
  maxChordHeight : ℝ
  maxChordAngle : ℝ

noncomputable section

/-- `math.acos`. -/
def pyAcos (x : ℝ) : Py ℝ := if x < -1 ∨ 1 < x then .error .valueError else .ok (Real.arccos x)

/-- vector.py:148-150: `math.atan2(self.y, self.x)`. -/
def angle2D (v : Vec) : ℝ := Complex.arg ⟨v.x, v.y⟩

/-- `math.tau`. -/
def tau : ℝ := 2 * Real.pi

/-- `arc2D`, arc.py:9-34. An `Edge` is the list of its vectors. -/
def arc2D (q : Quality) (radius startAngle spanAngle : ℝ) (center : Vec) : Py (List Vec) :=
  if radius < 1 / 1000000 then .ok [center]
  else do
    let ratio ← pyDiv q.maxChordHeight radius
    let halfAngle ← pyAcos (1 - ratio)
    let maxHeightAngle := halfAngle * 2
    let maxChordAngle := min q.maxChordAngle maxHeightAngle
    let spanAngle := max (-tau) (min spanAngle tau)
    let quotient ← pyDiv |spanAngle| maxChordAngle
    let chordCount : ℤ := ⌈quotient⌉
    let chordAngle ← pyDiv spanAngle chordCount
    let pointCount : ℤ := if |(|spanAngle| - tau)| > 1 / 1000000 then chordCount + 1 else chordCount
    pure ((List.range pointCount.toNat).map fun (i : ℕ) =>
      let angle := startAngle + i * chordAngle
      ⟨center.x + radius * Real.cos angle, center.y + radius * Real.sin angle, 0⟩)

/-- `cornerArc2D`, arc.py:37-54. -/
def cornerArc2D (q : Quality) (radius : ℝ) (a b c : Vec) : Py (List Vec) := do
  let aDir ← (a - b).normalized2D
  let cDir ← (c - b).normalized2D
  let sign : ℝ := if (cDir.cross aDir).z > 0 then 1 else -1
  let cornerAngle ← pyAcos (aDir.dot cDir)
  let arcAngle := (Real.pi - cornerAngle) * sign
  let startAngle := angle2D (aDir.ortho2D * sign)
  let centerDist ← pyDiv radius (Real.sin (cornerAngle / 2))
  let centerDir ← (aDir + cDir).normalized2D
  let centerPos := b.xy + centerDir * centerDist
  arc2D q radius startAngle arcAngle centerPos

/-- `uprightHole2D`, arc.py:57-72. `taper` is `cfg.support.holeTaperAngle`, or `none` without `cfg.support`. -/
def uprightHole2D (q : Quality) (taper : Option ℝ) (radius : ℝ) : Py (List Vec) :=
  match taper with
  | some angle =>
    if angle > 0 then do
      let arc ← arc2D q radius (tau / 4 + angle) (tau - 2 * angle) 0
      let t ← pyDiv (-radius * Real.sin (angle / 2)) (Real.cos (angle / 2))
      let top : Vec := ⟨t, radius, 0⟩
      pure (top :: arc ++ [top.mirroredX])
    else arc2D q radius 0 tau 0
  | none => arc2D q radius 0 tau 0

/-- `uprightHalfHole2D`, arc.py:75-87. -/
def uprightHalfHole2D (q : Quality) (taper : Option ℝ) (radius : ℝ) : Py (List Vec) :=
  match taper with
  | some angle =>
    if angle > 0 then do
      let arc ← arc2D q radius 0 (tau / 8) 0
      let t ← pyDiv (radius * Real.sin (angle / 2)) (Real.cos (angle / 2))
      let arc := arc ++ [⟨t, radius, 0⟩]
      pure (arc ++ (arc.map Vec.mirroredX).reverse)
    else arc2D q radius 0 Real.pi 0
  | none => arc2D q radius 0 Real.pi 0

end

end Chrumm.Part
