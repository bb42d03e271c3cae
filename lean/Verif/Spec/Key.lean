import Verif.Part.Key

/-! Vocabulary for the shape of a key cutout, in the coordinates of the key: x along the row, y along the column, z up from
the outer side of the roof. -/

namespace Chrumm.Part.Spec
open Geo

/-- A corner of the `w` by `d` rectangle around the origin, at the height `z`. -/
def Corner (w d z : ℝ) (p : Vec) : Prop := (p.x = w / 2 ∨ p.x = -(w / 2)) ∧ (p.y = d / 2 ∨ p.y = -(d / 2)) ∧ p.z = z

/-- The clip notches are cut into the front and back walls of the hole, or, if sideways, into the left and right walls.
A corner of the rectangle that is `a` wide along these walls, and reaches `b` beyond both of them. -/
def NotchCorner (switch : SwitchCfg) (sideways : Bool) (a b z : ℝ) (p : Vec) : Prop :=
  if sideways then Corner (switch.width + 2 * b) a z p else Corner a (switch.depth + 2 * b) z p

/-- The clip notch, unless it would cut through the roof. -/
def HasNotch (switch : SwitchCfg) (roofThickness : ℝ) (c : ClipCfg) : Prop :=
  switch.clipNotch = some c ∧ c.height < roofThickness

/-- The triangle is outside of the column above the `w` by `d` rectangle: it is beyond one of its sides. -/
def OutsideColumn (w d : ℝ) (t : Tri Vec) : Prop :=
  (w / 2 ≤ t.a.x ∧ w / 2 ≤ t.b.x ∧ w / 2 ≤ t.c.x) ∨ (t.a.x ≤ -(w / 2) ∧ t.b.x ≤ -(w / 2) ∧ t.c.x ≤ -(w / 2)) ∨
  (d / 2 ≤ t.a.y ∧ d / 2 ≤ t.b.y ∧ d / 2 ≤ t.c.y) ∨ (t.a.y ≤ -(d / 2) ∧ t.b.y ≤ -(d / 2) ∧ t.c.y ≤ -(d / 2))

end Chrumm.Part.Spec
