import Verif.Spec.Layout
import Verif.Spec.Clip

/-! What walls and bosses should be. -/

namespace Chrumm.Part.Spec
open Geo Geo.Spec

noncomputable section

/-- A unit vector in the xy plane. -/
def dirAt (angle : ℝ) : Vec := ⟨Real.cos angle, Real.sin angle, 0⟩

end

end Chrumm.Part.Spec

namespace Chrumm.Part.Spec
open Geo Geo.Spec

/-- A line in the xy plane, with a direction of length 1. -/
def Planar (l : Line) : Prop := l.pos.z = 0 ∧ l.dir.z = 0 ∧ l.dir.x ^ 2 + l.dir.y ^ 2 = 1

/-- The direction out of the keyboard, for a wall whose inner side is on the left. -/
def outward (dir : Vec) : Vec := ⟨dir.y, -dir.x, 0⟩

/-- Seen from above, a point on the line through the middle of the key, from its front to its back. -/
def OnKeyAxis (key : Key) (x : Vec) : Prop := ∃ s : ℝ, SamePlace x ((⟨0, s, 0⟩ : Vec).transformed key.matrix)

/-- The places between two keys, at a distance to the inside of a wall: in the middle between the lines of the keys. -/
def Between (key0 key1 : Key) (wall : Line) (distance : ℝ) (m : Vec) : Prop :=
  ∃ a b, OnKeyAxis key0 a ∧ OnKeyAxis key1 b ∧ left wall.pos (wall.pos + wall.dir) a = distance ∧
    left wall.pos (wall.pos + wall.dir) b = distance ∧ m = ⟨(a.x + b.x) / 2, (a.y + b.y) / 2, 0⟩

end Chrumm.Part.Spec
