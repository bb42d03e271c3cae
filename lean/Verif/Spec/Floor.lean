import Verif.Part.Floor
import Verif.Spec.Body

/-! What a floor should be made of. -/

namespace Chrumm.Part.Spec
open Geo Geo.Spec

/-- An edge leads from the front to the back. -/
def Backwards (e : List Vec) : Prop := (e.headD 0).y < (e.getLastD 0).y

/-- The profile of the floor, before brackets are added, is sane: the outer side of the lip starts and ends in the split
plane. With brackets, the inner edges lead from the front to the back. -/
structure SaneProfile (p : Profile) (hasBracket : Prop) : Prop where
  first : (p.p2.headD 0).x = 0
  last : (p.p2.getLastD 0).x = 0
  outer : hasBracket → Backwards p.p3
  inner : hasBracket → Backwards p.p4
  chamfer : hasBracket → Backwards p.p6

/-- Sensible dimensions of a floor: those of the screw heads and the bumpers are sensible. -/
structure SaneFloor (cfg : KeyboardCfg) : Prop where
  quality : SaneQuality cfg.quality
  head : SaneHead cfg.floor.outerHeight cfg.boss
  bumper : ∀ c ∈ cfg.bumper, 1 ≤ c.diameter ∧ 1 / 1000 ≤ |c.height|

/-- The split edges of both floor brackets reach the lip exactly, not only within 0.000001. -/
def MeetsLip (p : Profile) (f b : FloorBracket) : Prop :=
  f.splitEdge.headD 0 = (p.p3.headD 0).yz ∧ b.splitEdge.getLastD 0 = (p.p3.getLastD 0).yz

/-- Seen from `b`, the points `a` and `a'` are in the same direction of the xy plane. -/
def SameWay (b a a' : Vec) : Prop := ∃ k : ℝ, 0 < k ∧ (a' - b).xy = (a - b).xy * k

/-- A point of the joint seen from the side. -/
def sideView (p : Vec) : Vec := ⟨p.y, p.z, 0⟩

open Classical in
/-- A ray from `v` to the right crosses the closed outline an odd number of times. -/
def InsideOutline (e : List Vec) (v : Vec) : Prop := Odd ((cycPairs e).countP fun s => decide (RayCross v s.1 s.2))

end Chrumm.Part.Spec
