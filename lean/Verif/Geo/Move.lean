import Verif.Geo.Flat

/-! Moving planes: the rest of `plane.py`. -/

namespace Chrumm.Geo

noncomputable section

/-- plane.py:35-36. -/
def Plane.translated (p : Plane) (v : Vec) : Py Plane := Plane.make (p.pos + v) p.normal

/-- plane.py:38-41. -/
def Plane.transformed (p : Plane) (m : Mat) : Py Plane := do
  let n ← p.normal.transformedNormal m
  Plane.make (p.pos.transformed m) n

end

end Chrumm.Geo
