import Verif.Geo.Mat

/-! `line.py`, `plane.py`, `segment.py`, `circle.py` over the real numbers. -/

namespace Chrumm.Geo

noncomputable section
open Classical

/-- Python's `/` on floats. -/
def pyDiv (a b : ℝ) : Py ℝ := if b = 0 then .error .zeroDivision else .ok (a / b)

/-- Python's `x ** 0.5`: a negative base gives a complex number, treated as an error here. -/
def pySqrt (a : ℝ) : Py ℝ := if a < 0 then .error .complexResult else .ok (Real.sqrt a)

/-- `Line`, line.py:4-10. -/
structure Line where
  pos : Vec
  dir : Vec

/-- `Line(pos, direction)`, line.py:8-10. -/
def Line.make (pos direction : Vec) : Py Line := do
  let d ← direction.normalized
  pure ⟨pos, d⟩

/-- line.py:12-13. -/
def Line.translated (l : Line) (v : Vec) : Py Line := Line.make (l.pos + v) l.dir

/-- line.py:15-18. -/
def Line.transformed (l : Line) (m : Mat) : Py Line := do
  let d ← l.dir.transformedNormal m
  Line.make (l.pos.transformed m) d

/-- line.py:20-25. -/
def Line.distance (l : Line) (v : Vec) : ℝ :=
  let closest := l.pos + l.dir * l.dir.dot (v - l.pos)
  (closest - v).magnitude

/-- line.py:27-35. -/
def Line.distance2D (l : Line) (v : Vec) : Py ℝ := do
  let d ← l.dir.normalized2D
  pure (d.x * (l.pos.y - v.y) - d.y * (l.pos.x - v.x))

/-- line.py:37-59. -/
def Line.intersect (l other : Line) : Py Vec := do
  let delta := l.pos - other.pos
  let do_ := delta.dot other.dir
  let ds := delta.dot l.dir
  let os := other.dir.dot l.dir
  let oo := other.dir.dot other.dir
  let ss := l.dir.dot l.dir
  let numer := do_ * os - ds * oo
  let denom := ss * oo - os * os
  if isZero denom then .error .zeroDivision
  else do
    let muA ← pyDiv numer denom
    let muB ← pyDiv (do_ + muA * os) oo
    let a := l.pos + l.dir * muA
    let b := other.pos + other.dir * muB
    (a + b).div 2

/-- `Plane`, plane.py:6-12. -/
structure Plane where
  pos : Vec
  normal : Vec

/-- `Plane(pos, normal)`, plane.py:10-12. -/
def Plane.make (pos normal : Vec) : Py Plane := do
  let n ← normal.normalized
  pure ⟨pos, n⟩

/-- plane.py:14-24. -/
def Plane.fromX (x : ℝ) : Py Plane := Plane.make ⟨x, 0, 0⟩ ⟨1, 0, 0⟩
def Plane.fromY (y : ℝ) : Py Plane := Plane.make ⟨0, y, 0⟩ ⟨0, 1, 0⟩
def Plane.fromZ (z : ℝ) : Py Plane := Plane.make ⟨0, 0, z⟩ ⟨0, 0, 1⟩

/-- plane.py:26-28. -/
def Plane.fromPoints (a b c : Vec) : Py Plane := Plane.make b ((b - a).cross (c - a))

/-- plane.py:30-33. -/
def Plane.fromLine2D (l : Line) : Py Plane := Plane.make l.pos.xy l.dir.ortho2D

/-- plane.py:43-45. -/
def Plane.distance (p : Plane) (v : Vec) : ℝ := (v - p.pos).dot p.normal

/-- plane.py:96-106. -/
def Plane.intersectLine (p : Plane) (l : Line) : Py Vec := do
  let numer := p.normal.dot (p.pos - l.pos)
  let denom := p.normal.dot l.dir
  if isZero denom then .error .zeroDivision
  else do
    let k ← pyDiv numer denom
    pure (l.pos + l.dir * k)

/-- plane.py:47-48. -/
def Plane.projectNormal (p : Plane) (v : Vec) : Py Vec := do
  let l ← Line.make v p.normal
  p.intersectLine l

/-- plane.py:50-55. -/
def Plane.projectX (p : Plane) (v : Vec) : Py Vec :=
  if isZero p.normal.x then .error .zeroDivision
  else do
    let d ← pyDiv (p.normal.dot (p.pos - v)) p.normal.x
    pure ⟨v.x + d, v.y, v.z⟩

/-- plane.py:57-62. -/
def Plane.projectY (p : Plane) (v : Vec) : Py Vec :=
  if isZero p.normal.y then .error .zeroDivision
  else do
    let d ← pyDiv (p.normal.dot (p.pos - v)) p.normal.y
    pure ⟨v.x, v.y + d, v.z⟩

/-- plane.py:64-69. -/
def Plane.projectZ (p : Plane) (v : Vec) : Py Vec :=
  if isZero p.normal.z then .error .zeroDivision
  else do
    let d ← pyDiv (p.normal.dot (p.pos - v)) p.normal.z
    pure ⟨v.x, v.y, v.z + d⟩

/-- `_intersectPlanes`, plane.py:78-94. -/
def Plane.intersectPlanes (p other1 other2 : Plane) : Py Vec :=
  let dot1 := other1.normal.dot other1.pos
  let dot2 := other2.normal.dot other2.pos
  let dot3 := p.normal.dot p.pos
  let cross23 := other2.normal.cross p.normal
  let cross31 := p.normal.cross other1.normal
  let cross12 := other1.normal.cross other2.normal
  let numer := cross23 * dot1 + cross31 * dot2 + cross12 * dot3
  let denom := other1.normal.dot cross23
  if isZero denom then .error .zeroDivision else numer.div denom

/-- `Segment`, segment.py:5-11. -/
structure Segment where
  a : Vec
  b : Vec

/-- segment.py:13-14. -/
def Segment.magnitude (s : Segment) : ℝ := (s.b - s.a).magnitude

/-- segment.py:16-18. -/
def Segment.offset2D (s : Segment) (distance : ℝ) : Py Segment := do
  let o ← (s.a - s.b).ortho2D.normalized2D
  let offset := o * distance
  pure ⟨s.a.xy + offset, s.b.xy + offset⟩

/-- segment.py:23-34. -/
def Segment.distance2D (s : Segment) (v : Vec) : ℝ :=
  let a := s.a
  let b := s.b
  let numer := (v.x - a.x) * (b.x - a.x) + (v.y - a.y) * (b.y - a.y)
  let denom := (b.x - a.x) ^ 2 + (b.y - a.y) ^ 2
  let u := if denom ≠ 0 then max 0 (min (numer / denom) 1) else 0
  Real.sqrt ((a.x + u * (b.x - a.x) - v.x) ^ 2 + (a.y + u * (b.y - a.y) - v.y) ^ 2)

/-- `intersect2D`, segment.py:36-59. -/
def Segment.intersect2D (s other : Segment) (asLine : ℤ := 0) : Py (Option Vec) :=
  if ¬ (0 ≤ asLine ∧ asLine ≤ 2) then .error .assertion
  else
    let a := s.a
    let b := s.b
    let c := other.a
    let d := other.b
    let denom := (d.y - c.y) * (b.x - a.x) - (d.x - c.x) * (b.y - a.y)
    if ¬ isZero denom then
      let abPos := ((d.x - c.x) * (a.y - c.y) - (d.y - c.y) * (a.x - c.x)) / denom
      if asLine = 2 ∨ (0 ≤ abPos ∧ abPos ≤ 1) then
        let cdPos := ((b.x - a.x) * (a.y - c.y) - (b.y - a.y) * (a.x - c.x)) / denom
        if asLine ≥ 1 ∨ (0 ≤ cdPos ∧ cdPos ≤ 1) then
          .ok (some ⟨a.x + (b.x - a.x) * abPos, a.y + (b.y - a.y) * abPos, 0⟩)
        else .ok none
      else .ok none
    else .ok none

/-- `Circle`, circle.py:5-11. -/
structure Circle where
  center : Vec
  radius : ℝ

/-- `_intersectLine2D`, circle.py:21-43. -/
def Circle.intersectLine2D (k : Circle) (line : Line) : Py (List Vec) := do
  let center := k.center.xy
  let linePos := line.pos.xy
  let lineDir ← line.dir.normalized2D
  let b := 2 * lineDir.dot (linePos - center)
  let c := center.magSquared2D + linePos.magSquared2D - 2 * center.dot linePos - k.radius ^ 2
  let exp := b ^ 2 - 4 * c
  if isZero exp then pure [linePos + lineDir * (-b / 2)]
  else if exp < 0 then pure []
  else do
    let r ← pySqrt exp
    let uNeg := (-b - r) / 2
    let uPos := (-b + r) / 2
    pure [linePos + lineDir * uNeg, linePos + lineDir * uPos]

/-- `_intersectCircle2D`, circle.py:45-66. -/
def Circle.intersectCircle2D (k other : Circle) : Py (List Vec) :=
  let a := k.center.xy
  let b := other.center.xy
  let pitch := (b - a).magnitude2D
  if isZero pitch ∨ pitch > k.radius + other.radius ∨ pitch < |k.radius - other.radius| then pure []
  else do
    let midDir ← (b - a).normalized
    let midDist ← pyDiv (k.radius ^ 2 - other.radius ^ 2 + pitch ^ 2) (2 * pitch)
    let midPos := a + midDir * midDist
    let chordHalf ← pySqrt (k.radius ^ 2 - midDist ^ 2)
    if isZero chordHalf then pure [midPos]
    else
      let chordOffset := midDir.ortho2D * chordHalf
      pure [midPos + chordOffset, midPos - chordOffset]

end

end Chrumm.Geo
