import Verif.Geo.Vec

/-! `body/chrumm/geo/matrix.py`, `vector.py` transforms, `triangle.py`. -/

namespace Chrumm.Geo

noncomputable section
open Classical

/-- `Matrix.data`, matrix.py:6-13: 16 numbers, row by row; row vectors are multiplied from the
left. -/
@[ext] structure Mat where
  m0 : ℝ
  m1 : ℝ
  m2 : ℝ
  m3 : ℝ
  m4 : ℝ
  m5 : ℝ
  m6 : ℝ
  m7 : ℝ
  m8 : ℝ
  m9 : ℝ
  m10 : ℝ
  m11 : ℝ
  m12 : ℝ
  m13 : ℝ
  m14 : ℝ
  m15 : ℝ

namespace Mat

/-- `Matrix()`, matrix.py:8-12. -/
instance : One Mat := ⟨⟨1, 0, 0, 0, 0, 1, 0, 0, 0, 0, 1, 0, 0, 0, 0, 1⟩⟩

/-- matrix.py:40-41. -/
instance : Add Mat := ⟨fun s o => ⟨s.m0 + o.m0, s.m1 + o.m1, s.m2 + o.m2, s.m3 + o.m3,
  s.m4 + o.m4, s.m5 + o.m5, s.m6 + o.m6, s.m7 + o.m7, s.m8 + o.m8, s.m9 + o.m9, s.m10 + o.m10,
  s.m11 + o.m11, s.m12 + o.m12, s.m13 + o.m13, s.m14 + o.m14, s.m15 + o.m15⟩⟩

/-- matrix.py:43-44. -/
instance : Sub Mat := ⟨fun s o => ⟨s.m0 - o.m0, s.m1 - o.m1, s.m2 - o.m2, s.m3 - o.m3,
  s.m4 - o.m4, s.m5 - o.m5, s.m6 - o.m6, s.m7 - o.m7, s.m8 - o.m8, s.m9 - o.m9, s.m10 - o.m10,
  s.m11 - o.m11, s.m12 - o.m12, s.m13 - o.m13, s.m14 - o.m14, s.m15 - o.m15⟩⟩

/-- Multiplication by a number, matrix.py:47-48. -/
instance : HMul Mat ℝ Mat := ⟨fun s k => ⟨s.m0 * k, s.m1 * k, s.m2 * k, s.m3 * k, s.m4 * k,
  s.m5 * k, s.m6 * k, s.m7 * k, s.m8 * k, s.m9 * k, s.m10 * k, s.m11 * k, s.m12 * k, s.m13 * k,
  s.m14 * k, s.m15 * k⟩⟩

/-- Matrix product, matrix.py:50-69. -/
instance : Mul Mat := ⟨fun s o => ⟨
  s.m0*o.m0 + s.m1*o.m4 + s.m2*o.m8 + s.m3*o.m12,
  s.m0*o.m1 + s.m1*o.m5 + s.m2*o.m9 + s.m3*o.m13,
  s.m0*o.m2 + s.m1*o.m6 + s.m2*o.m10 + s.m3*o.m14,
  s.m0*o.m3 + s.m1*o.m7 + s.m2*o.m11 + s.m3*o.m15,
  s.m4*o.m0 + s.m5*o.m4 + s.m6*o.m8 + s.m7*o.m12,
  s.m4*o.m1 + s.m5*o.m5 + s.m6*o.m9 + s.m7*o.m13,
  s.m4*o.m2 + s.m5*o.m6 + s.m6*o.m10 + s.m7*o.m14,
  s.m4*o.m3 + s.m5*o.m7 + s.m6*o.m11 + s.m7*o.m15,
  s.m8*o.m0 + s.m9*o.m4 + s.m10*o.m8 + s.m11*o.m12,
  s.m8*o.m1 + s.m9*o.m5 + s.m10*o.m9 + s.m11*o.m13,
  s.m8*o.m2 + s.m9*o.m6 + s.m10*o.m10 + s.m11*o.m14,
  s.m8*o.m3 + s.m9*o.m7 + s.m10*o.m11 + s.m11*o.m15,
  s.m12*o.m0 + s.m13*o.m4 + s.m14*o.m8 + s.m15*o.m12,
  s.m12*o.m1 + s.m13*o.m5 + s.m14*o.m9 + s.m15*o.m13,
  s.m12*o.m2 + s.m13*o.m6 + s.m14*o.m10 + s.m15*o.m14,
  s.m12*o.m3 + s.m13*o.m7 + s.m14*o.m11 + s.m15*o.m15⟩⟩

/-- matrix.py:71-76. -/
def mirroredX (m : Mat) : Mat := m * ⟨-1, 0, 0, 0, 0, 1, 0, 0, 0, 0, 1, 0, 0, 0, 0, 1⟩
/-- matrix.py:78-83. -/
def mirroredY (m : Mat) : Mat := m * ⟨1, 0, 0, 0, 0, -1, 0, 0, 0, 0, 1, 0, 0, 0, 0, 1⟩
/-- matrix.py:85-90. -/
def mirroredZ (m : Mat) : Mat := m * ⟨1, 0, 0, 0, 0, 1, 0, 0, 0, 0, -1, 0, 0, 0, 0, 1⟩

/-- matrix.py:128-133. -/
def translated (m : Mat) (v : Vec) : Mat := m * ⟨1, 0, 0, 0, 0, 1, 0, 0, 0, 0, 1, 0, v.x, v.y, v.z, 1⟩

/-- The common last two lines of matrix.py:92-126. -/
def rotateBy (m : Mat) (rotation : Mat) (center : Option Vec) : Mat :=
  match center with
  | none => m * rotation
  | some c => ((m.translated (-c)) * rotation).translated c

/-- matrix.py:92-102. -/
def rotatedX (m : Mat) (angle : ℝ) (center : Option Vec := none) : Mat :=
  m.rotateBy ⟨1, 0, 0, 0, 0, Real.cos angle, Real.sin angle, 0,
    0, -Real.sin angle, Real.cos angle, 0, 0, 0, 0, 1⟩ center

/-- matrix.py:104-114. -/
def rotatedY (m : Mat) (angle : ℝ) (center : Option Vec := none) : Mat :=
  m.rotateBy ⟨Real.cos angle, 0, -Real.sin angle, 0, 0, 1, 0, 0,
    Real.sin angle, 0, Real.cos angle, 0, 0, 0, 0, 1⟩ center

/-- matrix.py:116-126. -/
def rotatedZ (m : Mat) (angle : ℝ) (center : Option Vec := none) : Mat :=
  m.rotateBy ⟨Real.cos angle, Real.sin angle, 0, 0, -Real.sin angle, Real.cos angle, 0, 0,
    0, 0, 1, 0, 0, 0, 0, 1⟩ center

/-- `fromAlignment`, matrix.py:15-38. -/
def fromAlignment (source target : Vec) : Py Mat := do
  let source ← source.normalized
  let target ← target.normalized
  if source.isClose target then pure 1
  else if source.isClose (-target) then pure (mirroredX 1)
  else
    let c := source.cross target
    let d := source.dot target
    let skew : Mat := ⟨0, c.z, -c.y, 0, -c.z, 0, c.x, 0, c.y, -c.x, 0, 0, 0, 0, 0, 0⟩
    if 1 + d = 0 then .error .zeroDivision
    else pure (1 + skew + skew * skew * (1 / (1 + d)))

end Mat

/-- `transformed`, vector.py:84-89. -/
def Vec.transformed (v : Vec) (m : Mat) : Vec :=
  ⟨v.x*m.m0 + v.y*m.m4 + v.z*m.m8 + m.m12,
   v.x*m.m1 + v.y*m.m5 + v.z*m.m9 + m.m13,
   v.x*m.m2 + v.y*m.m6 + v.z*m.m10 + m.m14⟩

/-- `transformedNormal`, vector.py:91-96. -/
def Vec.transformedNormal (v : Vec) (m : Mat) : Py Vec :=
  Vec.normalized ⟨v.x*m.m0 + v.y*m.m4 + v.z*m.m8,
   v.x*m.m1 + v.y*m.m5 + v.z*m.m9,
   v.x*m.m2 + v.y*m.m6 + v.z*m.m10⟩

/-- `Triangle`, triangle.py:4-11. -/
@[ext] structure Tri (P : Type) where
  a : P
  b : P
  c : P
deriving DecidableEq

/-- Apply a function to the corners: triangle.py:16-32, 37-47. -/
def Tri.map {P Q : Type} (f : P → Q) (t : Tri P) : Tri Q := ⟨f t.a, f t.b, f t.c⟩

/-- `reversed`, triangle.py:34-35. -/
def Tri.reversed {P : Type} (t : Tri P) : Tri P := ⟨t.c, t.b, t.a⟩

namespace Tri

/-- triangle.py:16-20. -/
def mirroredX (t : Tri Vec) : Tri Vec := t.map Vec.mirroredX

/-- `area`, triangle.py:49-53. -/
def area (t : Tri Vec) : ℝ := ((t.b - t.a).cross (t.c - t.a)).magnitude / 2

/-- `__bool__`, triangle.py:13-14. -/
def valid (t : Tri Vec) : Prop := ¬ isZero t.area

/-- `circumradius`, triangle.py:55-61. -/
def circumradius (t : Tri Vec) : ℝ :=
  let ca := t.a - t.c
  let cb := t.b - t.c
  let numer := ca.magnitude * cb.magnitude * (ca - cb).magnitude
  let denom := 2 * (ca.cross cb).magnitude
  if isZero denom then 0 else numer / denom

/-- `normal`, triangle.py:63-66. -/
def normal (t : Tri Vec) : Py Vec := ((t.b - t.a).cross (t.c - t.a)).normalized

end Tri

/-! ### Entries of the operations -/

namespace Mat

theorem one_def : (1 : Mat) = ⟨1, 0, 0, 0, 0, 1, 0, 0, 0, 0, 1, 0, 0, 0, 0, 1⟩ := rfl

theorem mul_def (s o : Mat) : s * o = ⟨
  s.m0*o.m0 + s.m1*o.m4 + s.m2*o.m8 + s.m3*o.m12,
  s.m0*o.m1 + s.m1*o.m5 + s.m2*o.m9 + s.m3*o.m13,
  s.m0*o.m2 + s.m1*o.m6 + s.m2*o.m10 + s.m3*o.m14,
  s.m0*o.m3 + s.m1*o.m7 + s.m2*o.m11 + s.m3*o.m15,
  s.m4*o.m0 + s.m5*o.m4 + s.m6*o.m8 + s.m7*o.m12,
  s.m4*o.m1 + s.m5*o.m5 + s.m6*o.m9 + s.m7*o.m13,
  s.m4*o.m2 + s.m5*o.m6 + s.m6*o.m10 + s.m7*o.m14,
  s.m4*o.m3 + s.m5*o.m7 + s.m6*o.m11 + s.m7*o.m15,
  s.m8*o.m0 + s.m9*o.m4 + s.m10*o.m8 + s.m11*o.m12,
  s.m8*o.m1 + s.m9*o.m5 + s.m10*o.m9 + s.m11*o.m13,
  s.m8*o.m2 + s.m9*o.m6 + s.m10*o.m10 + s.m11*o.m14,
  s.m8*o.m3 + s.m9*o.m7 + s.m10*o.m11 + s.m11*o.m15,
  s.m12*o.m0 + s.m13*o.m4 + s.m14*o.m8 + s.m15*o.m12,
  s.m12*o.m1 + s.m13*o.m5 + s.m14*o.m9 + s.m15*o.m13,
  s.m12*o.m2 + s.m13*o.m6 + s.m14*o.m10 + s.m15*o.m14,
  s.m12*o.m3 + s.m13*o.m7 + s.m14*o.m11 + s.m15*o.m15⟩ := rfl

theorem add_def (s o : Mat) : s + o = ⟨s.m0 + o.m0, s.m1 + o.m1, s.m2 + o.m2, s.m3 + o.m3,
  s.m4 + o.m4, s.m5 + o.m5, s.m6 + o.m6, s.m7 + o.m7, s.m8 + o.m8, s.m9 + o.m9, s.m10 + o.m10,
  s.m11 + o.m11, s.m12 + o.m12, s.m13 + o.m13, s.m14 + o.m14, s.m15 + o.m15⟩ := rfl

theorem smul_def (s : Mat) (k : ℝ) : s * k = ⟨s.m0 * k, s.m1 * k, s.m2 * k, s.m3 * k, s.m4 * k,
  s.m5 * k, s.m6 * k, s.m7 * k, s.m8 * k, s.m9 * k, s.m10 * k, s.m11 * k, s.m12 * k, s.m13 * k,
  s.m14 * k, s.m15 * k⟩ := rfl

/-- The last column is (0, 0, 0, 1). -/
def Affine (m : Mat) : Prop := m.m3 = 0 ∧ m.m7 = 0 ∧ m.m11 = 0 ∧ m.m15 = 1

theorem Affine.one : Affine 1 := ⟨rfl, rfl, rfl, rfl⟩

theorem Affine.mul {a b : Mat} (ha : Affine a) (hb : Affine b) : Affine (a * b) := by
  obtain ⟨h1, h2, h3, h4⟩ := ha
  obtain ⟨k1, k2, k3, k4⟩ := hb
  refine ⟨?_, ?_, ?_, ?_⟩ <;> simp [mul_def, *]

theorem transformed_mul {a : Mat} (ha : Affine a) (b : Mat) (v : Vec) :
    v.transformed (a * b) = (v.transformed a).transformed b := by
  obtain ⟨h1, h2, h3, h4⟩ := ha
  ext <;> simp only [Vec.transformed, mul_def, h1, h2, h3, h4] <;> ring

theorem Affine.translated {m : Mat} (h : Affine m) (v : Vec) : Affine (m.translated v) :=
  h.mul ⟨rfl, rfl, rfl, rfl⟩

theorem transformed_translated {m : Mat} (h : Affine m) (v c : Vec) :
    v.transformed (m.translated c) = v.transformed m + c := by
  unfold translated
  rw [transformed_mul h]
  ext <;> simp [Vec.transformed]

theorem Affine.rotateBy {m r : Mat} (h : Affine m) (hr : Affine r) (c) : Affine (m.rotateBy r c) := by
  unfold Mat.rotateBy
  split
  · exact h.mul hr
  · exact ((h.translated _).mul hr).translated _

theorem transformed_rotateBy {m r : Mat} (h : Affine m) (hr : Affine r) (v : Vec) (c : Vec) :
    v.transformed (m.rotateBy r (some c)) = (v.transformed m - c).transformed r + c := by
  unfold Mat.rotateBy
  dsimp only
  rw [transformed_translated ((h.translated _).mul hr), transformed_mul (h.translated _),
    transformed_translated h]
  have : v.transformed m + -c = v.transformed m - c := by ext <;> simp <;> ring
  rw [this]

end Mat

end

end Chrumm.Geo
