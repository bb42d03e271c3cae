import Mathlib.Analysis.SpecialFunctions.Trigonometric.Inverse
import Mathlib.Tactic.Ring
import Mathlib.Tactic.Linarith
import Mathlib.Tactic.FieldSimp
import Mathlib.Tactic.Positivity
import Mathlib.Tactic.LinearCombination
import Mathlib.Tactic.NormNum

/-! `body/chrumm/geo/vector.py`, `epsilon.py` over the real numbers. Python's `x ** 0.5` is
`Real.sqrt`. A raised Python exception is `Except.error`. -/

namespace Chrumm

/-- The exceptions that the modelled Python code can raise. -/
inductive Exn where
  | zeroDivision
  | typeError
  | indexError
  | attributeError
  | assertion
  | notImplemented
  | keyError
  | valueError
  | complexResult
  | structError
  | overflow
  | osError
  | jsonError
  | getoptError
  | diverges
  | exit (code : Int)
deriving DecidableEq, Repr

abbrev Py (α : Type) := Except Exn α

namespace Geo

noncomputable section
open Classical

/-- `isZero`, epsilon.py:25-26. -/
def isZero (n : ℝ) : Prop := |n| < 1 / 1000000

/-- The loop `for i in range(len(vs)): p = vs[i]; q = vs[(i+1) % len(vs)]; ...` of vector.py:20-25. -/
def forCyc {α β : Type} (vs : List α) (body : β → α → α → β) (b : β) : β :=
  (List.range vs.length).foldl (fun n i =>
    match vs[i]?, vs[(i + 1) % vs.length]? with
    | some p, some q => body n p q
    | _, _ => n) b

/-- `Vector`, vector.py:6-13. -/
@[ext] structure Vec where
  x : ℝ
  y : ℝ
  z : ℝ

namespace Vec

/-- vector.py:35-36. -/
instance : DecidableEq Vec := fun _ _ => Classical.propDecidable _

/-- `__lt__`, vector.py:38-43. -/
def lt (a b : Vec) : Prop :=
  if a.x ≠ b.x then a.x < b.x
  else if a.y ≠ b.y then a.y < b.y
  else a.z < b.z

instance : LT Vec := ⟨lt⟩

/-- vector.py:45-46. -/
instance : Neg Vec := ⟨fun a => ⟨-a.x, -a.y, -a.z⟩⟩
/-- vector.py:48-49. -/
instance : Add Vec := ⟨fun a b => ⟨a.x + b.x, a.y + b.y, a.z + b.z⟩⟩
/-- vector.py:51-52. -/
instance : Sub Vec := ⟨fun a b => ⟨a.x - b.x, a.y - b.y, a.z - b.z⟩⟩
/-- vector.py:54-55. -/
instance : HMul Vec ℝ Vec := ⟨fun a s => ⟨a.x * s, a.y * s, a.z * s⟩⟩
/-- `Vector()`. -/
instance : Zero Vec := ⟨⟨0, 0, 0⟩⟩

/-- `__truediv__`, vector.py:57-58, with Python's exception for a zero divisor. -/
def div (a : Vec) (s : ℝ) : Py Vec :=
  if s = 0 then .error .zeroDivision else .ok ⟨a.x / s, a.y / s, a.z / s⟩

/-- vector.py:60-70. -/
def xy (a : Vec) : Vec := ⟨a.x, a.y, 0⟩
def xz (a : Vec) : Vec := ⟨a.x, 0, a.z⟩
def yz (a : Vec) : Vec := ⟨0, a.y, a.z⟩

/-- vector.py:72-79. -/
def mirroredX (a : Vec) : Vec := ⟨-a.x, a.y, a.z⟩
def mirroredY (a : Vec) : Vec := ⟨a.x, -a.y, a.z⟩
def mirroredZ (a : Vec) : Vec := ⟨a.x, a.y, -a.z⟩

/-- vector.py:81-82. -/
def translated (a v : Vec) : Vec := a + v

/-- `snapped`, vector.py:98-103. -/
def snapped (a : Vec) : Vec :=
  ⟨if isZero a.x then 0 else a.x, if isZero a.y then 0 else a.y, if isZero a.z then 0 else a.z⟩

/-- vector.py:108-112. -/
def cross (a b : Vec) : Vec :=
  ⟨a.y * b.z - a.z * b.y, a.z * b.x - a.x * b.z, a.x * b.y - a.y * b.x⟩

/-- vector.py:114-115. -/
def dot (a b : Vec) : ℝ := a.x * b.x + a.y * b.y + a.z * b.z

/-- vector.py:117-118. -/
def magnitude (a : Vec) : ℝ := Real.sqrt (a.x * a.x + a.y * a.y + a.z * a.z)

/-- vector.py:120-121. -/
def magSquared (a : Vec) : ℝ := a.x * a.x + a.y * a.y + a.z * a.z

/-- vector.py:105-106. -/
def normalized (a : Vec) : Py Vec := a.div a.magnitude

/-- `angleBetween`, vector.py:123-126. -/
def angleBetween (a b : Vec) : Py ℝ := do
  let a ← a.normalized
  let b ← b.normalized
  pure (Real.arccos (max (-1) (min (a.dot b) 1)))

/-- vector.py:128-132. -/
def isClose (a b : Vec) : Prop := isZero (a.x - b.x) ∧ isZero (a.y - b.y) ∧ isZero (a.z - b.z)

/-- vector.py:134-136. -/
def ortho2D (a : Vec) : Vec := ⟨-a.y, a.x, 0⟩

/-- vector.py:143-144. -/
def magnitude2D (a : Vec) : ℝ := Real.sqrt (a.x * a.x + a.y * a.y)

/-- vector.py:138-141. -/
def normalized2D (a : Vec) : Py Vec :=
  if a.magnitude2D = 0 then .error .zeroDivision
  else .ok ⟨a.x / a.magnitude2D, a.y / a.magnitude2D, 0⟩

/-- vector.py:146-147. -/
def magSquared2D (a : Vec) : ℝ := a.x * a.x + a.y * a.y

/-- The sum of `fromSurfaceNormal`, vector.py:15-26, before normalisation. -/
def newell (vs : List Vec) : Vec :=
  forCyc vs (fun n p q => n + ⟨(p.y - q.y) * (p.z + q.z), (p.z - q.z) * (p.x + q.x),
    (p.x - q.x) * (p.y + q.y)⟩) 0

/-- `fromSurfaceNormal`, vector.py:15-26. -/
def fromSurfaceNormal (vs : List Vec) : Py Vec := (newell vs).normalized

end Vec

/-! ### Projections of the operations -/

namespace Vec
variable (a b : Vec) (s : ℝ)

@[simp] theorem neg_x : (-a).x = -a.x := rfl
@[simp] theorem neg_y : (-a).y = -a.y := rfl
@[simp] theorem neg_z : (-a).z = -a.z := rfl
@[simp] theorem add_x : (a + b).x = a.x + b.x := rfl
@[simp] theorem add_y : (a + b).y = a.y + b.y := rfl
@[simp] theorem add_z : (a + b).z = a.z + b.z := rfl
@[simp] theorem sub_x : (a - b).x = a.x - b.x := rfl
@[simp] theorem sub_y : (a - b).y = a.y - b.y := rfl
@[simp] theorem sub_z : (a - b).z = a.z - b.z := rfl
@[simp] theorem mul_x : (a * s).x = a.x * s := rfl
@[simp] theorem mul_y : (a * s).y = a.y * s := rfl
@[simp] theorem mul_z : (a * s).z = a.z * s := rfl
@[simp] theorem zero_x : (0 : Vec).x = 0 := rfl
@[simp] theorem zero_y : (0 : Vec).y = 0 := rfl
@[simp] theorem zero_z : (0 : Vec).z = 0 := rfl

theorem magSquared_nonneg : 0 ≤ a.magSquared := by
  unfold magSquared; nlinarith [mul_self_nonneg a.x, mul_self_nonneg a.y, mul_self_nonneg a.z]

theorem magnitude_sq : a.magnitude * a.magnitude = a.magSquared := Real.mul_self_sqrt a.magSquared_nonneg

theorem magnitude_nonneg : 0 ≤ a.magnitude := Real.sqrt_nonneg _

theorem magnitude_eq_zero : a.magnitude = 0 ↔ a = 0 := by
  constructor
  · intro h
    have h2 : a.x * a.x + a.y * a.y + a.z * a.z = 0 := by
      have := a.magnitude_sq; rw [h] at this; simpa [magSquared] using this.symm
    have hx : a.x = 0 := by nlinarith [mul_self_nonneg a.x, mul_self_nonneg a.y, mul_self_nonneg a.z]
    have hy : a.y = 0 := by nlinarith [mul_self_nonneg a.x, mul_self_nonneg a.y, mul_self_nonneg a.z]
    have hz : a.z = 0 := by nlinarith [mul_self_nonneg a.x, mul_self_nonneg a.y, mul_self_nonneg a.z]
    ext <;> assumption
  · rintro rfl; simp [magnitude]

/-- What `normalized` does, in one line. -/
theorem normalized_ok (h : a ≠ 0) :
    ∃ n, a.normalized = .ok n ∧ a = n * a.magnitude ∧ n.dot n = 1 ∧ 0 < a.magnitude := by
  have h0 : a.magnitude ≠ 0 := fun h' => h (a.magnitude_eq_zero.mp h')
  have hp : 0 < a.magnitude := lt_of_le_of_ne a.magnitude_nonneg (Ne.symm h0)
  refine ⟨_, by unfold normalized div; rw [if_neg h0], ?_, ?_, hp⟩
  · ext <;> simp <;> field_simp
  · have := a.magnitude_sq
    simp only [dot, magSquared] at this ⊢
    field_simp
    nlinarith

theorem normalized_zero : (0 : Vec).normalized = .error .zeroDivision := by
  unfold normalized div; rw [if_pos ((magnitude_eq_zero 0).mpr rfl)]

theorem normalized_error {e} : a.normalized = .error e ↔ a = 0 ∧ e = .zeroDivision := by
  by_cases h : a = 0
  · subst h; rw [normalized_zero]; simp [eq_comm]
  · obtain ⟨n, h1, -⟩ := a.normalized_ok h
    simp [h1, h]

end Vec




end

end Geo
end Chrumm
