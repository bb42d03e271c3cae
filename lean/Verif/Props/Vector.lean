import Verif.Spec.Geometry
import Mathlib.Data.List.Sort
import Mathlib.Analysis.SpecialFunctions.Complex.Arg

/-! C19-C24: vectors, matrices, mirroring. -/

namespace Chrumm.Geo
open Spec Classical

/-! ### C19 -/

theorem Vec.lt_iff (a b : Vec) : a < b ↔
    a.x < b.x ∨ (a.x = b.x ∧ (a.y < b.y ∨ (a.y = b.y ∧ a.z < b.z))) := by
  show Vec.lt a b ↔ _
  unfold Vec.lt
  by_cases h1 : a.x = b.x
  · by_cases h2 : a.y = b.y
    · simp [h1, h2]
    · simp [h1, h2]
  · simp [h1]

/-- **C19** `<` on vectors is irreflexive and transitive, and any two different vectors compare in
exactly one direction. -/
theorem C19_strict_total_order :
    (∀ a : Vec, ¬ a < a) ∧ (∀ a b c : Vec, a < b → b < c → a < c) ∧
      (∀ a b : Vec, a ≠ b ↔ a < b ∨ b < a) ∧ ∀ a b : Vec, a < b → ¬ b < a := by
  refine ⟨?_, ?_, ?_, ?_⟩
  · intro a h; rw [Vec.lt_iff] at h; simp at h
  · intro a b c h1 h2
    rw [Vec.lt_iff] at *
    rcases h1 with h1 | ⟨h1, h1 | ⟨h1', h1''⟩⟩ <;> rcases h2 with h2 | ⟨h2, h2 | ⟨h2', h2''⟩⟩
    · left; linarith
    · left; linarith
    · left; linarith
    · left; linarith
    · right; exact ⟨by linarith, Or.inl (by linarith)⟩
    · right; exact ⟨by linarith, Or.inl (by linarith)⟩
    · left; linarith
    · right; exact ⟨by linarith, Or.inl (by linarith)⟩
    · right; exact ⟨by linarith, Or.inr ⟨by linarith, by linarith⟩⟩
  · intro a b
    rw [Vec.lt_iff, Vec.lt_iff]
    constructor
    · intro h
      rcases lt_trichotomy a.x b.x with hx | hx | hx
      · left; left; exact hx
      · rcases lt_trichotomy a.y b.y with hy | hy | hy
        · left; right; exact ⟨hx, Or.inl hy⟩
        · rcases lt_trichotomy a.z b.z with hz | hz | hz
          · left; right; exact ⟨hx, Or.inr ⟨hy, hz⟩⟩
          · exact absurd (Vec.ext hx hy hz) h
          · right; right; exact ⟨hx.symm, Or.inr ⟨hy.symm, hz⟩⟩
        · right; right; exact ⟨hx.symm, Or.inl hy⟩
      · right; left; exact hx
    · rintro h rfl; simp at h
  · intro a b h1 h2
    rw [Vec.lt_iff] at *
    rcases h1 with h1 | ⟨h1, h1 | ⟨h1', h1''⟩⟩ <;> rcases h2 with h2 | ⟨h2, h2 | ⟨h2', h2''⟩⟩ <;>
      linarith

/-- **C19** Sorting is deterministic: two sorted arrangements of the same points are equal. -/
theorem C19_sorting_deterministic (l l' : List Vec) (hp : l.Perm l')
    (h : l.Pairwise fun a b => ¬ b < a) (h' : l'.Pairwise fun a b => ¬ b < a) : l = l' := by
  refine hp.eq_of_pairwise ?_ h h'
  intro a b _ _ h1 h2
  by_contra hne
  rcases (C19_strict_total_order.2.2.1 a b).mp hne with h | h
  · exact h2 h
  · exact h1 h

example : (⟨1, 2, 3⟩ : Vec) < ⟨1, 2, 4⟩ := by rw [Vec.lt_iff]; norm_num

/-! ### C20 -/

private theorem snap_coord (x : ℝ) :
    let y := if isZero x then (0 : ℝ) else x
    (|x| < 1e-6 → y = 0) ∧ (1e-6 ≤ |x| → y = x) ∧ |y - x| < 1e-6 ∧ (if isZero y then (0 : ℝ) else y) = y := by
  have e : (1e-6 : ℝ) = 1 / 1000000 := by norm_num
  unfold isZero
  rw [e]
  by_cases h : |x| < 1 / 1000000
  · simp only [h, if_true, true_implies, zero_sub, abs_neg, true_and]
    exact ⟨fun h' => absurd h (not_lt.mpr h'), by split <;> rfl⟩
  · rw [if_neg h]
    refine ⟨fun h' => absurd h' h, fun _ => rfl, by simp, by rw [if_neg h]⟩

/-- **C20** -/
theorem C20_snapped (v : Vec) (f : Vec → ℝ) (hf : f = Vec.x ∨ f = Vec.y ∨ f = Vec.z) :
    (|f v| < 1e-6 → f v.snapped = 0) ∧ (1e-6 ≤ |f v| → f v.snapped = f v) ∧
      |f v.snapped - f v| < 1e-6 := by
  rcases hf with rfl | rfl | rfl
  · exact ⟨(snap_coord v.x).1, (snap_coord v.x).2.1, (snap_coord v.x).2.2.1⟩
  · exact ⟨(snap_coord v.y).1, (snap_coord v.y).2.1, (snap_coord v.y).2.2.1⟩
  · exact ⟨(snap_coord v.z).1, (snap_coord v.z).2.1, (snap_coord v.z).2.2.1⟩

theorem C20_idempotent (v : Vec) : v.snapped.snapped = v.snapped := by
  ext
  · exact (snap_coord v.x).2.2.2
  · exact (snap_coord v.y).2.2.2
  · exact (snap_coord v.z).2.2.2

example : (⟨1e-7, -1e-6, 2⟩ : Vec).snapped = ⟨0, -1e-6, 2⟩ := by
  ext <;> simp only [Vec.snapped, isZero] <;> norm_num [abs_of_pos, abs_of_neg]

/-! ### C21 -/

/-- Matrices that a user can build: the identity, mirrored, rotated, translated, aligned, products. -/
inductive Built : Mat → Prop
  | one : Built 1
  | mul {a b} : Built a → Built b → Built (a * b)
  | mirX {a} : Built a → Built a.mirroredX
  | mirY {a} : Built a → Built a.mirroredY
  | mirZ {a} : Built a → Built a.mirroredZ
  | rotX {a} (t c) : Built a → Built (a.rotatedX t c)
  | rotY {a} (t c) : Built a → Built (a.rotatedY t c)
  | rotZ {a} (t c) : Built a → Built (a.rotatedZ t c)
  | move {a} (v) : Built a → Built (a.translated v)
  | align {s t a} : Mat.fromAlignment s t = .ok a → Built a

open Mat in
theorem fromAlignment_affine {s t : Vec} {m : Mat} (h : Mat.fromAlignment s t = .ok m) : Affine m := by
  unfold fromAlignment at h
  rcases hs : s.normalized with e | s'
  · rw [hs] at h; simp [bind, Except.bind] at h
  rcases ht : t.normalized with e | t'
  · rw [hs, ht] at h; simp [bind, Except.bind] at h
  rw [hs, ht] at h
  simp only [bind, Except.bind, pure, Except.pure] at h
  split at h
  · cases h; exact Affine.one
  · split at h
    · cases h; exact Affine.one.mul ⟨rfl, rfl, rfl, rfl⟩
    · split at h
      · cases h
      · cases h
        refine ⟨?_, ?_, ?_, ?_⟩ <;> simp [add_def, smul_def, mul_def, one_def]

theorem Built.affine {m : Mat} (h : Built m) : Mat.Affine m := by
  induction h with
  | one => exact Mat.Affine.one
  | mul _ _ ha hb => exact ha.mul hb
  | mirX _ h => exact h.mul ⟨rfl, rfl, rfl, rfl⟩
  | mirY _ h => exact h.mul ⟨rfl, rfl, rfl, rfl⟩
  | mirZ _ h => exact h.mul ⟨rfl, rfl, rfl, rfl⟩
  | rotX t c _ h => exact h.rotateBy ⟨rfl, rfl, rfl, rfl⟩ c
  | rotY t c _ h => exact h.rotateBy ⟨rfl, rfl, rfl, rfl⟩ c
  | rotZ t c _ h => exact h.rotateBy ⟨rfl, rfl, rfl, rfl⟩ c
  | move v _ h => exact h.translated v
  | align h => exact fromAlignment_affine h

/-- **C21** Transforming by a product is transforming by the left and then by the right factor. -/
theorem C21_transform_product (a b : Mat) (h : Built a) (v : Vec) :
    v.transformed (a * b) = (v.transformed a).transformed b := Mat.transformed_mul h.affine b v

/-- **C21** The product is associative, `Matrix()` is neutral, and leaves every vector fixed. -/
theorem C21_monoid (a b c : Mat) (v : Vec) :
    (a * b) * c = a * (b * c) ∧ 1 * a = a ∧ a * 1 = a ∧ v.transformed 1 = v := by
  refine ⟨?_, ?_, ?_, ?_⟩
  · ext <;> simp only [Mat.mul_def] <;> ring
  · ext <;> simp [Mat.mul_def, Mat.one_def]
  · ext <;> simp [Mat.mul_def, Mat.one_def]
  · ext <;> simp [Vec.transformed, Mat.one_def]

/-- **C21** The chained methods act on the transformed point: mirroring and translating. -/
theorem C21_methods (m : Mat) (h : Built m) (v w : Vec) :
    v.transformed m.mirroredX = (v.transformed m).mirroredX ∧
    v.transformed m.mirroredY = (v.transformed m).mirroredY ∧
    v.transformed m.mirroredZ = (v.transformed m).mirroredZ ∧
    v.transformed (m.translated w) = (v.transformed m).translated w := by
  refine ⟨?_, ?_, ?_, Mat.transformed_translated h.affine v w⟩
  · unfold Mat.mirroredX
    rw [Mat.transformed_mul h.affine]; ext <;> simp [Vec.transformed, Vec.mirroredX]
  · unfold Mat.mirroredY
    rw [Mat.transformed_mul h.affine]; ext <;> simp [Vec.transformed, Vec.mirroredY]
  · unfold Mat.mirroredZ
    rw [Mat.transformed_mul h.affine]; ext <;> simp [Vec.transformed, Vec.mirroredZ]

/-- For matrices outside `Built` the product rule can fail, so the hypothesis matters. -/
example : ∃ a b : Mat, (0 : Vec).transformed (a * b) ≠ ((0 : Vec).transformed a).transformed b := by
  refine ⟨⟨0,0,0,0, 0,0,0,0, 0,0,0,0, 0,0,0,0⟩, ⟨1,0,0,0, 0,1,0,0, 0,0,1,0, 1,0,0,1⟩, ?_⟩
  intro h
  have := congrArg Vec.x h
  simp [Vec.transformed, Mat.mul_def] at this

example : Built ((1 : Mat).rotatedZ 1 (some ⟨1, 2, 3⟩) |>.translated ⟨0, 0, 5⟩ |>.mirroredX) :=
  .mirX (.move _ (.rotZ _ _ .one))

/-! ### C22 -/

/-- `rotatedX`, `rotatedY`, `rotatedZ` by axis. -/
noncomputable def rotated (m : Mat) : Axis → ℝ → Option Vec → Mat
  | .X, t, c => m.rotatedX t c
  | .Y, t, c => m.rotatedY t c
  | .Z, t, c => m.rotatedZ t c

private theorem rotated_affine {m : Mat} (h : Mat.Affine m) (ax t c) : Mat.Affine (rotated m ax t c) := by
  cases ax <;> exact h.rotateBy ⟨rfl, rfl, rfl, rfl⟩ c

private theorem rotated_none (m ax t v) (h : Mat.Affine m) :
    Vec.transformed v (rotated m ax t none) = Vec.transformed v (rotated m ax t (some 0)) := by
  cases ax <;> simp only [rotated, Mat.rotatedX, Mat.rotatedY, Mat.rotatedZ] <;>
    rw [Mat.transformed_rotateBy h ⟨rfl, rfl, rfl, rfl⟩] <;>
    simp only [Mat.rotateBy] <;> rw [Mat.transformed_mul h] <;>
    ext <;> simp [Vec.transformed]

/-- The rotation formula. -/
private theorem rotated_some (ax : Axis) (t : ℝ) (c v : Vec) :
    v.transformed (rotated 1 ax t (some c)) = match ax with
      | .X => ⟨v.x, (v.y - c.y) * Real.cos t - (v.z - c.z) * Real.sin t + c.y,
          (v.y - c.y) * Real.sin t + (v.z - c.z) * Real.cos t + c.z⟩
      | .Y => ⟨(v.x - c.x) * Real.cos t + (v.z - c.z) * Real.sin t + c.x, v.y,
          (v.z - c.z) * Real.cos t - (v.x - c.x) * Real.sin t + c.z⟩
      | .Z => ⟨(v.x - c.x) * Real.cos t - (v.y - c.y) * Real.sin t + c.x,
          (v.x - c.x) * Real.sin t + (v.y - c.y) * Real.cos t + c.y, v.z⟩ := by
  cases ax <;> simp only [rotated, Mat.rotatedX, Mat.rotatedY, Mat.rotatedZ] <;>
    rw [Mat.transformed_rotateBy Mat.Affine.one ⟨rfl, rfl, rfl, rfl⟩, (C21_monoid 1 1 1 _).2.2.2] <;>
    ext <;> simp [Vec.transformed] <;> ring

private theorem rotated_polar (ax : Axis) (t u r h : ℝ) (c : Vec) :
    (polar ax c r u h).transformed (rotated 1 ax t (some c)) = polar ax c r (u + t) h := by
  cases ax <;> simp only [rotated, Mat.rotatedX, Mat.rotatedY, Mat.rotatedZ] <;>
    rw [Mat.transformed_rotateBy Mat.Affine.one ⟨rfl, rfl, rfl, rfl⟩, (C21_monoid 1 1 1 _).2.2.2] <;>
    ext <;> simp [Vec.transformed, polar, Real.cos_add, Real.sin_add] <;> ring

private theorem exists_polar (ax : Axis) (c p : Vec) : ∃ r t h, p = polar ax c r t h := by
  have key : ∀ a b : ℝ, ∃ r t : ℝ, a = r * Real.cos t ∧ b = r * Real.sin t := by
    intro a b
    refine ⟨‖(⟨a, b⟩ : ℂ)‖, Complex.arg ⟨a, b⟩, ?_, ?_⟩
    · exact (Complex.norm_mul_cos_arg ⟨a, b⟩).symm
    · exact (Complex.norm_mul_sin_arg ⟨a, b⟩).symm
  cases ax
  · obtain ⟨r, t, h1, h2⟩ := key (p.y - c.y) (p.z - c.z)
    exact ⟨r, t, p.x - c.x, by ext <;> simp only [polar] <;> linarith⟩
  · obtain ⟨r, t, h1, h2⟩ := key (p.z - c.z) (p.x - c.x)
    exact ⟨r, t, p.y - c.y, by ext <;> simp only [polar] <;> linarith⟩
  · obtain ⟨r, t, h1, h2⟩ := key (p.x - c.x) (p.y - c.y)
    exact ⟨r, t, p.z - c.z, by ext <;> simp only [polar] <;> linarith⟩

/-- **C22** A rotation turns every point counter-clockwise around the axis through the centre: the
point at angle `u` goes to angle `u + t`, same radius and height. (Every point has such coordinates,
`C22_polar_exists`.) In particular points of the axis (radius 0) stay fixed. Without a centre, the
rotation is around the origin. -/
theorem C22_turns (ax : Axis) (t u r h : ℝ) (c : Vec) :
    (polar ax c r u h).transformed (rotated 1 ax t (some c)) = polar ax c r (u + t) h ∧
    (polar ax 0 r u h).transformed (rotated 1 ax t none) = polar ax 0 r (u + t) h ∧
    (polar ax c 0 u h).transformed (rotated 1 ax t (some c)) = polar ax c 0 u h := by
  refine ⟨rotated_polar .., ?_, ?_⟩
  · rw [rotated_none _ _ _ _ Mat.Affine.one]; exact rotated_polar ..
  · rw [rotated_polar]; cases ax <;> simp [polar]

theorem C22_polar_exists (ax : Axis) (c p : Vec) : ∃ r t h, p = polar ax c r t h := exists_polar ax c p

/-- **C22** Rotations are rigid: they preserve all distances and the orientation. -/
theorem C22_rigid (ax : Axis) (t : ℝ) (c : Option Vec) :
    Rigid fun v => v.transformed (rotated 1 ax t c) := by
  have hs := Real.sin_sq_add_cos_sq t
  have key : ∀ c : Vec, Rigid fun v => v.transformed (rotated 1 ax t (some c)) := by
    intro c
    have hx := rotated_some .X t c
    have hy := rotated_some .Y t c
    have hz := rotated_some .Z t c
    cases ax <;> refine ⟨fun p q => ?_, fun o p q r => ?_⟩ <;>
      simp only [hx, hy, hz, distSq, orient]
    · linear_combination ((p.y - q.y) ^ 2 + (p.z - q.z) ^ 2) * hs
    · linear_combination ((p.x - o.x) * ((q.y - o.y) * (r.z - o.z) - (q.z - o.z) * (r.y - o.y)) -
        (p.y - o.y) * ((q.x - o.x) * (r.z - o.z) - (q.z - o.z) * (r.x - o.x)) +
        (p.z - o.z) * ((q.x - o.x) * (r.y - o.y) - (q.y - o.y) * (r.x - o.x))) * hs
    · linear_combination ((p.x - q.x) ^ 2 + (p.z - q.z) ^ 2) * hs
    · linear_combination ((p.x - o.x) * ((q.y - o.y) * (r.z - o.z) - (q.z - o.z) * (r.y - o.y)) -
        (p.y - o.y) * ((q.x - o.x) * (r.z - o.z) - (q.z - o.z) * (r.x - o.x)) +
        (p.z - o.z) * ((q.x - o.x) * (r.y - o.y) - (q.y - o.y) * (r.x - o.x))) * hs
    · linear_combination ((p.x - q.x) ^ 2 + (p.y - q.y) ^ 2) * hs
    · linear_combination ((p.x - o.x) * ((q.y - o.y) * (r.z - o.z) - (q.z - o.z) * (r.y - o.y)) -
        (p.y - o.y) * ((q.x - o.x) * (r.z - o.z) - (q.z - o.z) * (r.x - o.x)) +
        (p.z - o.z) * ((q.x - o.x) * (r.y - o.y) - (q.y - o.y) * (r.x - o.x))) * hs
  cases c with
  | none =>
    have : (fun v => Vec.transformed v (rotated 1 ax t none)) =
        fun v => Vec.transformed v (rotated 1 ax t (some 0)) := by
      funext v; exact rotated_none _ _ _ _ Mat.Affine.one
    rw [this]; exact key 0
  | some c => exact key c

/-- **C22** The centre is fixed; rotations about the same axis compose by adding the angles; the
angle 0 does nothing. -/
theorem C22_compose (ax : Axis) (t u : ℝ) (c v : Vec) :
    c.transformed (rotated 1 ax t (some c)) = c ∧
    v.transformed (rotated (rotated 1 ax t (some c)) ax u (some c)) =
      v.transformed (rotated 1 ax (t + u) (some c)) ∧
    v.transformed (rotated 1 ax 0 (some c)) = v := by
  have hc : ∀ ax : Axis, polar ax c 0 0 0 = c := by intro ax; cases ax <;> simp [polar]
  refine ⟨?_, ?_, ?_⟩
  · have := (C22_turns ax t 0 0 0 c).2.2
    rwa [hc] at this
  · have : v.transformed (rotated (rotated 1 ax t (some c)) ax u (some c)) =
        (v.transformed (rotated 1 ax t (some c))).transformed (rotated 1 ax u (some c)) := by
      have h1 := rotated_affine Mat.Affine.one ax t (some c)
      cases ax <;> simp only [rotated, Mat.rotatedX, Mat.rotatedY, Mat.rotatedZ] at h1 ⊢ <;>
        rw [Mat.transformed_rotateBy h1 ⟨rfl, rfl, rfl, rfl⟩,
          Mat.transformed_rotateBy Mat.Affine.one ⟨rfl, rfl, rfl, rfl⟩ (Vec.transformed v _),
          (C21_monoid 1 1 1 (Vec.transformed v _)).2.2.2]
    rw [this]
    obtain ⟨r, a, h, rfl⟩ := exists_polar ax c v
    rw [rotated_polar, rotated_polar, rotated_polar, add_assoc]
  · obtain ⟨r, a, h, rfl⟩ := exists_polar ax c v
    rw [rotated_polar, add_zero]

/-- A quarter turn about z through (1, 0, 0) takes the origin to (1, -1, 0). -/
example : (0 : Vec).transformed ((1 : Mat).rotatedZ (Real.pi / 2) (some ⟨1, 0, 0⟩)) = ⟨1, -1, 0⟩ := by
  unfold Mat.rotatedZ
  rw [Mat.transformed_rotateBy Mat.Affine.one ⟨rfl, rfl, rfl, rfl⟩, (C21_monoid 1 1 1 _).2.2.2]
  ext <;> simp [Vec.transformed]

/-! ### C24 -/

/-- **C24** Mirroring twice gives the original vector or triangle. -/
theorem C24_involution (v : Vec) (t : Tri Vec) :
    v.mirroredX.mirroredX = v ∧ v.mirroredY.mirroredY = v ∧ v.mirroredZ.mirroredZ = v ∧
    t.mirroredX.mirroredX = t ∧ t.reversed.reversed = t ∧
    t.mirroredX.reversed.mirroredX.reversed = t := by
  refine ⟨?_, ?_, ?_, ?_, ?_, ?_⟩ <;> ext <;>
    simp [Vec.mirroredX, Vec.mirroredY, Vec.mirroredZ, Tri.mirroredX, Tri.map, Tri.reversed]

/-- **C24** Mirroring alone turns the normal into the negated mirror image (the surface would be
inside out); mirroring and reversing gives exactly the mirrored normal, with the same area. -/
theorem C24_normal (t : Tri Vec) :
    normalOf t.mirroredX = -(normalOf t).mirroredX ∧
    normalOf t.mirroredX.reversed = (normalOf t).mirroredX ∧
    t.mirroredX.reversed.area = t.area := by
  have e : normalOf t.mirroredX.reversed = (normalOf t).mirroredX := by
    ext <;> simp [normalOf, Vec.mirroredX, Tri.mirroredX, Tri.map, Tri.reversed, Vec.cross] <;> ring
  refine ⟨?_, e, ?_⟩
  · ext <;> simp [normalOf, Vec.mirroredX, Tri.mirroredX, Tri.map, Vec.cross] <;> ring
  · have : t.mirroredX.reversed.area = (normalOf t.mirroredX.reversed).magnitude / 2 := rfl
    rw [this, e]
    simp [Tri.area, normalOf, Vec.mirroredX, Vec.magnitude]

/-- **C24** The enclosed volume of a mirrored and reversed mesh equals that of the original mesh. -/
theorem C24_volume (ts : List (Tri Vec)) :
    volume6 (ts.map fun t => t.mirroredX.reversed) = volume6 ts := by
  unfold volume6
  rw [List.map_map]
  congr 1
  refine List.map_congr_left fun t _ => ?_
  simp [Vec.mirroredX, Tri.mirroredX, Tri.map, Tri.reversed, Vec.cross, Vec.dot]
  ring

example : (normalOf (⟨⟨0,0,0⟩, ⟨1,0,0⟩, ⟨0,1,0⟩⟩ : Tri Vec).mirroredX.reversed).z = 1 := by
  simp [normalOf, Vec.mirroredX, Tri.mirroredX, Tri.map, Tri.reversed, Vec.cross]

end Chrumm.Geo
