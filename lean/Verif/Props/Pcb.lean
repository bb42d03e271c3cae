import Verif.Spec.Pcb
import Verif.Props.PlanExample
import Verif.Props.PlanMore

/-! C52: the circuit board. -/

namespace Chrumm.Part
open Geo Geo.Spec
open Part.Spec

noncomputable section

/-! ### Flattening -/

theorem rotY_transformed (a : ℝ) (v : Vec) : v.transformed ((1 : Mat).rotatedY a) =
    ⟨v.x * Real.cos a + v.z * Real.sin a, v.y, v.z * Real.cos a - v.x * Real.sin a⟩ := by
  unfold Mat.rotatedY Mat.rotateBy
  dsimp only
  rw [one_mul_mat]
  ext <;> simp [Vec.transformed] <;> ring

theorem pinkyAlign_eq (body : BodyCfg) : pinkyAlign body =
    (1 : Mat).rotatedZ (-body.splitAngle) * (1 : Mat).rotatedX (-body.tiltAngle) * (1 : Mat).rotatedY (-body.pinkyTentAngle) := by
  unfold pinkyAlign Mat.rotatedX Mat.rotatedY Mat.rotateBy
  dsimp only
  rw [one_mul_mat, one_mul_mat]

theorem pinkyAlign_motion (body : BodyCfg) : Motion (pinkyAlign body) := by
  rw [pinkyAlign_eq]
  exact ((rotZ_motion _ _).mul (rotX_motion _ _)).mul (rotY_motion _ _)

/-- The alignment undoes tilt and split. -/
theorem align_undoes (body : BodyCfg) (d : Vec) : ∃ c : Vec, ∀ v : Vec,
    (v.transformed (tiltSplitMatrix body * shift d)).transformed (pinkyAlign body) =
      ⟨v.x * Real.cos body.pinkyTentAngle - v.z * Real.sin body.pinkyTentAngle, v.y,
        v.z * Real.cos body.pinkyTentAngle + v.x * Real.sin body.pinkyTentAngle⟩ + c := by
  refine ⟨d.transformed (pinkyAlign body), fun v => ?_⟩
  rw [Mat.transformed_mul (tiltSplit_motion _).1, shift_apply, tiltSplit_apply, pinkyAlign_eq,
    Mat.transformed_mul ((rotZ_motion _ _).mul (rotX_motion _ _)).1, Mat.transformed_mul (rotZ_motion _ _).1,
    Mat.transformed_mul ((rotZ_motion _ _).mul (rotX_motion _ _)).1, Mat.transformed_mul (rotZ_motion _ _).1]
  simp only [rotX_transformed, rotY_transformed, rotZ_transformed, Real.cos_neg, Real.sin_neg]
  have h1 := Real.sin_sq_add_cos_sq body.tiltAngle
  have h2 := Real.sin_sq_add_cos_sq body.splitAngle
  generalize Real.sin body.tiltAngle = st at *
  generalize Real.cos body.tiltAngle = ct at *
  generalize Real.sin body.splitAngle = ss at *
  generalize Real.cos body.splitAngle = cs at *
  generalize Real.sin body.pinkyTentAngle = sp at *
  generalize Real.cos body.pinkyTentAngle = cp at *
  ext
  · simp only [Vec.add_x, Vec.add_y, Vec.add_z]
    linear_combination (v.x * cp + v.y * ct * st * sp - v.z * st ^ 2 * sp) * h2 - v.z * sp * h1
  · simp only [Vec.add_x, Vec.add_y, Vec.add_z]
    linear_combination (v.y * ct ^ 2 - ct * v.z * st) * h2 + v.y * h1
  · simp only [Vec.add_x, Vec.add_y, Vec.add_z]
    linear_combination (v.x * sp - v.y * ct * st * cp + v.z * st ^ 2 * cp) * h2 + v.z * cp * h1

/-- The alignment turns the groups by their angle to the pinky group. -/
theorem align_turn (body : BodyCfg) (d pivot : Vec) : ∃ c : Vec, ∀ (a : ℝ) (v e : Vec), e.x = 0 → e.z = 0 →
    ((v.transformed (turn a pivot) + e).transformed (tiltSplitMatrix body * shift d)).transformed (pinkyAlign body) =
      (v.transformed (turn (a - body.pinkyTentAngle) pivot)) + e + c := by
  obtain ⟨c, hc⟩ := align_undoes body d
  refine ⟨⟨pivot.x * Real.cos body.pinkyTentAngle - pivot.z * Real.sin body.pinkyTentAngle, pivot.y,
        pivot.z * Real.cos body.pinkyTentAngle + pivot.x * Real.sin body.pinkyTentAngle⟩ - pivot + c, fun a v e ex ez => ?_⟩
  rw [hc, turn_apply, turn_apply, Real.cos_sub, Real.sin_sub]
  ext <;> simp only [Vec.add_x, Vec.add_y, Vec.add_z, Vec.sub_x, Vec.sub_y, Vec.sub_z, ex, ez] <;> ring

/-- The bend line of the circuit board, seen along the bend: both lines meet there. -/
theorem bend_ok {p q : Vec} {b : ℝ} (hb : 1 / 2 ≤ Real.cos b ^ 2) : ∃ m n r, Line.make q ⟨Real.sin b, 0, Real.cos b⟩ = .ok m ∧
    Line.make p ⟨1, 0, 0⟩ = .ok n ∧ n.intersect m = .ok r ∧ r.z = p.z ∧
      (r.x - q.x) * Real.cos b = (p.z - q.z) * Real.sin b := by
  have h1 := Real.sin_sq_add_cos_sq b
  have u1 : (⟨Real.sin b, 0, Real.cos b⟩ : Vec).dot ⟨Real.sin b, 0, Real.cos b⟩ = 1 := by
    simp only [Vec.dot]; linear_combination h1
  have u2 : (⟨1, 0, 0⟩ : Vec).dot ⟨1, 0, 0⟩ = 1 := by simp [Vec.dot]
  have hi := intersect_eq (l := ⟨p, ⟨1, 0, 0⟩⟩) (m := ⟨q, ⟨Real.sin b, 0, Real.cos b⟩⟩) u2 u1
  have e : (1 : ℝ) - (Vec.dot ⟨Real.sin b, 0, Real.cos b⟩ ⟨1, 0, 0⟩) ^ 2 = Real.cos b ^ 2 := by
    simp only [Vec.dot]; linear_combination -h1
  have hne : Real.cos b ≠ 0 := by
    intro h0; rw [h0] at hb; norm_num at hb
  dsimp only at hi
  rw [e, if_neg (by unfold isZero; rw [not_lt, abs_of_nonneg (sq_nonneg _)]; norm_num at hb ⊢; linarith)] at hi
  have eA : ((p - q).dot ⟨Real.sin b, 0, Real.cos b⟩ * Vec.dot ⟨Real.sin b, 0, Real.cos b⟩ ⟨1, 0, 0⟩ - (p - q).dot ⟨1, 0, 0⟩) /
      Real.cos b ^ 2 = -(p.x - q.x) + (p.z - q.z) * Real.sin b / Real.cos b := by
    simp only [Vec.dot, Vec.sub_x, Vec.sub_y, Vec.sub_z]
    field_simp
    linear_combination (p.x - q.x) * h1
  rw [eA] at hi
  refine ⟨_, _, _, make_unit u1, make_unit u2, hi, ?_, ?_⟩
  · simp only [Vec.dot, Vec.add_z, Vec.mul_z, Vec.sub_x, Vec.sub_y, Vec.sub_z]
    field_simp
    linear_combination (p.z - q.z) * Real.cos b * h1
  · simp only [Vec.dot, Vec.add_x, Vec.mul_x, Vec.sub_x, Vec.sub_y, Vec.sub_z]
    field_simp
    linear_combination (p.z - q.z) * Real.sin b * h1

/-- The greatest of the alnum keys stays the greatest when they are turned by less than a right angle. -/
theorem turned_lt {a : ℝ} (ha : 0 < Real.cos a) (pivot c u v : Vec) (hu : u.z = v.z) :
    u.transformed (turn a pivot) + c < v.transformed (turn a pivot) + c ↔ u < v := by
  rw [lt_add, turn_apply, turn_apply, Vec.lt_iff, Vec.lt_iff]
  dsimp only
  rw [hu]
  have h1 : (pivot.x + (u.x - pivot.x) * Real.cos a + (v.z - pivot.z) * Real.sin a <
      pivot.x + (v.x - pivot.x) * Real.cos a + (v.z - pivot.z) * Real.sin a) ↔ u.x < v.x := by
    constructor
    · intro h; nlinarith
    · intro h; nlinarith
  have h2 : (pivot.x + (u.x - pivot.x) * Real.cos a + (v.z - pivot.z) * Real.sin a =
      pivot.x + (v.x - pivot.x) * Real.cos a + (v.z - pivot.z) * Real.sin a) ↔ u.x = v.x := by
    constructor
    · intro h
      have : (u.x - v.x) * Real.cos a = 0 := by linear_combination h
      rcases mul_eq_zero.mp this with h | h
      · linarith
      · exact absurd h ha.ne'
    · intro h; rw [h]
  rw [h1, h2]
  constructor
  · rintro (h | ⟨hx, h | ⟨hy, h⟩⟩)
    · exact .inl h
    · exact .inr ⟨hx, .inl h⟩
    · rw [hx] at h; exact absurd h (lt_irrefl _)
  · rintro (h | ⟨hx, h | ⟨hy, h⟩⟩)
    · exact .inl h
    · exact .inr ⟨hx, .inl h⟩
    · exact absurd h (lt_irrefl _)

theorem not_lt_antisymm {u v : Vec} (h1 : ¬ u < v) (h2 : ¬ v < u) : u = v := by
  rw [Vec.lt_iff] at h1 h2
  push Not at h1 h2
  have ex : u.x = v.x := le_antisymm h2.1 h1.1
  have h1 := h1.2 ex
  have h2 := h2.2 ex.symm
  have ey : u.y = v.y := le_antisymm h2.1 h1.1
  have h1 := h1.2 ey
  have h2 := h2.2 ey.symm
  exact Vec.ext ex ey (le_antisymm h2 h1)

variable {cfg : PlanCfg} {side : Side} {plan : Plan}

/-- How a plan is flattened: seen from the flat layout, the pinky keys are moved by one vector, the alnum keys by the same
vector and a gap, the thumb keys are turned around the crease. -/
theorem flatten_made (hm : Made cfg side plan) (pcb : PcbCfg)
    (hang : |cfg.body.alnumTentAngle - cfg.body.pinkyTentAngle| < Real.pi / 2) :
    ∃ A P T off dy k1 xb, tentCreaseOffset cfg.layout cfg.body.alnumTentAngle cfg.body.pinkyTentAngle = .ok off ∧
      pyIndex (fingers hm.l0 1 none) 0 = .ok k1 ∧
      flattenLayout cfg.body cfg.switch pcb plan.layout = .ok (hm.l0.moved A P T) ∧ Motion A ∧ Motion P ∧ Motion T ∧
      (∀ v : Vec, v.transformed P = v - k1.position) ∧
      (∀ v : Vec, v.transformed A = v - k1.position + off - ⟨2 * (cfg.switch.innerHeight + pcb.thickness) *
        (Real.sin ((cfg.body.alnumTentAngle - cfg.body.pinkyTentAngle) / 2) /
          Real.cos ((cfg.body.alnumTentAngle - cfg.body.pinkyTentAngle) / 2)), 0, 0⟩) ∧
      (∀ v : Vec, v.transformed T = (v + off).transformed (turn (cfg.body.thumbTentAngle - cfg.body.pinkyTentAngle) hm.pivot) +
        ⟨0, dy, 0⟩ - k1.position) ∧
      (∀ (u v : Vec) (y : ℝ), u.transformed A = ⟨xb, y, -(cfg.switch.innerHeight + pcb.thickness)⟩ →
        v.transformed P = ⟨xb, y, -(cfg.switch.innerHeight + pcb.thickness)⟩ →
        u.transformed (hm.a * (hm.M * hm.D)) = v.transformed (hm.p * (hm.M * hm.D))) ∧
      ∃ R, Motion R ∧ P = hm.p * (hm.M * hm.D) * R ∧ T = hm.t * (hm.M * hm.D) * R := by
  obtain ⟨off, kA, kP, dy, hoff, ea, ep, et, -, mA, xA, mP, xP, hpiv⟩ := hm.arranged.parts
  obtain ⟨mo1, mo2, mo3⟩ := arranged_motions hm.arranged
  obtain ⟨f, -, ff⟩ := hm.flat
  have h2 := make_two hm.arranged.make
  have mQ := hm.motionM.mul hm.motionD
  have mN := pinkyAlign_motion cfg.body
  obtain ⟨c, hc⟩ := align_turn cfg.body ⟨hm.dx, 0, hm.dz⟩ hm.pivot
  rw [← hm.hM, ← hm.hD] at hc
  set N := pinkyAlign cfg.body with hN
  set Q := hm.M * hm.D with hQ
  set δ := cfg.body.alnumTentAngle - cfg.body.pinkyTentAngle with hδ
  have hcos : 0 < Real.cos δ := by
    rw [abs_lt] at hang
    exact Real.cos_pos_of_mem_Ioo ⟨by linarith [hang.1], hang.2⟩
  have oz : off.y = 0 ∧ off.z = 0 := by
    have h := hoff
    unfold tentCreaseOffset at h
    dsimp only at h
    obtain ⟨_, -, h⟩ := bind_ok h
    obtain ⟨_, -, h⟩ := bind_ok h
    cases h
    exact ⟨rfl, rfl⟩
  have hA : ∀ v : Vec, v.transformed (hm.a * Q * N) = (v + off).transformed (turn δ hm.pivot) + c := by
    intro v
    have := hc cfg.body.alnumTentAngle (v + off) 0 rfl rfl
    rw [Mat.transformed_mul (mo1.mul mQ).1, Mat.transformed_mul mo1.1, ea, Mat.transformed_mul (shift_motion _).1, shift_apply]
    rw [show ∀ w : Vec, w + 0 = w from fun w => by ext <;> simp, show ∀ w : Vec, w + 0 = w from fun w => by ext <;> simp] at this
    exact this
  have hT : ∀ v : Vec, v.transformed (hm.t * Q * N) =
      (v + off).transformed (turn (cfg.body.thumbTentAngle - cfg.body.pinkyTentAngle) hm.pivot) + ⟨0, dy, 0⟩ + c := by
    intro v
    have := hc cfg.body.thumbTentAngle (v + off) ⟨0, dy, 0⟩ rfl rfl
    rw [Mat.transformed_mul (mo3.mul mQ).1, Mat.transformed_mul mo3.1, et, Mat.transformed_mul ((shift_motion _).mul (turn_motion _ _)).1,
      Mat.transformed_mul (shift_motion _).1, shift_apply, shift_apply]
    exact this
  have hP : ∀ v : Vec, v.transformed (hm.p * Q * N) = v + c := by
    intro v
    have := hc cfg.body.pinkyTentAngle v 0 rfl rfl
    rw [show ∀ w : Vec, w + 0 = w from fun w => by ext <;> simp, show ∀ w : Vec, w + 0 = w from fun w => by ext <;> simp] at this
    rw [Mat.transformed_mul (mo2.mul mQ).1, Mat.transformed_mul mo2.1, ep, this, sub_self, turn_apply]
    ext <;> simp
  have mA' := (mo1.mul mQ).mul mN
  have mP' := (mo2.mul mQ).mul mN
  have mT' := (mo3.mul mQ).mul mN
  have el : plan.layout.mapAll (·.transform N) = hm.l0.moved (hm.a * Q * N) (hm.p * Q * N) (hm.t * Q * N) := by
    rw [mapAll_eq, hm.layout0, Layout.moved_moved]
  have fA : ∀ k ∈ fingers hm.l0 0 none, Flat f k := ff none .alnum
  have fP : ∀ k ∈ fingers hm.l0 1 none, Flat f k := ff none .pinky
  have lvl : ∀ k : Key, Flat f k → k.position.z = 0 := fun k hk => by
    exact hk.level 0
  have h2N := h2.moved (hm.a * Q * N) (hm.p * Q * N) (hm.t * Q * N)
  -- the greatest alnum key
  have eFA : fingers (hm.l0.moved (hm.a * Q * N) (hm.p * Q * N) (hm.t * Q * N)) 0 none =
      (fingers hm.l0 0 none).map (·.transform (hm.a * Q * N)) := fingers_moved _ _ _ _ _ (by norm_num) _
  have eFP : fingers (hm.l0.moved (hm.a * Q * N) (hm.p * Q * N) (hm.t * Q * N)) 1 none =
      (fingers hm.l0 1 none).map (·.transform (hm.p * Q * N)) := fingers_moved _ _ _ _ _ (by norm_num) _
  obtain ⟨K, hK⟩ := maxBy_succeeds Vec.lt Key.position (l := (fingers hm.l0 0 none).map fun k : Key => k.transform (hm.a * Q * N))
    (by simpa using List.ne_nil_of_mem mA)
  obtain ⟨L, hL⟩ : ∃ L, Layout.minBy Vec.lt Key.position ((fingers hm.l0 1 none).map fun k : Key => k.transform (hm.p * Q * N)) = .ok L := by
    cases hl : (fingers hm.l0 1 none).map fun k : Key => k.transform (hm.p * Q * N) with
    | nil => exact absurd (List.map_eq_nil_iff.mp hl) (List.ne_nil_of_mem mP)
    | cons x l => exact ⟨_, rfl⟩
  have posA : ∀ k ∈ fingers hm.l0 0 none, (k.transform (hm.a * Q * N)).position = (k.position + off).transformed (turn δ hm.pivot) + c := by
    intro k hk
    rw [Key.position_transform (fA k hk).motion.1, hA]
  have posP : ∀ k ∈ fingers hm.l0 1 none, (k.transform (hm.p * Q * N)).position = k.position + c := by
    intro k hk
    rw [Key.position_transform (fP k hk).motion.1, hP]
  have eK : K.position = (kA.position + off).transformed (turn δ hm.pivot) + c := by
    obtain ⟨k1, k2⟩ := maxBy_ok hK lt_trans3.2.1 lt_trans3.1 lt_trans3.2.2
    obtain ⟨K0, hK0, rfl⟩ := List.mem_map.mp k1
    have := k2 _ (List.mem_map.mpr ⟨kA, mA, rfl⟩)
    rw [posA _ hK0, posA _ mA] at this
    change ¬ ((_ : Vec) < _) at this
    rw [turned_lt hcos _ _ _ _ (by simp [lvl _ (fA _ hK0), lvl _ (fA _ mA)]), lt_add] at this
    rw [posA _ hK0, not_lt_antisymm this (xA _ hK0)]
  have eL : L.position = kP.position + c := by
    obtain ⟨k1, k2⟩ := minBy_ok hL lt_trans3.2.1 lt_trans3.1 lt_trans3.2.2
    obtain ⟨K0, hK0, rfl⟩ := List.mem_map.mp k1
    have := k2 _ (List.mem_map.mpr ⟨kP, mP, rfl⟩)
    rw [posP _ hK0, posP _ mP] at this
    change ¬ ((_ : Vec) < _) at this
    rw [lt_add] at this
    rw [posP _ hK0, not_lt_antisymm this (xP _ hK0)]
  obtain ⟨m, n, r, b1, b2, b3, rz, rx⟩ := bend_ok (b := δ / 2) (p := L.position - ⟨0, 0, cfg.switch.innerHeight + pcb.thickness⟩)
    (q := (K.position + L.position) * (1 / 2 : ℝ)) (by rw [Real.cos_sq]; rw [mul_div_cancel₀ _ (two_ne_zero)]; linarith)
  obtain ⟨k1, t1, ek1⟩ : ∃ k1 t1, fingers hm.l0 1 none = k1 :: t1 := List.exists_cons_of_ne_nil (List.ne_nil_of_mem mP)
  have hk1 : pyIndex (fingers hm.l0 1 none) 0 = .ok k1 := by rw [ek1]; rfl
  refine ⟨hm.a * Q * N * turn (-δ) r * shift (-(k1.position + c)), hm.p * Q * N * shift (-(k1.position + c)),
    hm.t * Q * N * shift (-(k1.position + c)), off, dy, k1, r.x - (k1.position + c).x, hoff, hk1, ?_, (mA'.mul (turn_motion _ _)).mul (shift_motion _),
    mP'.mul (shift_motion _), mT'.mul (shift_motion _), ?_, ?_, ?_, ?_,
    N * shift (-(k1.position + c)), mN.mul (shift_motion _), (C21_monoid _ _ _ 0).1, (C21_monoid _ _ _ 0).1⟩
  · unfold flattenLayout
    rw [allKeys_ok hm.two]
    dsimp only [bind, Except.bind]
    rw [el]
    unfold Layout.maxAlnum Layout.minPinky
    rw [alnum_ok h2N, pinky_ok h2N, eFA, eFP]
    dsimp only [bind, Except.bind]
    rw [hK]
    dsimp only
    rw [hL]
    dsimp only
    unfold Vec.div
    rw [if_neg (by norm_num : ¬ (2 : ℝ) = 0)]
    dsimp only
    rw [show (⟨(K.position + L.position).x / 2, (K.position + L.position).y / 2, (K.position + L.position).z / 2⟩ : Vec) =
      (K.position + L.position) * (1 / 2 : ℝ) by ext <;> simp only [Vec.mul_x, Vec.mul_y, Vec.mul_z] <;> ring, b1]
    dsimp only
    rw [b2]
    dsimp only
    rw [b3]
    dsimp only
    rw [mapGroup0_eq, show (1 : Mat).rotatedY (-δ) (some r) = turn (-δ) r from rfl, Layout.moved_moved,
      (C21_monoid (hm.p * Q * N) 1 1 0).2.2.1, (C21_monoid (hm.t * Q * N) 1 1 0).2.2.1, pinky_ok (h2.moved _ _ _),
      fingers_moved _ _ _ _ _ (by norm_num), if_neg one_ne_zero]
    dsimp only
    rw [pyIndex_map, hk1]
    dsimp only [Except.map]
    rw [allKeys_ok (h2.moved _ _ _), translate_fun, mapAll_eq, Layout.moved_moved, posP k1 (by rw [ek1]; simp)]
    rfl
  · intro v
    rw [Mat.transformed_mul mP'.1, hP, shift_apply]
    ext <;> simp only [Vec.add_x, Vec.add_y, Vec.add_z, Vec.sub_x, Vec.sub_y, Vec.sub_z, Vec.neg_x, Vec.neg_y, Vec.neg_z] <;> ring
  · intro v
    rw [Mat.transformed_mul (mA'.mul (turn_motion _ _)).1, Mat.transformed_mul mA'.1, hA, shift_apply]
    have hk : Real.cos (δ / 2) ≠ 0 := by
      intro h0
      have := Real.cos_sq (δ / 2)
      rw [mul_div_cancel₀ _ (two_ne_zero), h0] at this
      linarith
    have e1 : Real.sin δ = 2 * Real.sin (δ / 2) * Real.cos (δ / 2) := by
      rw [← Real.sin_two_mul]; congr 1; ring
    have e2 : Real.cos δ = 2 * Real.cos (δ / 2) ^ 2 - 1 := by
      rw [← Real.cos_two_mul]; congr 1; ring
    have e3 := Real.sin_sq_add_cos_sq (δ / 2)
    have pz : hm.pivot.z = 0 := by
      rw [hpiv]; simp [lvl _ (fA _ mA), lvl _ (fP _ mP), oz.2]
    have px : hm.pivot.x = (kA.position.x + off.x + kP.position.x) / 2 := by
      rw [hpiv]; simp only [Vec.mul_x, Vec.add_x]; ring
    rw [eK, eL, turn_apply] at rx
    rw [eL] at rz
    simp only [Vec.add_x, Vec.add_y, Vec.add_z, Vec.sub_x, Vec.sub_y, Vec.sub_z, Vec.mul_x, Vec.mul_z, lvl _ (fA _ mA), lvl _ (fP _ mP),
      oz.2, pz] at rx rz
    rw [e1, e2] at rx
    generalize Real.sin (δ / 2) = sn at *
    generalize Real.cos (δ / 2) = cs at *
    generalize cfg.switch.innerHeight + pcb.thickness = h at *
    have r1 : r.x = hm.pivot.x + c.x - h * (sn / cs) := by
      field_simp
      rw [px] at rx ⊢
      linear_combination rx + (kA.position.x + off.x - kP.position.x) / 2 * cs * e3
    obtain ⟨q, rfl⟩ : ∃ q, sn = q * cs := ⟨sn / cs, by field_simp⟩
    rw [mul_div_cancel_right₀ _ hk] at r1 ⊢
    rw [turn_apply, turn_apply, Real.cos_neg, Real.sin_neg, e1, e2, r1, rz]
    ext
    · simp only [Vec.add_x, Vec.add_y, Vec.add_z, Vec.sub_x, Vec.sub_y, Vec.sub_z, Vec.neg_x, Vec.neg_y, Vec.neg_z, pz]
      linear_combination (4 * (v.x + off.x - hm.pivot.x) * cs ^ 2) * e3
    · simp only [Vec.add_x, Vec.add_y, Vec.add_z, Vec.sub_x, Vec.sub_y, Vec.sub_z, Vec.neg_x, Vec.neg_y, Vec.neg_z, oz.1]
      ring
    · simp only [Vec.add_x, Vec.add_y, Vec.add_z, Vec.sub_x, Vec.sub_y, Vec.sub_z, Vec.neg_x, Vec.neg_y, Vec.neg_z, oz.2, pz]
      linear_combination (4 * (v.z) * cs ^ 2 + 2 * h) * e3
  · intro v
    rw [Mat.transformed_mul mT'.1, hT, shift_apply]
    ext <;> simp only [Vec.add_x, Vec.add_y, Vec.add_z, Vec.sub_x, Vec.sub_y, Vec.sub_z, Vec.neg_x, Vec.neg_y, Vec.neg_z] <;> ring
  · intro u v y hu hv
    rw [Mat.transformed_mul (mA'.mul (turn_motion _ _)).1, Mat.transformed_mul mA'.1, shift_apply] at hu
    rw [Mat.transformed_mul mP'.1, shift_apply] at hv
    have kz := lvl k1 (fP k1 (by rw [ek1]; simp))
    have e : u.transformed (hm.a * Q * N) = v.transformed (hm.p * Q * N) := by
      generalize u.transformed (hm.a * Q * N) = U at *
      generalize v.transformed (hm.p * Q * N) = V at *
      rw [turn_apply, Real.cos_neg, Real.sin_neg] at hu
      have ux := congrArg Vec.x hu
      have uy := congrArg Vec.y hu
      have uz := congrArg Vec.z hu
      have vx := congrArg Vec.x hv
      have vy := congrArg Vec.y hv
      have vz := congrArg Vec.z hv
      rw [eL] at rz
      simp only [Vec.add_x, Vec.add_y, Vec.add_z, Vec.neg_x, Vec.neg_y, Vec.neg_z, Vec.sub_z, kz, lvl _ (fP _ mP)] at *
      have s1 := Real.sin_sq_add_cos_sq δ
      have e1 : (U.x - r.x) * Real.cos δ - (U.z - r.z) * Real.sin δ = 0 := by linear_combination ux
      have e2 : (U.x - r.x) * Real.sin δ + (U.z - r.z) * Real.cos δ = 0 := by linear_combination uz - rz
      have d1 : U.x - r.x = 0 := by linear_combination Real.cos δ * e1 + Real.sin δ * e2 - (U.x - r.x) * s1
      have d2 : U.z - r.z = 0 := by linear_combination -Real.sin δ * e1 + Real.cos δ * e2 - (U.z - r.z) * s1
      ext
      · linear_combination d1 - vx
      · linear_combination uy - vy
      · linear_combination d2 - vz + rz
    rw [Mat.transformed_mul (mo1.mul mQ).1, Mat.transformed_mul (mo2.mul mQ).1] at e
    have hd := mN.2.1 (u.transformed (hm.a * Q)) (v.transformed (hm.p * Q))
    dsimp only at hd
    rw [e] at hd
    simp only [distSq] at hd
    generalize u.transformed (hm.a * Q) = U at *
    generalize v.transformed (hm.p * Q) = V at *
    simp only [sub_self] at hd
    ext <;> nlinarith [sq_nonneg (U.x - V.x), sq_nonneg (U.y - V.y), sq_nonneg (U.z - V.z)]

theorem offset_x {l : LayoutCfg} {a p : ℝ} {off : Vec} (h : tentCreaseOffset l a p = .ok off) :
    off = ⟨l.columnPitch * (1 - 1 / Real.cos ((a - p) / 2)) - 2 * l.capTopToPlate * (Real.sin ((a - p) / 2) / Real.cos ((a - p) / 2)), 0, 0⟩ := by
  unfold tentCreaseOffset at h
  dsimp only at h
  obtain ⟨_, h1, h⟩ := bind_ok h
  obtain ⟨_, h2, h⟩ := bind_ok h
  cases h
  unfold pyDiv at h1 h2
  split_ifs at h1 h2 with hc
  cases h1
  cases h2
  congr 1
  field_simp
  ring

/-- **C52** The flat circuit board: for tent angles that differ by less than a right angle, flattening never fails. On the
flat board, the points of all pinky keys are those of the flat layout, seen from the first pinky key, and so are the points of all
alnum keys, but for a common gap in x direction; hence all of these keys lie exactly in the plane z = 0 and are not turned.
The thumb keys are, as a group, turned around the y axis by the difference of the tent angles. -/
theorem C52_flat (h : Plan.make cfg side = .ok plan) (pcb : PcbCfg)
    (hang : |cfg.body.alnumTentAngle - cfg.body.pinkyTentAngle| < Real.pi / 2) :
    ∃ l0 flat first rest, Layout.make cfg.layout cfg.switch cfg.body.roofThickness = .ok l0 ∧
      flattenLayout cfg.body cfg.switch pcb plan.layout = .ok flat ∧ l0.pinky = .ok (first :: rest) ∧
      (∀ s, ∃ ks ks0, flat.pinky s = .ok ks ∧ l0.pinky s = .ok ks0 ∧
        List.Forall₂ (fun k k0 : Key => k.position.z = 0 ∧
          ∀ v : Vec, v.transformed k.matrix = v.transformed k0.matrix - first.position) ks ks0) ∧
      (∀ s, ∃ ks ks0, flat.alnum s = .ok ks ∧ l0.alnum s = .ok ks0 ∧
        List.Forall₂ (fun k k0 : Key => k.position.z = 0 ∧
          ∀ v : Vec, v.transformed k.matrix = v.transformed k0.matrix - first.position + ⟨unfoldGap cfg pcb, 0, 0⟩) ks ks0) ∧
      ∃ d : Vec, ∀ s, List.Forall₂ (fun k k0 : Key => ∀ v : Vec, v.transformed k.matrix =
        (v.transformed k0.matrix).transformed ((1 : Mat).rotatedY (cfg.body.thumbTentAngle - cfg.body.pinkyTentAngle)) + d)
          (flat.thumb s) (l0.thumb s) := by
  obtain ⟨hm⟩ := make_made h
  obtain ⟨A, P, T, off, dy, k1, xb, ho, hk, hf, mA, mP, mT, hA, hP, hT, -, -⟩ := flatten_made hm pcb hang
  obtain ⟨f, -, ff⟩ := hm.flat
  have h2 := make_two hm.arranged.make
  have eo := offset_x ho
  obtain ⟨rest, er⟩ : ∃ rest, fingers hm.l0 1 none = k1 :: rest := by
    cases hl : fingers hm.l0 1 none with
    | nil => rw [hl] at hk; cases hk
    | cons a l => rw [hl] at hk; cases hk; exact ⟨_, rfl⟩
  have kz : k1.position.z = 0 := (ff none .pinky k1 (by show k1 ∈ fingers hm.l0 1 none; rw [er]; simp)).level 0
  have gz : ∀ s g, ∀ k ∈ groupOf hm.l0 s g, ∀ m : Mat, (k.transform m).position = k.position.transformed m ∧ k.position.z = 0 :=
    fun s g k hk m => ⟨Key.position_transform (ff s g k hk).motion.1 m, (ff s g k hk).level 0⟩
  refine ⟨hm.l0, _, k1, rest, hm.arranged.make, hf, by rw [pinky_ok h2, er], ?_, ?_, ?_⟩
  · intro s
    refine ⟨_, _, pinky_ok (h2.moved _ _ _) s, pinky_ok h2 s, ?_⟩
    rw [fingers_moved _ _ _ _ _ (by norm_num), if_neg one_ne_zero, List.forall₂_map_left_iff, List.forall₂_same]
    intro k hk
    refine ⟨?_, fun v => ?_⟩
    · rw [(gz s .pinky k hk P).1, hA]
      simp [(gz s .pinky k hk P).2, kz]
    · rw [Key.point_transform (ff s .pinky k hk).motion.1, hA]
  · intro s
    refine ⟨_, _, alnum_ok (h2.moved _ _ _) s, alnum_ok h2 s, ?_⟩
    rw [fingers_moved _ _ _ _ _ (by norm_num), if_pos rfl, List.forall₂_map_left_iff, List.forall₂_same]
    intro k hk
    refine ⟨?_, fun v => ?_⟩
    · rw [(gz s .alnum k hk A).1, hP]
      simp [(gz s .alnum k hk A).2, kz, eo]
    · rw [Key.point_transform (ff s .alnum k hk).motion.1, hP, eo]
      ext
      · simp only [Vec.add_x, Vec.sub_x, unfoldGap, boardDepth]
        ring
      · simp
      · simp
  · refine ⟨(0 : Vec).transformed T, fun s => ?_⟩
    rw [thumbs_eq, thumbs_eq, thumbs_moved, List.forall₂_map_left_iff, List.forall₂_same]
    intro k hk v
    rw [Key.point_transform (ff s .thumb k hk).motion.1, hT, hT, rotY_transformed, turn_apply, turn_apply]
    ext <;> simp only [Vec.add_x, Vec.add_y, Vec.add_z, Vec.sub_x, Vec.sub_y, Vec.sub_z, Vec.zero_x, Vec.zero_y, Vec.zero_z] <;> ring

/-- **C52** The flat board can be bent into the keyboard: there is a straight line on its bottom along which it is folded. Alnum
and pinky part, moved from the flat board to their places in the keyboard, agree on this line. -/
theorem C52_fold (h : Plan.make cfg side = .ok plan) (pcb : PcbCfg)
    (hang : |cfg.body.alnumTentAngle - cfg.body.pinkyTentAngle| < Real.pi / 2) :
    ∃ flat, flattenLayout cfg.body cfg.switch pcb plan.layout = .ok flat ∧ ∃ (dA dP : Vec) (x : ℝ),
      (∀ s, ∃ ks ks', plan.layout.alnum s = .ok ks ∧ flat.alnum s = .ok ks' ∧ List.Forall₂ (fun k k' : Key =>
        ∀ v : Vec, v.transformed k.matrix = oriented cfg.body cfg.body.alnumTentAngle (v.transformed k'.matrix) + dA) ks ks') ∧
      (∀ s, ∃ ks ks', plan.layout.pinky s = .ok ks ∧ flat.pinky s = .ok ks' ∧ List.Forall₂ (fun k k' : Key =>
        ∀ v : Vec, v.transformed k.matrix = oriented cfg.body cfg.body.pinkyTentAngle (v.transformed k'.matrix) + dP) ks ks') ∧
      ∀ y : ℝ, oriented cfg.body cfg.body.alnumTentAngle ⟨x, y, -boardDepth cfg pcb⟩ + dA =
        oriented cfg.body cfg.body.pinkyTentAngle ⟨x, y, -boardDepth cfg pcb⟩ + dP := by
  obtain ⟨hm⟩ := make_made h
  obtain ⟨A, P, T, off, dy, k1, xb, ho, hk, hf, mA, mP, mT, hA, hP, hT, hfold, -⟩ := flatten_made hm pcb hang
  obtain ⟨f, -, ff⟩ := hm.flat
  have h2 := make_two hm.arranged.make
  obtain ⟨eA, heA⟩ := hm.moves .alnum
  obtain ⟨eP, heP⟩ := hm.moves .pinky
  generalize ht : (⟨2 * (cfg.switch.innerHeight + pcb.thickness) *
        (Real.sin ((cfg.body.alnumTentAngle - cfg.body.pinkyTentAngle) / 2) /
          Real.cos ((cfg.body.alnumTentAngle - cfg.body.pinkyTentAngle) / 2)), 0, 0⟩ : Vec) = g at hP
  have lin : ∀ (a : ℝ) (u v : Vec), oriented cfg.body a (u + v) = oriented cfg.body a u + oriented cfg.body a v := by
    intro a u v
    ext <;> simp only [Spec.oriented, Vec.add_x, Vec.add_y, Vec.add_z] <;> ring
  have assoc : ∀ a b c : Vec, a + b + c = a + (b + c) := by
    intro a b c; ext <;> simp only [Vec.add_x, Vec.add_y, Vec.add_z] <;> ring
  have fA : ∀ v : Vec, v.transformed (hm.a * (hm.M * hm.D)) = oriented cfg.body cfg.body.alnumTentAngle (v.transformed A) +
      (oriented cfg.body cfg.body.alnumTentAngle (k1.position - off + g) + eA) := by
    intro v
    rw [← assoc, ← lin, hP]
    have := heA v
    simp only [Made.motionOf, Group.angle] at this
    rw [this]
    congr 2
    ext <;> simp only [Vec.add_x, Vec.add_y, Vec.add_z, Vec.sub_x, Vec.sub_y, Vec.sub_z] <;> ring
  have fP : ∀ v : Vec, v.transformed (hm.p * (hm.M * hm.D)) = oriented cfg.body cfg.body.pinkyTentAngle (v.transformed P) +
      (oriented cfg.body cfg.body.pinkyTentAngle k1.position + eP) := by
    intro v
    rw [← assoc, ← lin, hA]
    have := heP v
    simp only [Made.motionOf, Group.angle] at this
    rw [this]
    congr 2
    ext <;> simp only [Vec.add_x, Vec.add_y, Vec.add_z, Vec.sub_x, Vec.sub_y, Vec.sub_z] <;> ring
  refine ⟨_, hf, oriented cfg.body cfg.body.alnumTentAngle (k1.position - off + g) + eA,
    oriented cfg.body cfg.body.pinkyTentAngle k1.position + eP, xb, ?_, ?_, fun y => ?_⟩
  rotate_left 2
  · have := hfold (⟨xb, y, -(cfg.switch.innerHeight + pcb.thickness)⟩ + (k1.position - off + g))
      (⟨xb, y, -(cfg.switch.innerHeight + pcb.thickness)⟩ + k1.position) y
      (by rw [hP]; ext <;> simp only [Vec.add_x, Vec.add_y, Vec.add_z, Vec.sub_x, Vec.sub_y, Vec.sub_z] <;> ring)
      (by rw [hA]; ext <;> simp only [Vec.add_x, Vec.add_y, Vec.add_z, Vec.sub_x, Vec.sub_y, Vec.sub_z] <;> ring)
    rw [fA, fP, hP, hA] at this
    convert this using 2
    · congr 1
      ext <;> simp only [Vec.add_x, Vec.add_y, Vec.add_z, Vec.sub_x, Vec.sub_y, Vec.sub_z, boardDepth] <;> ring
    · congr 1
      ext <;> simp only [Vec.add_x, Vec.add_y, Vec.add_z, Vec.sub_x, Vec.sub_y, Vec.sub_z, boardDepth] <;> ring
  · intro s
    refine ⟨_, _, alnum_ok hm.two s, alnum_ok (h2.moved _ _ _) s, ?_⟩
    rw [hm.layout0, fingers_moved _ _ _ _ _ (by norm_num), fingers_moved _ _ _ _ _ (by norm_num), if_pos rfl, if_pos rfl,
      List.forall₂_map_left_iff, List.forall₂_map_right_iff, List.forall₂_same]
    intro k hk v
    rw [Key.point_transform (ff s .alnum k hk).motion.1, Key.point_transform (ff s .alnum k hk).motion.1]
    exact fA _
  · intro s
    refine ⟨_, _, pinky_ok hm.two s, pinky_ok (h2.moved _ _ _) s, ?_⟩
    rw [hm.layout0, fingers_moved _ _ _ _ _ (by norm_num), fingers_moved _ _ _ _ _ (by norm_num), if_neg one_ne_zero, if_neg one_ne_zero,
      List.forall₂_map_left_iff, List.forall₂_map_right_iff, List.forall₂_same]
    intro k hk v
    rw [Key.point_transform (ff s .pinky k hk).motion.1, Key.point_transform (ff s .pinky k hk).motion.1]
    exact fP _

/-! ### The footprint -/

theorem heightAbove_motion {k : Key} (hk : Motion k.matrix) {m : Mat} (hm : Motion m) (v : Vec) :
    heightAbove (k.transform m) (v.transformed m) = heightAbove k v := by
  unfold heightAbove
  dsimp only
  rw [Key.point_transform hk.1, Key.position_transform hk.1]
  have h1 := hm.2.1 v k.position
  have h2 := hm.2.1 ((⟨0, 0, 1⟩ : Vec).transformed k.matrix) k.position
  have h3 := hm.2.1 v ((⟨0, 0, 1⟩ : Vec).transformed k.matrix)
  dsimp only at h1 h2 h3
  generalize (⟨0, 0, 1⟩ : Vec).transformed k.matrix = n at *
  generalize k.position = p at *
  generalize n.transformed m = n' at *
  generalize p.transformed m = p' at *
  generalize v.transformed m = v' at *
  simp only [distSq] at h1 h2 h3
  simp only [Vec.sub_x, Vec.sub_y, Vec.sub_z]
  linear_combination (h1 + h2 - h3) / 2

/-- All about one flattened plan. -/
structure Flattened (cfg : PlanCfg) (pcb : PcbCfg) (plan : Plan) (l0 : Layout) (A P T : Mat) (first : Key) (rest : List Key) (d : Vec) : Prop where
  make : Layout.make cfg.layout cfg.switch cfg.body.roofThickness = .ok l0
  flat : flattenLayout cfg.body cfg.switch pcb plan.layout = .ok (l0.moved A P T)
  hfirst : fingers l0 1 none = first :: rest
  motion : Motion P
  pinky : ∀ v : Vec, v.transformed P = v - first.position
  alnum : ∀ v : Vec, v.transformed A = v - first.position + ⟨unfoldGap cfg pcb, 0, 0⟩
  thumb : ∀ v : Vec, v.transformed T = v.transformed ((1 : Mat).rotatedY (cfg.body.thumbTentAngle - cfg.body.pinkyTentAngle)) + d
  level : cfg.body.thumbTentAngle = cfg.body.pinkyTentAngle → d.z = 0
  height : ∃ first' rest', plan.layout.pinky = .ok (first' :: rest') ∧ ∃ B, plan.layout.thumb = (thumbs l0 none).map (·.transform B) ∧
    ∀ k ∈ thumbs l0 none, heightAbove first' (k.transform B).position = (k.transform T).position.z

theorem flattened (h : Plan.make cfg side = .ok plan) (pcb : PcbCfg)
    (hang : |cfg.body.alnumTentAngle - cfg.body.pinkyTentAngle| < Real.pi / 2) :
    ∃ l0 A P T first rest d, Flattened cfg pcb plan l0 A P T first rest d := by
  obtain ⟨hm⟩ := make_made h
  obtain ⟨A, P, T, off, dy, k1, xb, ho, hk, hf, mA, mP, mT, hA, hP, hT, -, R, mR, eP, eT⟩ := flatten_made hm pcb hang
  obtain ⟨f, -, ff⟩ := hm.flat
  have h2 := make_two hm.arranged.make
  have eo := offset_x ho
  obtain ⟨rest, er⟩ : ∃ rest, fingers hm.l0 1 none = k1 :: rest := by
    cases hl : fingers hm.l0 1 none with
    | nil => rw [hl] at hk; cases hk
    | cons a l => rw [hl] at hk; cases hk; exact ⟨_, rfl⟩
  have fk : Flat f k1 := ff none .pinky k1 (by show k1 ∈ fingers hm.l0 1 none; rw [er]; simp)
  have kz : k1.position.z = 0 := fk.level 0
  obtain ⟨off', kA, kP, dy', hoff, -, -, -, -, mA', -, mP', -, hpiv⟩ := hm.arranged.parts
  have pz : hm.pivot.z = 0 := by
    rw [ho] at hoff
    cases hoff
    rw [hpiv, eo]
    simp [(ff none .alnum kA mA').level 0, (ff none .pinky kP mP').level 0]
    rw [show kA.position.z = 0 from (ff none .alnum kA mA').level 0, show kP.position.z = 0 from (ff none .pinky kP mP').level 0]
    norm_num
  refine ⟨hm.l0, A, P, T, k1, rest, (0 : Vec).transformed T, hm.arranged.make, hf, er, mP, hA, fun v => ?_, fun v => ?_, fun ha => ?_, ?_⟩
  · rw [hP, eo]
    ext
    · simp only [Vec.add_x, Vec.sub_x, unfoldGap, boardDepth]
      ring
    · simp
    · simp
  · rw [hT, hT, rotY_transformed, turn_apply, turn_apply]
    ext <;> simp only [Vec.add_x, Vec.add_y, Vec.add_z, Vec.sub_x, Vec.sub_y, Vec.sub_z, Vec.zero_x, Vec.zero_y, Vec.zero_z] <;> ring
  · rw [hT, ha, sub_self, turn_apply, eo]
    simp [kz, pz]
  · have mpQ : Motion (hm.p * (hm.M * hm.D)) := (arranged_motions hm.arranged).2.1.mul (hm.motionM.mul hm.motionD)
    have mtQ : Motion (hm.t * (hm.M * hm.D)) := (arranged_motions hm.arranged).2.2.mul (hm.motionM.mul hm.motionD)
    refine ⟨k1.transform (hm.p * (hm.M * hm.D)), rest.map (·.transform (hm.p * (hm.M * hm.D))), ?_, hm.t * (hm.M * hm.D), ?_, ?_⟩
    · rw [pinky_ok hm.two, hm.layout0, fingers_moved _ _ _ _ _ (by norm_num), if_neg one_ne_zero, er]
      rfl
    · rw [thumbs_eq, hm.layout0, thumbs_moved]
    · intro k hk
      have fl := ff none .thumb k hk
      have mk : Motion (k1.transform (hm.p * (hm.M * hm.D))).matrix := fk.motion.mul mpQ
      rw [← heightAbove_motion mk mR, ← Key.position_transform (fl.motion.mul mtQ).1]
      have e1 : (k1.transform (hm.p * (hm.M * hm.D))).transform R = k1.transform P := by
        rw [eP]; unfold Key.transform; simp only [(C21_monoid _ _ _ 0).1]
      have e2 : (k.transform (hm.t * (hm.M * hm.D))).transform R = k.transform T := by
        rw [eT]; unfold Key.transform; simp only [(C21_monoid _ _ _ 0).1]
      rw [e1, e2]
      obtain ⟨_, _, hv, _⟩ := make_fingers hm.arranged.make
      obtain ⟨v, hv, ev⟩ := hv 1 (by norm_num) none k1 (by rw [er]; simp)
      unfold heightAbove
      dsimp only
      rw [Key.point_transform fk.motion.1, Key.position_transform fk.motion.1, hA, hA]
      have : (⟨0, 0, 1⟩ : Vec).transformed k1.matrix = k1.position + ⟨0, 0, 1⟩ := by
        rw [ev]
        unfold Key.position Key.translate Key.make
        dsimp only
        rw [Mat.transformed_translated Mat.Affine.one, Mat.transformed_translated Mat.Affine.one, Vec.transformed_one, Vec.transformed_one]
        ext <;> simp only [Vec.add_x, Vec.add_y, Vec.add_z, Vec.zero_x, Vec.zero_y, Vec.zero_z] <;> ring
      rw [this]
      simp

theorem marker_eq (pretty : ℝ → String) (m : Mat) (w h : ℝ) (layer : String) :
    writeKiCadMarker pretty m w h layer = placedMarker pretty layer w h (·.transformed m) := by
  unfold writeKiCadMarker placedMarker markerLines markerLabel angle2D
  dsimp only [Vec.sub_x, Vec.sub_y]
  have : ".Fab\")\n    (effects (font (size 3 3) (thickness 0.3)) (justify left)))\n" = ".Fab\")\n" ++ "    (effects (font (size 3 3) (thickness 0.3)) (justify left)))\n" := by
    decide +kernel
  rw [this, ite_not]
  simp only [String.append_assoc]

theorem upright_eq (pretty : ℝ → String) (h0 : pretty 0 = "0") {m : Mat} {c : Vec} (hm : ∀ v : Vec, v.transformed m = v + c)
    {w : ℝ} (hw : 0 ≤ w) (h : ℝ) (hc : c.z = 0) (layer : String) :
    writeKiCadMarker pretty m w h layer = uprightMarker pretty layer w h c := by
  rw [marker_eq]
  unfold placedMarker uprightMarker
  dsimp only
  rw [hm, hm, hm]
  have e : Complex.arg ⟨((⟨w / 2, -h / 2, 0⟩ : Vec) + c).x - ((⟨-w / 2, -h / 2, 0⟩ : Vec) + c).x,
      ((⟨w / 2, -h / 2, 0⟩ : Vec) + c).y - ((⟨-w / 2, -h / 2, 0⟩ : Vec) + c).y⟩ = 0 := by
    rw [show (⟨((⟨w / 2, -h / 2, 0⟩ : Vec) + c).x - ((⟨-w / 2, -h / 2, 0⟩ : Vec) + c).x,
      ((⟨w / 2, -h / 2, 0⟩ : Vec) + c).y - ((⟨-w / 2, -h / 2, 0⟩ : Vec) + c).y⟩ : ℂ) = ((w : ℝ) : ℂ) by
        apply Complex.ext
        · simp only [Vec.add_x, Complex.ofReal_re]; ring
        · simp]
    exact Complex.arg_ofReal_of_nonneg hw
  rw [e, zero_mul, zero_div, if_pos h0, String.append_empty]
  congr 1
  · ext <;> simp only [Vec.add_x, Vec.add_y, Vec.add_z, hc] <;> ring
  · ext <;> simp only [Vec.add_x, Vec.add_y, Vec.add_z, hc] <;> ring
  · ext <;> simp

theorem join_append (a b : List String) : String.join (a ++ b) = String.join a ++ String.join b := by
  simp

theorem sideMarkers_eq (pretty : ℝ → String) (h0 : pretty 0 = "0") (hw : 0 ≤ cfg.switch.width) {pcb : PcbCfg} {l0 A P T first rest d}
    (hf : Flattened cfg pcb plan l0 A P T first rest d) (s : Option Side) (layer : String) :
    ∃ keys, (l0.moved A P T).all s = .ok keys ∧ writeKeys pretty cfg.switch keys layer =
      sideMarkers pretty layer cfg.switch (fingers l0 0 s) (fingers l0 1 s) (thumbs l0 s) first.position (unfoldGap cfg pcb)
        fun v => v.transformed ((1 : Mat).rotatedY (cfg.body.thumbTentAngle - cfg.body.pinkyTentAngle)) + d := by
  have h2 := make_two hf.make
  obtain ⟨f, -, hv, ht⟩ := make_fingers hf.make
  have tr : ∀ u v : Vec, u.transformed ((Key.make cfg.layout f 1).translate v).matrix = u + v := by
    intro u v
    unfold Key.translate Key.make
    dsimp only
    rw [Mat.transformed_translated Mat.Affine.one, Vec.transformed_one]
  have fin : ∀ g < 2, ∀ k ∈ fingers l0 g s, Motion k.matrix ∧ k.position.z = 0 ∧ ∀ u : Vec, u.transformed k.matrix = u + k.position := by
    intro g hg k hk
    obtain ⟨v, hv, rfl⟩ := hv g hg s k hk
    have : ((Key.make cfg.layout f 1).translate v).position = v := by
      unfold Key.position
      rw [tr]
      ext <;> simp
    exact ⟨(flat_translate cfg.layout f 1 hv).motion, by rw [this, hv], fun u => by rw [tr, this]⟩
  have fz : first.position.z = 0 := by
    obtain ⟨v, hz, e⟩ := hv 1 (by norm_num) none first (by rw [hf.hfirst]; simp)
    rw [e]
    exact (flat_translate cfg.layout f 1 hz).level 0
  refine ⟨_, allKeys_ok (h2.moved _ _ _) s, ?_⟩
  rw [fingers_moved _ _ _ _ _ (by norm_num), fingers_moved _ _ _ _ _ (by norm_num), if_pos rfl, if_neg one_ne_zero, thumbs_moved]
  unfold writeKeys sideMarkers
  rw [List.map_append, List.map_append, join_append, join_append, List.map_map, List.map_map, List.map_map]
  refine congrArg₂ _ (congrArg₂ _ (congrArg _ ?_) (congrArg _ ?_)) (congrArg _ ?_)
  · · refine List.map_congr_left fun k hk => ?_
      obtain ⟨mk, kz, ek⟩ := fin 0 (by norm_num) k hk
      refine upright_eq pretty h0 (fun v => ?_) hw _ (by simp [kz, fz]) _
      rw [Key.point_transform mk.1, hf.alnum, ek]
      ext <;> simp only [Vec.add_x, Vec.add_y, Vec.add_z, Vec.sub_x, Vec.sub_y, Vec.sub_z] <;> ring
  · · refine List.map_congr_left fun k hk => ?_
      obtain ⟨mk, kz, ek⟩ := fin 1 (by norm_num) k hk
      refine upright_eq pretty h0 (fun v => ?_) hw _ (by simp [kz, fz]) _
      rw [Key.point_transform mk.1, hf.pinky, ek]
      ext <;> simp only [Vec.add_x, Vec.add_y, Vec.add_z, Vec.sub_x, Vec.sub_y, Vec.sub_z] <;> ring
  · refine List.map_congr_left fun k hk => ?_
    show writeKiCadMarker pretty (k.transform T).matrix _ _ _ = _
    rw [marker_eq]
    congr 1
    funext v
    rw [Key.point_transform (ht s k hk).motion.1, hf.thumb]

theorem mounts_eq (pretty : ℝ → String) (h0 : pretty 0 = "0") {pcb : PcbCfg} {l0 A P T first rest d}
    (hf : Flattened cfg pcb plan l0 A P T first rest d) (mount : MountCfg) (hw : 0 ≤ mount.threadDiameter) (layer : String) :
    writeMounts pretty mount (l0.moved A P T) layer =
      .ok (uprightMarker pretty layer mount.threadDiameter mount.threadDiameter ⟨-mount.xDistToFirstPinky, -mount.yDistToFirstPinky, 0⟩) := by
  have h2 := make_two hf.make
  obtain ⟨f, -, hv, -⟩ := make_fingers hf.make
  obtain ⟨v, hz, e⟩ := hv 1 (by norm_num) none first (by rw [hf.hfirst]; simp)
  have fl : Flat f first := by rw [e]; exact flat_translate cfg.layout f 1 hz
  have tr : ∀ u : Vec, u.transformed first.matrix = u + first.position := by
    intro u
    rw [e]
    unfold Key.position Key.translate Key.make
    dsimp only
    rw [Mat.transformed_translated Mat.Affine.one, Mat.transformed_translated Mat.Affine.one, Vec.transformed_one, Vec.transformed_one]
    ext <;> simp
  unfold writeMounts
  rw [pinky_ok (h2.moved _ _ _), fingers_moved _ _ _ _ _ (by norm_num), if_neg one_ne_zero, hf.hfirst]
  dsimp only [bind, Except.bind, List.map, pyIndex, pyGet]
  simp only [le_refl, if_true, Int.toNat_zero, List.getElem?_cons_zero, pure, Except.pure]
  refine congrArg _ ?_
  refine upright_eq pretty h0 (fun u => ?_) hw _ rfl _
  rw [show (first.transform P).matrix.translated ⟨-mount.xDistToFirstPinky, -mount.yDistToFirstPinky, 0⟩ =
    (first.transform P).matrix * shift ⟨-mount.xDistToFirstPinky, -mount.yDistToFirstPinky, 0⟩ by
      unfold shift Mat.translated; ext <;> simp [Mat.mul_def, Mat.one_def], Mat.transformed_mul ?_, shift_apply,
    Key.point_transform fl.motion.1, hf.pinky, tr]
  · ext <;> simp only [Vec.add_x, Vec.add_y, Vec.add_z, Vec.sub_x, Vec.sub_y, Vec.sub_z] <;> ring
  · exact (fl.motion.mul hf.motion).1

theorem positions_eq {pcb : PcbCfg} {l0 A P T first rest d} (hf : Flattened cfg pcb plan l0 A P T first rest d) :
    ∃ keys, (l0.moved A P T).all = .ok keys ∧
      ((keys.any fun key => decide (|key.position.z| > 1e-6)) = true ↔ ∃ first rest, plan.layout.pinky = .ok (first :: rest) ∧
        ∃ k ∈ plan.layout.thumb, 1e-6 < |heightAbove first k.position|) := by
  have h2 := make_two hf.make
  obtain ⟨f, -, hv, ht⟩ := make_flat hf.make
  refine ⟨_, allKeys_ok (h2.moved _ _ _) none, ?_⟩
  have fz : first.position.z = 0 := (hv 1 (by norm_num) none first (by rw [hf.hfirst]; simp)).level 0
  rw [fingers_moved _ _ _ _ _ (by norm_num), fingers_moved _ _ _ _ _ (by norm_num), if_pos rfl, if_neg one_ne_zero, thumbs_moved]
  have zA : ∀ k ∈ fingers l0 0 none, (k.transform A).position.z = 0 := by
    intro k hk
    have fl := hv 0 (by norm_num) none k hk
    rw [Key.position_transform fl.motion.1, hf.alnum]
    simp [fz, show k.position.z = 0 from fl.level 0]
  have zP : ∀ k ∈ fingers l0 1 none, (k.transform P).position.z = 0 := by
    intro k hk
    have fl := hv 1 (by norm_num) none k hk
    rw [Key.position_transform fl.motion.1, hf.pinky]
    simp [fz, show k.position.z = 0 from fl.level 0]
  obtain ⟨f1, r1, e1, B, eB, hB⟩ := hf.height
  simp only [List.any_append, List.any_map, Bool.or_eq_true, List.any_eq_true, Function.comp, decide_eq_true_eq]
  constructor
  · rintro ((⟨k, hk, h⟩ | ⟨k, hk, h⟩) | ⟨k, hk, h⟩)
    · rw [zA k hk] at h; norm_num at h
    · rw [zP k hk] at h; norm_num at h
    · refine ⟨f1, r1, e1, k.transform B, by rw [eB]; exact List.mem_map.mpr ⟨k, hk, rfl⟩, ?_⟩
      rw [hB k hk]
      exact h
  · rintro ⟨f2, r2, e2, k, hk, h⟩
    rw [e1] at e2
    cases e2
    rw [eB] at hk
    obtain ⟨k0, hk0, rfl⟩ := List.mem_map.mp hk
    rw [hB k0 hk0] at h
    exact .inr ⟨k0, hk0, h⟩

/-- **C52** The footprint: for tent angles that differ by less than a right angle, it is always written. It is empty exactly if a
thumb key of one of the plans is out of the plane of the pinky keys; otherwise it consists of the markers of the right keys on
the front and those of the left keys on the back, each at its place in the flat layout as seen from the first pinky key (the
alnum keys with the gap of the crease), and of the mounts at their distances from the first pinky key. -/
theorem C52_footprint {planR planL : Plan} {sideR sideL : Side} (hR : Plan.make cfg sideR = .ok planR) (hL : Plan.make cfg sideL = .ok planL)
    (pcb : PcbCfg) (hang : |cfg.body.alnumTentAngle - cfg.body.pinkyTentAngle| < Real.pi / 2)
    (pretty : ℝ → String) (h0 : pretty 0 = "0") (hw : 0 ≤ cfg.switch.width) (hd : ∀ mount ∈ pcb.mount, 0 ≤ mount.threadDiameter) :
    ∃ text, toKiCadFootprint pretty cfg.body cfg.switch pcb planR.layout planL.layout = .ok text ∧
      (text = "" ↔ ∃ plan ∈ [planR, planL], ∃ first rest, plan.layout.pinky = .ok (first :: rest) ∧
        ∃ k ∈ plan.layout.thumb, 1e-6 < |heightAbove first k.position|) ∧
      (text ≠ "" → ∃ l0 first rest alnumR pinkyR alnumL pinkyL, ∃ dR dL : Vec,
        Layout.make cfg.layout cfg.switch cfg.body.roofThickness = .ok l0 ∧ l0.pinky = .ok (first :: rest) ∧
        l0.alnum (some .right) = .ok alnumR ∧ l0.pinky (some .right) = .ok pinkyR ∧
        l0.alnum (some .left) = .ok alnumL ∧ l0.pinky (some .left) = .ok pinkyL ∧
        let turned (v : Vec) := v.transformed ((1 : Mat).rotatedY (cfg.body.thumbTentAngle - cfg.body.pinkyTentAngle))
        text = footprintHead ++
          sideMarkers pretty "F" cfg.switch alnumR pinkyR (l0.thumb (some .right)) first.position (unfoldGap cfg pcb) (fun v => turned v + dR) ++
          sideMarkers pretty "B" cfg.switch alnumL pinkyL (l0.thumb (some .left)) first.position (unfoldGap cfg pcb) (fun v => turned v + dL) ++
          (match pcb.mount with
            | none => ""
            | some mount =>
              let spot : Vec := ⟨-mount.xDistToFirstPinky, -mount.yDistToFirstPinky, 0⟩
              uprightMarker pretty "F" mount.threadDiameter mount.threadDiameter spot ++
              uprightMarker pretty "B" mount.threadDiameter mount.threadDiameter spot) ++ ")\n") := by
  obtain ⟨l0, A, P, T, first, rest, d, fR⟩ := flattened hR pcb hang
  obtain ⟨l0', A', P', T', first', rest', d', fL⟩ := flattened hL pcb hang
  have e0 : l0' = l0 := by
    have := fL.make
    rw [fR.make] at this
    cases this
    rfl
  subst e0
  have e1 : first' = first ∧ rest' = rest := by
    have := fL.hfirst
    rw [fR.hfirst] at this
    cases this
    exact ⟨rfl, rfl⟩
  obtain ⟨rfl, rfl⟩ := e1
  have h2 := make_two fR.make
  obtain ⟨ksR, aR, bR⟩ := positions_eq fR
  obtain ⟨ksL, aL, bL⟩ := positions_eq fL
  obtain ⟨kR, cR, mR⟩ := sideMarkers_eq pretty h0 hw fR (some .right) "F"
  obtain ⟨kL, cL, mL⟩ := sideMarkers_eq pretty h0 hw fL (some .left) "B"
  have hany : (ksR ++ ksL).any (fun key => decide (|key.position.z| > 1e-6)) = true ↔
      ∃ plan ∈ [planR, planL], ∃ first rest, plan.layout.pinky = .ok (first :: rest) ∧
        ∃ k ∈ plan.layout.thumb, 1e-6 < |heightAbove first k.position| := by
    rw [List.any_append, Bool.or_eq_true, bR, bL]
    simp
  unfold toKiCadFootprint
  rw [fR.flat, fL.flat]
  dsimp only [bind, Except.bind]
  rw [aR, aL]
  dsimp only
  split_ifs with hc
  · exact ⟨"", rfl, ⟨fun _ => hany.mp hc, fun _ => rfl⟩, fun h => absurd rfl h⟩
  · rw [cR, cL]
    dsimp only
    have key : ∀ t : String, footprintHead ++ t ≠ "" := by
      intro t h
      rw [String.append_eq_empty_iff] at h
      exact absurd h.1 (by decide +kernel)
    have fin : ∀ M : String, ∀ text, text = footprintHead ++ writeKeys pretty cfg.switch kR "F" ++ writeKeys pretty cfg.switch kL "B" ++ M ++ ")\n" →
        (text = "" ↔ ∃ plan ∈ [planR, planL], ∃ first rest, plan.layout.pinky = .ok (first :: rest) ∧
        ∃ k ∈ plan.layout.thumb, 1e-6 < |heightAbove first k.position|) := by
      intro M text e
      constructor
      · intro h
        rw [e, String.append_assoc, String.append_assoc, String.append_assoc] at h
        exact absurd h (key _)
      · intro h
        exact absurd (hany.mpr h) hc
    cases hmt : pcb.mount with
    | none =>
      refine ⟨_, rfl, fin _ _ rfl, fun _ => ⟨_, _, _, _, _, _, _, d, d', fR.make, by rw [pinky_ok h2, fR.hfirst], alnum_ok h2 _, pinky_ok h2 _,
        alnum_ok h2 _, pinky_ok h2 _, ?_⟩⟩
      rw [mR, mL, thumbs_eq, thumbs_eq]
    | some mount =>
      dsimp only
      rw [mounts_eq pretty h0 fR mount (hd mount hmt), mounts_eq pretty h0 fL mount (hd mount hmt)]
      dsimp only [pure, Except.pure]
      refine ⟨_, rfl, fin _ _ rfl, fun _ => ⟨_, _, _, _, _, _, _, d, d', fR.make, by rw [pinky_ok h2, fR.hfirst], alnum_ok h2 _, pinky_ok h2 _,
        alnum_ok h2 _, pinky_ok h2 _, ?_⟩⟩
      rw [mR, mL, thumbs_eq, thumbs_eq]

/-- **C52** With the tent angle of the pinky keys for the thumb keys, the footprint is not empty. -/
theorem C52_complete {planR planL : Plan} {sideR sideL : Side} (hR : Plan.make cfg sideR = .ok planR) (hL : Plan.make cfg sideL = .ok planL)
    (pcb : PcbCfg) (hang : |cfg.body.alnumTentAngle - cfg.body.pinkyTentAngle| < Real.pi / 2)
    (hthumb : cfg.body.thumbTentAngle = cfg.body.pinkyTentAngle)
    (pretty : ℝ → String) (h0 : pretty 0 = "0") (hw : 0 ≤ cfg.switch.width) (hd : ∀ mount ∈ pcb.mount, 0 ≤ mount.threadDiameter) :
    ∃ text, toKiCadFootprint pretty cfg.body cfg.switch pcb planR.layout planL.layout = .ok text ∧ text ≠ "" := by
  obtain ⟨text, h, h1, -⟩ := C52_footprint hR hL pcb hang pretty h0 hw hd
  refine ⟨text, h, fun e => ?_⟩
  obtain ⟨plan, hp, first, rest, e1, k, hk, h⟩ := h1.mp e
  have : ∃ s, Plan.make cfg s = .ok plan := by
    rcases List.mem_cons.mp hp with rfl | hp
    · exact ⟨_, hR⟩
    · rw [List.mem_singleton] at hp
      rw [hp]
      exact ⟨_, hL⟩
  obtain ⟨s, hs⟩ := this
  obtain ⟨l0, A, P, T, f, r, d, fl⟩ := flattened hs pcb hang
  obtain ⟨f1, r1, e2, B, eB, hB⟩ := fl.height
  rw [e1] at e2
  cases e2
  rw [eB] at hk
  obtain ⟨k0, hk0, rfl⟩ := List.mem_map.mp hk
  obtain ⟨_, -, -, ht⟩ := make_flat fl.make
  have fk := ht none k0 hk0
  rw [hB k0 hk0, Key.position_transform fk.motion.1, fl.thumb, hthumb, sub_self, rotY_transformed] at h
  simp [fl.level hthumb, show k0.position.z = 0 from fk.level 0] at h
  norm_num at h

/-- The hypotheses of the theorems above are met by the plans of both sides of a keyboard with a crease, with mounts. -/
example : ∃ W H planR planL, Plan.make (exPlan W H) .right = .ok planR ∧ Plan.make (exPlan W H) .left = .ok planL ∧
    |(exPlan W H).body.alnumTentAngle - (exPlan W H).body.pinkyTentAngle| < Real.pi / 2 ∧ (exPlan W H).body.alnumTentAngle ≠ 0 ∧
    (exPlan W H).body.thumbTentAngle = (exPlan W H).body.pinkyTentAngle ∧ 0 ≤ (exPlan W H).switch.width := by
  obtain ⟨W, H, plan, h⟩ := exPlan_succeeds .left
  have hs : SymmetricCfg (exPlan W H).layout := by
    refine ⟨?_, rfl, rfl, rfl⟩
    intro row hrow
    rw [List.eq_of_mem_replicate hrow]
    simp [mirrorStagger, List.replicate]
  have := C75_symmetric hs
  rw [h] at this
  refine ⟨W, H, _, _, this.symm, h, ?_, exAngle_pos.ne', rfl, ?_⟩
  · show |exAngle - 0| < _
    rw [sub_zero, abs_of_pos exAngle_pos]
    by_contra hc
    rw [not_lt] at hc
    have h1 := Real.cos_nonpos_of_pi_div_two_le_of_le hc (by
      unfold exAngle
      have := Real.arctan_lt_pi_div_two (7 / 24)
      have := Real.pi_pos
      linarith)
    rw [exAngle_full.1] at h1
    norm_num at h1
  · show (0 : ℝ) ≤ exSwitch.width
    norm_num [exSwitch]

end

end Chrumm.Part
