import Verif.Props.Knob
import Verif.Props.BossWall
import Verif.Props.KeyShape
import Verif.Props.Vector
import Verif.Spec.Knob

/-! C97: the outline of the knob. -/

namespace Chrumm.Part
open Geo Geo.Spec Spec Classical

/-- The center of the rounded corner: the right one of the two points. -/
theorem groove_corner {P r1 r2 : ℝ} {xs : List Vec} {c : Vec} (hP : 0 < P)
    (h : (Circle.mk 0 r1).intersectCircle2D ⟨⟨0, P, 0⟩, r2⟩ = .ok xs) (h1 : pyIndex xs 1 = .ok c) :
    1e-6 ≤ c.x ∧ c.z = 0 ∧ c.x ^ 2 + c.y ^ 2 = r1 ^ 2 ∧ c.x ^ 2 + (P - c.y) ^ 2 = r2 ^ 2 := by
  unfold Circle.intersectCircle2D at h
  have hm : ((⟨0, P, 0⟩ : Vec).xy - (0 : Vec).xy).magnitude2D = P := by
    simp only [Vec.magnitude2D, Vec.xy, Vec.sub_x, Vec.sub_y, Vec.zero_x, Vec.zero_y, sub_zero]
    rw [mul_zero, zero_add, Real.sqrt_mul_self hP.le]
  dsimp only at h
  rw [hm] at h
  split_ifs at h with hc
  · obtain rfl := Except.ok.inj h
    simp [pyIndex, pyGet] at h1
  obtain ⟨d, hd, h⟩ := bind_ok h
  obtain ⟨k, hk, h⟩ := bind_ok h
  obtain ⟨w, hw, h⟩ := bind_ok h
  have ed : d = ⟨0, 1, 0⟩ := by
    refine (normalized_unit hd).unique ⟨by simp [Vec.dot], P, hP, ?_⟩
    ext <;> simp [Vec.xy]
  obtain ⟨-, hk⟩ := pyDiv_val hk
  unfold pySqrt at hw
  split_ifs at hw with hn
  have hw := Except.ok.inj hw
  have hw2 : w ^ 2 = r1 ^ 2 - k ^ 2 := by rw [← hw, Real.sq_sqrt (not_lt.mp hn)]
  have hw0 : 0 ≤ w := by rw [← hw]; exact Real.sqrt_nonneg _
  split_ifs at h with hz
  · obtain rfl := Except.ok.inj h
    simp [pyIndex, pyGet] at h1
  rw [isZero_iff, abs_of_nonneg hw0, not_lt] at hz
  obtain rfl := Except.ok.inj h
  have e : c = (0 : Vec).xy + d * k - d.ortho2D * w := by
    have := h1
    simp [pyIndex, pyGet] at this
    exact this.symm
  subst ed
  subst e
  simp only [Vec.sub_x, Vec.sub_y, Vec.sub_z, Vec.add_x, Vec.add_y, Vec.add_z, Vec.mul_x, Vec.mul_y, Vec.mul_z, Vec.xy,
    Vec.ortho2D, Vec.zero_x, Vec.zero_y]
  have ek : k * (2 * P) = r1 ^ 2 - r2 ^ 2 + P ^ 2 := by rw [hk]; field_simp
  refine ⟨by linarith, by ring, by nlinarith, by nlinarith⟩

theorem arg_cos_sin {x y r : ℝ} (hr : 0 < r) (h : x ^ 2 + y ^ 2 = r ^ 2) :
    r * Real.cos (angle2D ⟨x, y, 0⟩) = x ∧ r * Real.sin (angle2D ⟨x, y, 0⟩) = y := by
  have hn : ‖(⟨x, y⟩ : ℂ)‖ = r := by
    rw [Complex.norm_def, Complex.normSq_mk, show x * x + y * y = r ^ 2 by rw [← h]; ring, Real.sqrt_sq hr.le]
  have h0 : (⟨x, y⟩ : ℂ) ≠ 0 := by
    intro h0; rw [h0, norm_zero] at hn; linarith
  unfold angle2D
  rw [Complex.cos_arg h0, Complex.sin_arg, hn]
  constructor <;> field_simp

/-- The angle of a corner of the outline. -/
theorem knob_turn {P r1 r2 x y : ℝ} (hP : 0 < P) (h1 : 0 < r1) (h2 : 0 < r2) (hx : 0 < x) (hy : y < P)
    (e1 : x ^ 2 + y ^ 2 = r1 ^ 2) (e2 : x ^ 2 + (P - y) ^ 2 = r2 ^ 2) :
    0 < angle2D ⟨-x, P - y, 0⟩ - angle2D ⟨x, y, 0⟩ ∧ angle2D ⟨-x, P - y, 0⟩ - angle2D ⟨x, y, 0⟩ < Real.pi := by
  obtain ⟨a1, a2⟩ := arg_cos_sin h1 e1
  obtain ⟨b1, b2⟩ := arg_cos_sin (x := -x) (y := P - y) h2 (by rw [← e2]; ring)
  have hA : |angle2D ⟨x, y, 0⟩| < Real.pi / 2 := Complex.abs_arg_lt_pi_div_two_iff.mpr (.inl hx)
  have hB : ¬ |angle2D ⟨-x, P - y, 0⟩| ≤ Real.pi / 2 := by
    unfold angle2D
    rw [Complex.abs_arg_le_pi_div_two_iff]
    simpa using hx
  have hB0 : 0 ≤ angle2D ⟨-x, P - y, 0⟩ := Complex.arg_nonneg_iff.mpr (by simp; linarith)
  have hB1 : angle2D ⟨-x, P - y, 0⟩ ≤ Real.pi := Complex.arg_le_pi _
  rw [abs_of_nonneg hB0, not_le] at hB
  rw [abs_lt] at hA
  generalize angle2D ⟨x, y, 0⟩ = A at *
  generalize angle2D ⟨-x, P - y, 0⟩ = B at *
  have hs : 0 < Real.sin (B - A) := by
    rw [Real.sin_sub]
    have : r1 * r2 * (Real.sin B * Real.cos A - Real.cos B * Real.sin A) = P * x := by
      linear_combination x * b2 - y * b1 + r2 * Real.sin B * a1 - r2 * Real.cos B * a2
    have h3 : 0 < r1 * r2 * (Real.sin B * Real.cos A - Real.cos B * Real.sin A) := by rw [this]; positivity
    exact (pos_iff_pos_of_mul_pos h3).mp (by positivity)
  refine ⟨by linarith, ?_⟩
  by_contra h
  rw [not_lt] at h
  have : Real.sin (B - A) ≤ 0 := by
    rw [← neg_neg (Real.sin _), ← Real.sin_sub_pi]
    have := Real.sin_nonneg_of_nonneg_of_le_pi (x := B - A - Real.pi) (by linarith) (by linarith)
    linarith
  linarith

/-- A point of the rounded corner is neither farther from the axis than the outline nor nearer than the end of the arc. -/
theorem corner_between {P r1 c rg x y s : ℝ} (hP : 0 < P) (h1 : 0 < r1) (hc : 0 < c) (hg : 0 < rg) (hx : 0 < x) (hy : y < P)
    (e1 : x ^ 2 + y ^ 2 = r1 ^ 2) (e2 : x ^ 2 + (P - y) ^ 2 = (rg + c) ^ 2) (hs : 0 ≤ s) (hs1 : s ≤ 1) (hPg : 0 ≤ P - rg) :
    let p := circlePoint ⟨x, y, 0⟩ c (angle2D ⟨x, y, 0⟩ + s * (angle2D ⟨-x, P - y, 0⟩ - angle2D ⟨x, y, 0⟩))
    (P - rg) ^ 2 ≤ axisSq p ∧ axisSq p ≤ (r1 + c) ^ 2 := by
  obtain ⟨t0, t1⟩ := knob_turn hP h1 (r2 := rg + c) (by positivity) hx hy e1 e2
  obtain ⟨a1, a2⟩ := arg_cos_sin h1 e1
  obtain ⟨b1, b2⟩ := arg_cos_sin (x := -x) (y := P - y) (r := rg + c) (by positivity) (by rw [← e2]; ring)
  generalize angle2D ⟨x, y, 0⟩ = A at *
  generalize angle2D ⟨-x, P - y, 0⟩ = B at *
  intro p
  have hp : ∀ d, axisSq (circlePoint ⟨x, y, 0⟩ c (A + d)) = r1 ^ 2 + c ^ 2 + 2 * c * r1 * Real.cos d := by
    intro d
    simp only [axisSq, circlePoint]
    rw [Real.cos_add, Real.sin_add, ← a1, ← a2]
    have := Real.sin_sq_add_cos_sq A
    have h2 := Real.sin_sq_add_cos_sq d
    linear_combination (r1 ^ 2 + c ^ 2 * (Real.cos d ^ 2 + Real.sin d ^ 2) + 2 * c * r1 * Real.cos d) * this + c ^ 2 * h2
  have hcos : Real.cos (B - A) ≤ Real.cos (s * (B - A)) := by
    apply Real.cos_le_cos_of_nonneg_of_le_pi <;> nlinarith
  have hT : (P - rg) ^ 2 ≤ axisSq (circlePoint ⟨x, y, 0⟩ c (A + (B - A))) := by
    rw [show A + (B - A) = B by ring]
    simp only [axisSq, circlePoint]
    have hne : rg + c ≠ 0 := by positivity
    have cb : Real.cos B = -x / (rg + c) := by rw [eq_div_iff hne]; linarith
    have sb : Real.sin B = (P - y) / (rg + c) := by rw [eq_div_iff hne]; linarith
    set X := x + c * Real.cos B with hX
    set Y := y + c * Real.sin B with hY
    have hXY : X ^ 2 + (P - Y) ^ 2 = rg ^ 2 := by
      have e3 : X = x * rg / (rg + c) := by rw [hX, cb]; field_simp; ring
      have e4 : P - Y = (P - y) * rg / (rg + c) := by rw [hY, sb]; field_simp; ring
      rw [e3, e4]
      field_simp
      linear_combination e2
    have : P - Y ≤ rg := by nlinarith [sq_nonneg X]
    nlinarith
  constructor
  · rw [hp] at hT
    show _ ≤ axisSq (circlePoint ⟨x, y, 0⟩ c (A + s * (B - A)))
    rw [hp]
    nlinarith [mul_pos hc h1]
  · show axisSq (circlePoint ⟨x, y, 0⟩ c (A + s * (B - A))) ≤ _
    rw [hp]
    nlinarith [mul_pos hc h1, Real.cos_le_one (s * (B - A))]

/-- A point of the groove. -/
theorem groove_between {P r1 c rg x y s : ℝ} (hP : 0 < P) (h1 : 0 < r1) (hc : 0 < c) (hg : 0 < rg) (hx : 0 < x) (hy : y < P)
    (e1 : x ^ 2 + y ^ 2 = r1 ^ 2) (e2 : x ^ 2 + (P - y) ^ 2 = (rg + c) ^ 2) (hs : 0 ≤ s) (hs1 : s ≤ 1) :
    let p := circlePoint ⟨0, P, 0⟩ rg (angle2D ⟨x, y - P, 0⟩ + s * -(tau / 4 + angle2D ⟨x, y - P, 0⟩))
    (P - rg) ^ 2 ≤ axisSq p ∧ axisSq p ≤ (r1 + c) ^ 2 := by
  obtain ⟨b1, b2⟩ := arg_cos_sin (x := x) (y := y - P) (r := rg + c) (by positivity) (by rw [← e2]; ring)
  have hA : |angle2D ⟨x, y - P, 0⟩| < Real.pi / 2 := Complex.abs_arg_lt_pi_div_two_iff.mpr (.inl hx)
  rw [abs_lt] at hA
  generalize angle2D ⟨x, y - P, 0⟩ = A at *
  intro p
  have ht : tau / 4 = Real.pi / 2 := by unfold tau; ring
  have hp : ∀ d, axisSq (circlePoint ⟨0, P, 0⟩ rg d) = rg ^ 2 + P ^ 2 + 2 * P * rg * Real.sin d := by
    intro d
    simp only [axisSq, circlePoint]
    linear_combination rg ^ 2 * Real.sin_sq_add_cos_sq d
  have hsin : Real.sin (A + s * -(tau / 4 + A)) ≤ Real.sin A := by
    rw [ht]
    apply Real.sin_le_sin_of_le_of_le_pi_div_two <;> nlinarith
  have hT : rg ^ 2 + P ^ 2 + 2 * P * rg * Real.sin A ≤ (r1 + c) ^ 2 := by
    have hne : rg + c ≠ 0 := by positivity
    have sb : Real.sin A = (y - P) / (rg + c) := by rw [eq_div_iff hne]; linarith
    have k1 : 2 * P * (P - y) = P ^ 2 - r1 ^ 2 + (rg + c) ^ 2 := by nlinarith
    have k2 : P ≤ r1 + (rg + c) := by
      have : y ≤ r1 := by nlinarith [sq_nonneg x]
      have : P - y ≤ rg + c := by nlinarith [sq_nonneg x]
      linarith
    have k3 : rg ^ 2 + P ^ 2 + 2 * P * rg * Real.sin A = (r1 + c) ^ 2 - c * ((r1 + (rg + c)) ^ 2 - P ^ 2) / (rg + c) := by
      rw [sb]
      have : 2 * P * rg * ((y - P) / (rg + c)) = -(rg * (2 * P * (P - y)) / (rg + c)) := by field_simp; ring
      rw [this, k1]
      field_simp
      ring
    rw [k3]
    have : 0 ≤ c * ((r1 + (rg + c)) ^ 2 - P ^ 2) / (rg + c) := by
      apply div_nonneg _ (by positivity)
      apply mul_nonneg hc.le
      nlinarith
    linarith
  have hPr := mul_pos hP hg
  constructor
  · show _ ≤ axisSq (circlePoint ⟨0, P, 0⟩ rg (A + s * -(tau / 4 + A)))
    rw [hp]
    nlinarith [Real.neg_one_le_sin (A + s * -(tau / 4 + A))]
  · show axisSq (circlePoint ⟨0, P, 0⟩ rg (A + s * -(tau / 4 + A))) ≤ _
    rw [hp]
    nlinarith

theorem snapped_near (v : Vec) : |v.snapped.x - v.x| < 1e-6 ∧ |v.snapped.y - v.y| < 1e-6 ∧ v.snapped.x ^ 2 ≤ v.x ^ 2 ∧
    v.snapped.y ^ 2 ≤ v.y ^ 2 ∧ v.x ^ 2 ≤ v.snapped.x ^ 2 + 1e-12 ∧ v.y ^ 2 ≤ v.snapped.y ^ 2 + 1e-12 ∧
    (v.z = 0 → v.snapped.z = 0) := by
  have h1 := C20_snapped v Vec.x (.inl rfl)
  have h2 := C20_snapped v Vec.y (.inr (.inl rfl))
  have h3 := C20_snapped v Vec.z (.inr (.inr rfl))
  have key : ∀ a b : ℝ, (|a| < 1e-6 → b = 0) → (1e-6 ≤ |a| → b = a) → b ^ 2 ≤ a ^ 2 ∧ a ^ 2 ≤ b ^ 2 + 1e-12 := by
    intro a b k1 k2
    rcases lt_or_ge |a| 1e-6 with h | h
    · rw [k1 h]
      have := sq_abs a
      have := abs_nonneg a
      constructor
      · nlinarith
      · norm_num at h ⊢; nlinarith
    · rw [k2 h]; constructor <;> norm_num
  refine ⟨h1.2.2, h2.2.2, (key _ _ h1.1 h1.2.1).1, (key _ _ h2.1 h2.2.1).1, (key _ _ h1.1 h1.2.1).2, (key _ _ h2.1 h2.2.1).2, ?_⟩
  intro hz
  exact h3.1 (by rw [hz]; norm_num)

theorem rotZ_axis (a : ℝ) (v : Vec) : (v.transformed ((1 : Mat).rotatedZ a)).z = v.z ∧
    axisSq (v.transformed ((1 : Mat).rotatedZ a)) = axisSq v := by
  rw [rotZ_transformed]
  refine ⟨rfl, ?_⟩
  simp only [axisSq]
  linear_combination (v.x ^ 2 + v.y ^ 2) * Real.sin_sq_add_cos_sq a

/-- One groove before it is repeated. -/
theorem segment_bounds {q : Quality} {cfg : KnobCfg} (ho : SaneOutside cfg) (hq : 0 < q.maxChordAngle)
    (hi : cfg.grooveInset < cfg.outerDiameter / 2)
    (ht : (cfg.outerDiameter / 2) ^ 2 + (cfg.grooveDiameter / 2) ^ 2 < KnobCfg.pitch cfg ^ 2) {seg : List Vec} (h : grooveSegment q cfg = .ok seg) :
    (∀ p ∈ seg, p.z = 0 ∧ (cfg.outerDiameter / 2 - cfg.grooveInset) ^ 2 ≤ axisSq p ∧ axisSq p ≤ (cfg.outerDiameter / 2) ^ 2) ∧
    (⟨0, cfg.outerDiameter / 2 - cfg.grooveInset, 0⟩ : Vec) ∈ seg ∧
    circlePoint 0 (cfg.outerDiameter / 2) (Real.pi / 2 - Real.pi / cfg.grooveCount) ∈ seg := by
  unfold grooveSegment at h
  dsimp only at h
  obtain ⟨xs, hxs, h⟩ := bind_ok h
  obtain ⟨c, hc, h⟩ := bind_ok h
  obtain ⟨sp, hsp, h⟩ := bind_ok h
  obtain ⟨a1, h1, h⟩ := bind_ok h
  obtain ⟨a2, h2, h⟩ := bind_ok h
  obtain ⟨a3, h3, h⟩ := bind_ok h
  obtain rfl := Except.ok.inj h
  obtain ⟨-, hsp⟩ := pyDiv_val hsp
  have o1 := ho.outer
  have o2 := ho.groove
  have o3 := ho.corner
  have o4 := ho.corner_le
  have o5 := ho.inset
  unfold KnobCfg.pitch at ht
  have q4 : cfg.outerDiameter / 4 = cfg.outerDiameter / 2 / 2 := by ring
  rw [q4] at o4
  clear q4
  generalize cfg.outerDiameter / 2 = R at *
  generalize cfg.grooveDiameter / 2 = rg at *
  generalize cfg.grooveInset = d at *
  generalize cfg.grooveCornerRadius = k at *
  set P := R + rg - d with hP
  have hP0 : 0 < P := by linarith
  obtain ⟨c1, c2, c3, c4⟩ := groove_corner hP0 hxs hc
  obtain ⟨x, y, z⟩ := c
  obtain rfl : z = 0 := c2
  dsimp only at c1 c3 c4
  have hx : 0 < x := by norm_num at c1; linarith
  have hy : y < P := by nlinarith
  have hr1 : 0 < R - k := by linarith
  have hk : 0 < k := by linarith
  have hg : 0 < rg := by linarith
  have e1 : (⟨0, P, 0⟩ - ⟨x, y, 0⟩ : Vec) = ⟨-x, P - y, 0⟩ := by ext <;> simp
  have e2 : (⟨x, y, 0⟩ - ⟨0, P, 0⟩ : Vec) = ⟨x, y - P, 0⟩ := by ext <;> simp
  rw [e1] at h2
  rw [e2] at h3
  obtain ⟨t0, t1⟩ := knob_turn hP0 hr1 (r2 := rg + k) (by positivity) hx hy c3 c4
  have hA : |angle2D ⟨x, y - P, 0⟩| < Real.pi / 2 := Complex.abs_arg_lt_pi_div_two_iff.mpr (.inl hx)
  rw [abs_lt] at hA
  have ht4 : tau / 4 = Real.pi / 2 := by unfold tau; ring
  have hsp3 : |(-(tau / 4 + angle2D ⟨x, y - P, 0⟩))| < Real.pi := by
    rw [abs_neg, ht4, abs_lt]; constructor <;> linarith [Real.pi_pos]
  have key : ∀ p ∈ a1 ++ a2 ++ a3, p.z = 0 ∧ (R - d) ^ 2 ≤ axisSq p ∧ axisSq p ≤ R ^ 2 := by
    intro p hp
    rw [List.mem_append, List.mem_append] at hp
    rcases hp with (hp | hp) | hp
    · obtain ⟨z0, hz⟩ := C53_on_circle (by linarith) hq h1 p hp
      have : axisSq p = R ^ 2 := by
        rw [← hz]; simp [axisSq, distSq2D]
      rw [this]
      exact ⟨z0, by nlinarith, le_refl _⟩
    · obtain ⟨s, hs0, hs1, rfl⟩ := arc_between (by linarith) hq (by rw [abs_of_pos t0]; exact t1.le) h2 p hp
      have := corner_between hP0 hr1 hk hg hx hy c3 c4 hs0 hs1 (by linarith)
      dsimp only at this
      rw [show P - rg = R - d by rw [hP]; ring, show R - k + k = R by ring] at this
      exact ⟨rfl, this⟩
    · obtain ⟨s, hs0, hs1, rfl⟩ := arc_between (by linarith) hq hsp3.le h3 p hp
      have := groove_between hP0 hr1 hk hg hx hy c3 c4 hs0 hs1
      dsimp only at this
      rw [show P - rg = R - d by rw [hP]; ring, show R - k + k = R by ring] at this
      exact ⟨rfl, this⟩
  refine ⟨?_, ?_, ?_⟩
  · intro p hp
    rcases List.mem_append.mp hp with hp | hp
    · exact key p hp
    · rw [List.mem_reverse] at hp
      obtain ⟨v, hv, rfl⟩ := List.mem_map.mp hp
      have := key v hv
      simpa [axisSq, Vec.mirroredX] using this
  · have hl := (C53_ends (by linarith) hq h3).2 (by have := hsp3; unfold tau at this ⊢; linarith [this, Real.pi_gt_three])
    have hm := List.mem_of_getLast? hl.2
    apply List.mem_append_left
    apply List.mem_append_right
    convert hm using 1
    rw [show angle2D ⟨x, y - P, 0⟩ + -(tau / 4 + angle2D ⟨x, y - P, 0⟩) = -(Real.pi / 2) by rw [ht4]; ring]
    simp only [circlePoint, Real.cos_neg, Real.sin_neg, Real.cos_pi_div_two, Real.sin_pi_div_two]
    ext <;> simp [hP]
    ring
  · have hl := (C53_ends (by linarith) hq h1).1
    have hm := List.mem_of_mem_head? (Option.mem_def.mpr hl)
    apply List.mem_append_left
    apply List.mem_append_left
    apply List.mem_append_left
    convert hm using 2
    rw [hsp, ht4]
    unfold tau
    ring

/-- **C97** The outline of the knob. Without grooves, it is a circle. Otherwise all its corners are between the outer circle and
the bottom of the grooves; every groove reaches its depth, exactly at its multiple of the segment angle; and in the middle between two
grooves the outline reaches the outer circle. -/
theorem C97_outline {q : Quality} {cfg : KnobCfg} (ho : SaneOutside cfg) (hq : 0 < q.maxChordAngle) {pts : List Vec}
    (h : grooveSketch q cfg = .ok pts) :
    (cfg.grooveCount ≤ 0 → ∀ p ∈ pts, p.z = 0 ∧ axisSq p = (cfg.outerDiameter / 2) ^ 2) ∧
    (0 < cfg.grooveCount → cfg.grooveInset < cfg.outerChamfer ∧
      (∀ p ∈ pts, p.z = 0 ∧ (cfg.outerDiameter / 2 - cfg.grooveInset) ^ 2 - 2e-12 ≤ axisSq p ∧
        axisSq p ≤ (cfg.outerDiameter / 2) ^ 2) ∧
      ∃ raw, pts = collapsed raw (1 / 1000) ∧ ∀ i : ℕ, i < cfg.grooveCount →
        (∃ p ∈ raw, |p.x - (cfg.outerDiameter / 2 - cfg.grooveInset) * Real.cos (Real.pi / 2 + 2 * Real.pi / cfg.grooveCount * i)| < 1e-6 ∧
          |p.y - (cfg.outerDiameter / 2 - cfg.grooveInset) * Real.sin (Real.pi / 2 + 2 * Real.pi / cfg.grooveCount * i)| < 1e-6) ∧
        ∃ p ∈ raw, |p.x - cfg.outerDiameter / 2 * Real.cos (Real.pi / 2 + 2 * Real.pi / cfg.grooveCount * (i - 1 / 2))| < 1e-6 ∧
          |p.y - cfg.outerDiameter / 2 * Real.sin (Real.pi / 2 + 2 * Real.pi / cfg.grooveCount * (i - 1 / 2))| < 1e-6) := by
  have o1 := ho.outer
  have o6 := ho.chamfer_lt
  unfold grooveSketch at h
  dsimp only at h
  by_cases hn : cfg.grooveCount ≤ 0
  · rw [if_pos hn] at h
    refine ⟨fun _ p hp => ?_, fun h0 => absurd hn (not_le.mpr h0)⟩
    obtain ⟨z0, hz⟩ := C53_on_circle (by linarith) hq h p hp
    exact ⟨z0, by rw [← hz]; simp [axisSq, distSq2D]⟩
  rw [if_neg hn] at h
  refine ⟨fun h0 => absurd h0 hn, fun hn0 => ?_⟩
  obtain ⟨th, hth, h⟩ := bind_ok h
  split_ifs at h with hi1 hi2
  obtain ⟨seg, hseg, h⟩ := bind_ok h
  obtain ⟨sp, hsp, h⟩ := bind_ok h
  have h := Except.ok.inj h
  obtain ⟨hne, hsp⟩ := pyDiv_val hsp
  rw [not_le] at hi1 hi2
  have ht : (cfg.outerDiameter / 2) ^ 2 + (cfg.grooveDiameter / 2) ^ 2 < KnobCfg.pitch cfg ^ 2 := by
    unfold pySqrt at hth
    split_ifs at hth with hh
    have hth := Except.ok.inj hth
    have h0 : 0 ≤ th := by rw [← hth]; exact Real.sqrt_nonneg _
    have h2 : th ^ 2 = (cfg.outerDiameter / 2) ^ 2 + (cfg.grooveDiameter / 2) ^ 2 := by
      rw [← hth, Real.sq_sqrt (not_lt.mp hh)]
    rw [← h2]
    have : th < KnobCfg.pitch cfg := by unfold KnobCfg.pitch; linarith
    nlinarith
  obtain ⟨b1, b2, b3⟩ := segment_bounds ho hq (by linarith) ht hseg
  have hall : ∀ i : ℕ, i < cfg.grooveCount → ∀ v ∈ seg, (v.transformed ((1 : Mat).rotatedZ (sp * i))).snapped ∈
      edgeSnapped (seg ++ (List.range (cfg.grooveCount.toNat - 1)).flatMap fun (i : ℕ) =>
        edgeTransformed seg ((1 : Mat).rotatedZ (sp * ((i + 1 : ℕ) : ℝ)))) := by
    intro i hi v hv
    apply List.mem_map_of_mem
    rcases i with _ | i
    · apply List.mem_append_left
      rw [rotZ_transformed]
      simpa using hv
    · apply List.mem_append_right
      rw [List.mem_flatMap]
      refine ⟨i, List.mem_range.mpr (by omega), List.mem_map_of_mem hv⟩
  refine ⟨hi2, ?_, _, h.symm, ?_⟩
  · intro p hp
    rw [← h] at hp
    replace hp := (C35_subsequence _ _).1.subset hp
    obtain ⟨v, hv, rfl⟩ := List.mem_map.mp hp
    have hb : v.z = 0 ∧ (cfg.outerDiameter / 2 - cfg.grooveInset) ^ 2 ≤ axisSq v ∧ axisSq v ≤ (cfg.outerDiameter / 2) ^ 2 := by
      rcases List.mem_append.mp hv with hv | hv
      · exact b1 v hv
      · obtain ⟨i, -, hv⟩ := List.mem_flatMap.mp hv
        obtain ⟨w, hw, rfl⟩ := List.mem_map.mp hv
        obtain ⟨k1, k2⟩ := rotZ_axis (sp * ((i + 1 : ℕ) : ℝ)) w
        rw [k1, k2]
        exact b1 w hw
    obtain ⟨-, -, s3, s4, s5, s6, s7⟩ := snapped_near v
    simp only [axisSq] at hb ⊢
    refine ⟨s7 hb.1, ?_, by linarith⟩
    norm_num at s5 s6 ⊢
    linarith
  · intro i hi
    constructor
    · refine ⟨_, hall i hi _ b2, ?_⟩
      obtain ⟨s1, s2, -⟩ := snapped_near ((⟨0, cfg.outerDiameter / 2 - cfg.grooveInset, 0⟩ : Vec).transformed ((1 : Mat).rotatedZ (sp * i)))
      have e : 2 * Real.pi / cfg.grooveCount * i = sp * i := by rw [hsp]; rfl
      rw [e, Real.cos_add, Real.sin_add, Real.cos_pi_div_two, Real.sin_pi_div_two]
      convert And.intro s1 s2 using 4 <;> rw [rotZ_transformed] <;> ring
    · refine ⟨_, hall i hi _ b3, ?_⟩
      obtain ⟨s1, s2, -⟩ := snapped_near ((circlePoint 0 (cfg.outerDiameter / 2) (Real.pi / 2 - Real.pi / cfg.grooveCount)).transformed ((1 : Mat).rotatedZ (sp * i)))
      have e : Real.pi / 2 + 2 * Real.pi / cfg.grooveCount * (i - 1 / 2) = (Real.pi / 2 - Real.pi / cfg.grooveCount) + sp * i := by
        rw [hsp]; unfold tau; field_simp; ring
      rw [e, Real.cos_add, Real.sin_add]
      convert And.intro s1 s2 using 4 <;> rw [rotZ_transformed] <;> simp only [circlePoint, Vec.zero_x, Vec.zero_y] <;> ring

end Chrumm.Part
