import Verif.Props.Arc
import Verif.Props.Strips
import Mathlib.Analysis.Real.Pi.Bounds
import Mathlib.Analysis.SpecialFunctions.Trigonometric.Bounds
import Verif.Spec.Parts

/-! Tools for the meshes of arcs. -/

namespace Chrumm.Part
open Geo Geo.Spec Spec

theorem arccos_ge {x : ℝ} (h0 : 0 ≤ x) : Real.sqrt (2 * x) ≤ Real.arccos (1 - x) ∨ 2 < x := by
  by_cases h2 : 2 < x
  · exact Or.inr h2
  · left
    push Not at h2
    have hs : Real.sqrt (2 * x) ≤ 2 := by
      rw [Real.sqrt_le_left (by norm_num)]
      linarith
    have hp := Real.two_le_pi
    have h1 := Real.one_sub_sq_div_two_le_cos (x := Real.sqrt (2 * x))
    rw [Real.sq_sqrt (by linarith)] at h1
    have : Real.arccos (Real.cos (Real.sqrt (2 * x))) ≤ Real.arccos (1 - x) := Real.arccos_le_arccos (by linarith)
    rwa [Real.arccos_cos (Real.sqrt_nonneg _) (by linarith)] at this

/-- The step of an arc is not too small. -/
theorem step_ge {q : Quality} {radius start span : ℝ} {center : Vec} {pts : List Vec} (hq : SaneQuality q)
    (hr : 1 / 2 ≤ radius) (d : ArcData q radius start span center pts) (hS : Real.pi / 2 ≤ |clampSpan span|) :
    0 < |clampSpan span / d.n| ∧ |clampSpan span / d.n| ≤ Real.pi / 2 ∧
    7 / 1000 ≤ radius * Real.sin (|clampSpan span / d.n| / 2) ∧
    0 < Real.sin (|clampSpan span / d.n| / 2) ∧
    1e-6 ≤ 2 * radius ^ 2 * Real.sin (|clampSpan span / d.n| / 2) ^ 3 := by
  have hnR : (0 : ℝ) < d.n := by exact_mod_cast d.n_pos
  have hm := d.max_pos
  have hn := d.n_lt
  have hfit := d.fits
  have hang := d.step_angle
  set M := min q.maxChordAngle (Real.arccos (1 - q.maxChordHeight / radius) * 2) with hM
  have hMq : M ≤ Real.pi / 2 := (min_le_left _ _).trans hq.quarter
  have hr0 : 0 < radius := by linarith
  set S := |clampSpan span| with hSd
  have hθ : |clampSpan span / d.n| = S / d.n := by rw [abs_div, abs_of_pos hnR]
  rw [hθ] at hang ⊢
  set θ := S / d.n with hθd
  have hpi := Real.pi_pos
  have hpi3 := Real.pi_gt_three
  have hpi4 : Real.pi < 3.15 := Real.pi_lt_d2
  have hS0 : 0 < S := by linarith
  have h1 : M / 2 ≤ θ := by
    rw [hθd, le_div_iff₀ hnR]
    have : (d.n : ℝ) * M ≤ S + M := by
      have := mul_le_mul_of_nonneg_right hn.le hm.le
      rw [add_mul, div_mul_cancel₀ _ hm.ne', one_mul] at this
      exact this
    nlinarith
  have hθ0 : 0 < θ := by linarith
  have hθ2 : θ ≤ Real.pi / 2 := hang.trans hq.quarter
  have hs : θ / Real.pi ≤ Real.sin (θ / 2) := by
    have := Real.mul_le_sin (x := θ / 2) (by linarith) (by linarith)
    calc θ / Real.pi = 2 / Real.pi * (θ / 2) := by ring
      _ ≤ _ := this
  have hs2 : M / (2 * 3.15) ≤ Real.sin (θ / 2) := by
    refine le_trans ?_ hs
    rw [div_le_div_iff₀ (by norm_num) hpi]
    nlinarith
  have hsp : 0 < Real.sin (θ / 2) := lt_of_lt_of_le (by positivity) hs2
  set s := Real.sin (θ / 2) with hsd
  refine ⟨hθ0, hθ2, ?_, hsp, ?_⟩ <;> rcases le_total q.maxChordAngle (Real.arccos (1 - q.maxChordHeight / radius) * 2) with hc | hc
  · rw [min_eq_left hc] at hM
    have h3 : (0.015 : ℝ) ≤ s := by
      refine le_trans ?_ hs2
      rw [hM, le_div_iff₀ (by norm_num)]
      have := hq.angle
      linarith
    nlinarith
  · rw [min_eq_right hc] at hM
    have hx : 0 ≤ q.maxChordHeight / radius := div_nonneg (by linarith [hq.height]) hr0.le
    rcases arccos_ge hx with h3 | h3
    · set y := Real.sqrt (2 * (q.maxChordHeight / radius)) with hy
      have hy2 : radius * y ^ 2 = 2 * q.maxChordHeight := by
        rw [hy, Real.sq_sqrt (by linarith)]; field_simp
      have hy0 : 0 ≤ y := Real.sqrt_nonneg _
      have h4 : y / 3.15 ≤ s := by
        refine le_trans ?_ hs2
        rw [hM, div_le_div_iff₀ (by norm_num) (by norm_num)]
        linarith
      have h5 : 1e-3 ≤ (radius * y) ^ 2 := by
        have : (radius * y) ^ 2 = radius * (radius * y ^ 2) := by ring
        rw [this, hy2]
        nlinarith [hq.height]
      have h6 : 0.0315 ≤ radius * y := by
        by_contra hcon
        push Not at hcon
        have : (radius * y) ^ 2 < 0.0315 ^ 2 := by
          apply pow_lt_pow_left₀ hcon (by positivity) (by norm_num)
        norm_num at this
        norm_num at h5
        linarith
      have h7 : radius * (y / 3.15) ≤ radius * s := mul_le_mul_of_nonneg_left h4 hr0.le
      have : radius * (y / 3.15) = radius * y / 3.15 := by ring
      rw [this] at h7
      refine le_trans ?_ h7
      rw [le_div_iff₀ (by norm_num)]
      linarith
    · rw [lt_div_iff₀ hr0] at h3
      linarith
  · rw [min_eq_left hc] at hM
    have h3 : (0.0158 : ℝ) ≤ s := by
      refine le_trans ?_ hs2
      rw [hM, le_div_iff₀ (by norm_num)]
      have := hq.angle
      linarith
    have h4 : (0.0158 : ℝ) ^ 3 ≤ s ^ 3 := pow_le_pow_left₀ (by norm_num) h3 3
    have h5 : (1 / 2 : ℝ) ^ 2 ≤ radius ^ 2 := pow_le_pow_left₀ (by norm_num) hr 2
    have h6 : (1 / 2 : ℝ) ^ 2 * 0.0158 ^ 3 ≤ radius ^ 2 * s ^ 3 :=
      mul_le_mul h5 h4 (by norm_num) (by positivity)
    rw [mul_assoc]
    refine le_trans ?_ (mul_le_mul_of_nonneg_left h6 (by norm_num : (0 : ℝ) ≤ 2))
    norm_num
  · rw [min_eq_right hc] at hM
    have hx : 0 ≤ q.maxChordHeight / radius := div_nonneg (by linarith [hq.height]) hr0.le
    rcases arccos_ge hx with h3 | h3
    · set y := Real.sqrt (2 * (q.maxChordHeight / radius)) with hy
      have hy2 : radius * y ^ 2 = 2 * q.maxChordHeight := by
        rw [hy, Real.sq_sqrt (by linarith)]; field_simp
      have hy0 : 0 ≤ y := Real.sqrt_nonneg _
      have h4 : y / 3.15 ≤ s := by
        refine le_trans ?_ hs2
        rw [hM, div_le_div_iff₀ (by norm_num) (by norm_num)]
        linarith
      have h5 : 4e-9 ≤ (radius ^ 2 * y ^ 3) ^ 2 := by
        have e : (radius ^ 2 * y ^ 3) ^ 2 = radius * (radius * y ^ 2) ^ 3 := by ring
        rw [e, hy2]
        have : (2 * (1 / 1000 : ℝ)) ^ 3 ≤ (2 * q.maxChordHeight) ^ 3 :=
          pow_le_pow_left₀ (by norm_num) (by linarith [hq.height]) 3
        have := mul_le_mul hr this (by norm_num) hr0.le
        refine le_trans ?_ this
        norm_num
      have h6 : 6e-5 ≤ radius ^ 2 * y ^ 3 := by
        by_contra hcon
        push Not at hcon
        have : (radius ^ 2 * y ^ 3) ^ 2 < 6e-5 ^ 2 := pow_lt_pow_left₀ hcon (by positivity) (by norm_num)
        norm_num at this
        norm_num at h5
        linarith
      have h7 : (y / 3.15) ^ 3 ≤ s ^ 3 := pow_le_pow_left₀ (by positivity) h4 3
      have h8 : radius ^ 2 * (y / 3.15) ^ 3 ≤ radius ^ 2 * s ^ 3 := mul_le_mul_of_nonneg_left h7 (by positivity)
      have e : radius ^ 2 * (y / 3.15) ^ 3 = radius ^ 2 * y ^ 3 / 3.15 ^ 3 := by ring
      rw [e] at h8
      have h9 : 6e-5 / 3.15 ^ 3 ≤ radius ^ 2 * y ^ 3 / 3.15 ^ 3 := div_le_div_of_nonneg_right h6 (by norm_num)
      rw [mul_assoc]
      refine le_trans ?_ (mul_le_mul_of_nonneg_left (h9.trans h8) (by norm_num : (0 : ℝ) ≤ 2))
      norm_num
    · rw [lt_div_iff₀ hr0] at h3
      linarith

/-- A point of a circle at a height. -/
noncomputable def ringPoint (c : Vec) (r z φ : ℝ) : Vec := ⟨c.x + r * Real.cos φ, c.y + r * Real.sin φ, z⟩

theorem ringPoint_period (c : Vec) (r z φ : ℝ) (k : ℤ) : ringPoint c r z (φ + k * (2 * Real.pi)) = ringPoint c r z φ := by
  unfold ringPoint
  rw [Real.cos_add_int_mul_two_pi, Real.sin_add_int_mul_two_pi]

theorem chord_sq (φ θ : ℝ) : (Real.cos (φ + θ) - Real.cos φ) ^ 2 + (Real.sin (φ + θ) - Real.sin φ) ^ 2 =
    4 * Real.sin (θ / 2) ^ 2 := by
  have h1 : Real.cos (φ + θ) - Real.cos φ = -2 * Real.sin (φ + θ / 2) * Real.sin (θ / 2) := by
    rw [Real.cos_sub_cos]
    congr 2
    · congr 1; congr 1; ring
    · congr 1; ring
  have h2 : Real.sin (φ + θ) - Real.sin φ = 2 * Real.sin (θ / 2) * Real.cos (φ + θ / 2) := by
    rw [Real.sin_sub_sin]
    congr 2
    · congr 1; congr 1; ring
    · ring
  rw [h1, h2]
  linear_combination (4 * Real.sin (θ / 2) ^ 2) * Real.sin_sq_add_cos_sq (φ + θ / 2)

/-- Twice the area of a triangle with two corners on one ring and the third on another. -/
theorem ring_cross (c : Vec) (r1 z1 r2 z2 φ θ : ℝ) (ψ : ℝ) (hψ : ψ = φ ∨ ψ = φ + θ) :
    ((ringPoint c r1 z1 (φ + θ) - ringPoint c r1 z1 φ).cross (ringPoint c r2 z2 ψ - ringPoint c r1 z1 φ)).magSquared =
      4 * r1 ^ 2 * Real.sin (θ / 2) ^ 2 * ((z2 - z1) ^ 2 + (r2 - r1) ^ 2 * Real.cos (θ / 2) ^ 2) := by
  have hc := chord_sq φ θ
  have hsθ : Real.sin (φ + θ) * Real.cos φ - Real.cos (φ + θ) * Real.sin φ = 2 * Real.sin (θ / 2) * Real.cos (θ / 2) := by
    rw [← Real.sin_sub, ← Real.sin_two_mul]
    congr 1; ring
  have hf := Real.sin_sq_add_cos_sq φ
  have hf' := Real.sin_sq_add_cos_sq (φ + θ)
  rcases hψ with rfl | rfl
  · simp only [ringPoint, Vec.cross, Vec.magSquared, Vec.sub_x, Vec.sub_y, Vec.sub_z]
    generalize Real.cos (ψ + θ) = C at *
    generalize Real.sin (ψ + θ) = D at *
    generalize Real.cos ψ = A at *
    generalize Real.sin ψ = B at *
    generalize Real.sin (θ / 2) = s at *
    generalize Real.cos (θ / 2) = k at *
    linear_combination (r1 ^ 2 * (z2 - z1) ^ 2) * hc + (r1 * (r2 - r1)) ^ 2 * (D * A - C * B + 2 * s * k) * hsθ
  · simp only [ringPoint, Vec.cross, Vec.magSquared, Vec.sub_x, Vec.sub_y, Vec.sub_z]
    generalize Real.cos (φ + θ) = C at *
    generalize Real.sin (φ + θ) = D at *
    generalize Real.cos φ = A at *
    generalize Real.sin φ = B at *
    generalize Real.sin (θ / 2) = s at *
    generalize Real.cos (θ / 2) = k at *
    linear_combination (r1 ^ 2 * (z2 - z1) ^ 2) * hc + (r1 * (r2 - r1)) ^ 2 * (D * A - C * B + 2 * s * k) * hsθ

/-- A quad between two rings is good if the rings coincide, or if there is a sufficient distance. -/
theorem ring_good (c : Vec) (r1 z1 r2 z2 φ θ : ℝ) (hk : 1 / 2 ≤ Real.cos (θ / 2) ^ 2)
    (h1 : 7 / 1000 ≤ |r1 * Real.sin (θ / 2)|) (h2 : 7 / 1000 ≤ |r2 * Real.sin (θ / 2)|)
    (hd : (r1 = r2 ∧ z1 = z2) ∨ 1 / 1000 ≤ |z2 - z1| ∨ 1 / 1000 ≤ |r2 - r1|) :
    GoodQuad (ringPoint c r1 z1 φ) (ringPoint c r1 z1 (φ + θ)) (ringPoint c r2 z2 (φ + θ)) (ringPoint c r2 z2 φ) := by
  rcases hd with ⟨rfl, rfl⟩ | hd
  · exact goodQuad_same rfl rfl
  · have key : ∀ r z r' z' : ℝ, 7 / 1000 ≤ |r * Real.sin (θ / 2)| → (1 / 1000 ≤ |z' - z| ∨ 1 / 1000 ≤ |r' - r|) →
        (2 * 1e-6 : ℝ) ^ 2 ≤ 4 * r ^ 2 * Real.sin (θ / 2) ^ 2 * ((z' - z) ^ 2 + (r' - r) ^ 2 * Real.cos (θ / 2) ^ 2) := by
      intro r z r' z' hr hd
      have e1 : (7 / 1000 : ℝ) ^ 2 ≤ r ^ 2 * Real.sin (θ / 2) ^ 2 := by
        rw [← mul_pow, ← sq_abs (r * _)]
        exact pow_le_pow_left₀ (by norm_num) hr 2
      have e2 : (1 / 1000 : ℝ) ^ 2 / 2 ≤ (z' - z) ^ 2 + (r' - r) ^ 2 * Real.cos (θ / 2) ^ 2 := by
        rcases hd with hd | hd
        · have := pow_le_pow_left₀ (by norm_num) hd 2
          rw [sq_abs] at this
          nlinarith [mul_nonneg (sq_nonneg (r' - r)) (sq_nonneg (Real.cos (θ / 2)))]
        · have := pow_le_pow_left₀ (by norm_num) hd 2
          rw [sq_abs] at this
          nlinarith [sq_nonneg (z' - z)]
      calc (2 * 1e-6 : ℝ) ^ 2 ≤ 4 * ((7 / 1000 : ℝ) ^ 2 * ((1 / 1000 : ℝ) ^ 2 / 2)) := by norm_num
        _ ≤ 4 * ((r ^ 2 * Real.sin (θ / 2) ^ 2) * ((z' - z) ^ 2 + (r' - r) ^ 2 * Real.cos (θ / 2) ^ 2)) := by
          apply mul_le_mul_of_nonneg_left _ (by norm_num)
          exact mul_le_mul e1 e2 (by norm_num) (by positivity)
        _ = _ := by ring
    have hd' : 1 / 1000 ≤ |z1 - z2| ∨ 1 / 1000 ≤ |r1 - r2| := by
      rwa [abs_sub_comm z1, abs_sub_comm r1]
    refine goodQuad_four (area_of_sq le_rfl ?_) (area_of_sq le_rfl ?_) (area_of_sq le_rfl ?_)
    · rw [ring_cross c r1 z1 r2 z2 φ θ (φ + θ) (Or.inr rfl)]
      exact key _ _ _ _ h1 hd
    · have := ring_cross c r2 z2 r1 z1 (φ + θ) (-θ) φ (Or.inr (by ring))
      rw [show φ + θ + -θ = φ by ring] at this
      rw [this, neg_div, Real.sin_neg, Real.cos_neg]
      have := key r2 z2 r1 z1 h2 hd'
      rw [neg_sq]
      exact this
    · rw [ring_cross c r1 z1 r2 z2 φ θ φ (Or.inl rfl)]
      exact key _ _ _ _ h1 hd

/-- Twice the area of a triangle on a ring. -/
theorem ring_fan (c : Vec) (r z φ u v : ℝ) :
    ((ringPoint c r z (φ + u) - ringPoint c r z (φ + v)).cross (ringPoint c r z φ - ringPoint c r z (φ + v))).magSquared =
      (4 * r ^ 2 * Real.sin ((v - u) / 2) * Real.sin (u / 2) * Real.sin (v / 2)) ^ 2 := by
  have e : (ringPoint c r z (φ + u) - ringPoint c r z (φ + v)).cross (ringPoint c r z φ - ringPoint c r z (φ + v)) =
      ⟨0, 0, -(4 * r ^ 2 * Real.sin ((v - u) / 2) * Real.sin (u / 2) * Real.sin (v / 2))⟩ := by
    have h1 : Real.cos (φ + v) = Real.cos (φ + u / 2 + (v - u / 2)) := by congr 1; ring
    have key : (Real.cos (φ + u) - Real.cos (φ + v)) * (Real.sin φ - Real.sin (φ + v)) -
        (Real.sin (φ + u) - Real.sin (φ + v)) * (Real.cos φ - Real.cos (φ + v)) =
        -(4 * Real.sin ((v - u) / 2) * Real.sin (u / 2) * Real.sin (v / 2)) := by
      have a1 : Real.cos (φ + u) - Real.cos (φ + v) = -2 * Real.sin ((φ + u + (φ + v)) / 2) * Real.sin ((φ + u - (φ + v)) / 2) :=
        Real.cos_sub_cos _ _
      have a2 : Real.sin (φ + u) - Real.sin (φ + v) = 2 * Real.sin ((φ + u - (φ + v)) / 2) * Real.cos ((φ + u + (φ + v)) / 2) :=
        Real.sin_sub_sin _ _
      have a3 : Real.cos φ - Real.cos (φ + v) = -2 * Real.sin ((φ + (φ + v)) / 2) * Real.sin ((φ - (φ + v)) / 2) :=
        Real.cos_sub_cos _ _
      have a4 : Real.sin φ - Real.sin (φ + v) = 2 * Real.sin ((φ - (φ + v)) / 2) * Real.cos ((φ + (φ + v)) / 2) :=
        Real.sin_sub_sin _ _
      rw [a1, a2, a3, a4]
      have b1 : (φ + u - (φ + v)) / 2 = -((v - u) / 2) := by ring
      have b2 : (φ - (φ + v)) / 2 = -(v / 2) := by ring
      have b3 : Real.sin (u / 2) = Real.sin ((φ + u + (φ + v)) / 2) * Real.cos ((φ + (φ + v)) / 2) -
          Real.cos ((φ + u + (φ + v)) / 2) * Real.sin ((φ + (φ + v)) / 2) := by
        rw [← Real.sin_sub]; congr 1; ring
      rw [b1, b2, b3, Real.sin_neg, Real.sin_neg]
      ring
    ext
    · simp [ringPoint, Vec.cross]
    · simp [ringPoint, Vec.cross]
    · simp only [ringPoint, Vec.cross, Vec.sub_x, Vec.sub_y]
      linear_combination r ^ 2 * key
  rw [e]
  simp [Vec.magSquared]
  ring

/-- Sines between the first and the last step. -/
theorem sin_ge {θ x : ℝ} (h0 : 0 ≤ θ) (h1 : θ ≤ x) (h2 : x ≤ Real.pi - θ) : Real.sin θ ≤ Real.sin x := by
  rcases le_total x (Real.pi / 2) with h | h
  · exact Real.sin_le_sin_of_le_of_le_pi_div_two (by linarith) h h1
  · rw [← Real.sin_pi_sub x]
    exact Real.sin_le_sin_of_le_of_le_pi_div_two (by linarith) (by linarith) (by linarith)

/-- The points of a full circle. -/
theorem full_circle {q : Quality} {radius start : ℝ} {center : Vec} {pts : List Vec} (hq : SaneQuality q)
    (hr : 1 / 2 ≤ radius) (h : arc2D q radius start tau center = .ok pts) :
    ∃ n : ℕ, ∃ θ : ℝ, 0 < n ∧ n * θ = 2 * Real.pi ∧ 0 < θ ∧ θ ≤ Real.pi / 2 ∧
      7 / 1000 ≤ radius * Real.sin (θ / 2) ∧ 0 < Real.sin (θ / 2) ∧ 1e-6 ≤ 2 * radius ^ 2 * Real.sin (θ / 2) ^ 3 ∧
      pts = (List.range n).map fun i : ℕ => ringPoint center radius 0 (start + i * θ) := by
  obtain ⟨d⟩ := arc2D_data (by linarith) (by linarith [hq.angle]) h
  have hnR : (0 : ℝ) < d.n := by exact_mod_cast d.n_pos
  have hc : clampSpan tau = tau := clampSpan_eq (abs_of_pos tau_pos).le
  have hs := step_ge hq hr d (by rw [hc, abs_of_pos tau_pos]; unfold tau; linarith [Real.pi_pos])
  have hp := d.pts_eq
  rw [hc, if_neg (by rw [abs_of_pos tau_pos, sub_self, abs_zero]; norm_num)] at hp
  rw [hc, abs_of_pos (div_pos tau_pos hnR)] at hs
  refine ⟨d.n, tau / d.n, d.n_pos, ?_, hs.1, hs.2.1, hs.2.2.1, hs.2.2.2.1, hs.2.2.2.2, hp⟩
  rw [mul_div_cancel₀ _ hnR.ne']
  rfl

/-- The points of half a circle. -/
theorem half_circle {q : Quality} {radius start : ℝ} {center : Vec} {pts : List Vec} (hq : SaneQuality q)
    (hr : 1 / 2 ≤ radius) (h : arc2D q radius start Real.pi center = .ok pts) :
    ∃ n : ℕ, ∃ θ : ℝ, 0 < n ∧ n * θ = Real.pi ∧ 0 < θ ∧ θ ≤ Real.pi / 2 ∧
      7 / 1000 ≤ radius * Real.sin (θ / 2) ∧ 0 < Real.sin (θ / 2) ∧ 1e-6 ≤ 2 * radius ^ 2 * Real.sin (θ / 2) ^ 3 ∧
      pts = (List.range (n + 1)).map fun i : ℕ => ringPoint center radius 0 (start + i * θ) := by
  obtain ⟨d⟩ := arc2D_data (by linarith) (by linarith [hq.angle]) h
  have hnR : (0 : ℝ) < d.n := by exact_mod_cast d.n_pos
  have hpi := Real.pi_pos
  have hpi3 := Real.pi_gt_three
  have hc : clampSpan Real.pi = Real.pi := clampSpan_eq (by rw [abs_of_pos hpi]; unfold tau; linarith)
  have hs := step_ge hq hr d (by rw [hc, abs_of_pos hpi]; linarith)
  have hp := d.pts_eq
  rw [hc, if_pos (by rw [abs_of_pos hpi, abs_sub_comm, abs_of_pos (by unfold tau; linarith)]; unfold tau; linarith)] at hp
  rw [hc, abs_of_pos (div_pos hpi hnR)] at hs
  exact ⟨d.n, Real.pi / d.n, d.n_pos, mul_div_cancel₀ _ hnR.ne', hs.1, hs.2.1, hs.2.2.1, hs.2.2.2.1, hs.2.2.2.2, hp⟩

theorem cos_half_sq {θ : ℝ} (h0 : 0 < θ) (h1 : θ ≤ Real.pi / 2) : 1 / 2 ≤ Real.cos (θ / 2) ^ 2 := by
  rw [Real.cos_sq]
  have : 0 ≤ Real.cos (2 * (θ / 2)) := Real.cos_nonneg_of_mem_Icc ⟨by linarith, by linarith⟩
  linarith

/-- The quads between two closed rings. -/
theorem rings_good (c : Vec) (r1 z1 r2 z2 α θ : ℝ) (n : ℕ) (hn : 0 < n) (hθ : n * θ = 2 * Real.pi)
    (hk : 1 / 2 ≤ Real.cos (θ / 2) ^ 2)
    (h1 : 7 / 1000 ≤ |r1 * Real.sin (θ / 2)|) (h2 : 7 / 1000 ≤ |r2 * Real.sin (θ / 2)|)
    (hd : (r1 = r2 ∧ z1 = z2) ∨ 1 / 1000 ≤ |z2 - z1| ∨ 1 / 1000 ≤ |r2 - r1|) (i : ℕ) :
    GoodQuad (corner true ((List.range n).map fun i : ℕ => ringPoint c r1 z1 (α + i * θ)) i)
      (corner true ((List.range n).map fun i : ℕ => ringPoint c r1 z1 (α + i * θ)) (i + 1))
      (corner true ((List.range n).map fun i : ℕ => ringPoint c r2 z2 (α + i * θ)) (i + 1))
      (corner true ((List.range n).map fun i : ℕ => ringPoint c r2 z2 (α + i * θ)) i) := by
  have per : ∀ r z : ℝ, ringPoint c r z (α + (n : ℝ) * θ) = ringPoint c r z (α + ((0 : ℕ) : ℝ) * θ) := by
    intro r z
    rw [hθ]
    have := ringPoint_period c r z α 1
    simp only [Int.cast_one, one_mul] at this
    rw [this]; simp
  rw [corner_range_closed _ n i hn (per _ _), corner_range_closed _ n (i + 1) hn (per _ _),
    corner_range_closed _ n i hn (per _ _), corner_range_closed _ n (i + 1) hn (per _ _)]
  by_cases hi : i < n
  · rw [min_eq_left hi.le, min_eq_left (by omega : i + 1 ≤ n)]
    have e : α + ((i + 1 : ℕ) : ℝ) * θ = (α + i * θ) + θ := by push_cast; ring
    rw [e]
    exact ring_good c r1 z1 r2 z2 _ θ hk h1 h2 hd
  · rw [min_eq_right (by omega : n ≤ i), min_eq_right (by omega : n ≤ i + 1)]
    exact goodQuad_still rfl rfl

/-- The quads between two open rings. -/
theorem arcs_good (c : Vec) (r1 z1 r2 z2 α θ : ℝ) (n : ℕ)
    (hk : 1 / 2 ≤ Real.cos (θ / 2) ^ 2)
    (h1 : 7 / 1000 ≤ |r1 * Real.sin (θ / 2)|) (h2 : 7 / 1000 ≤ |r2 * Real.sin (θ / 2)|)
    (hd : (r1 = r2 ∧ z1 = z2) ∨ 1 / 1000 ≤ |z2 - z1| ∨ 1 / 1000 ≤ |r2 - r1|) (i : ℕ) :
    GoodQuad (corner false ((List.range (n + 1)).map fun i : ℕ => ringPoint c r1 z1 (α + i * θ)) i)
      (corner false ((List.range (n + 1)).map fun i : ℕ => ringPoint c r1 z1 (α + i * θ)) (i + 1))
      (corner false ((List.range (n + 1)).map fun i : ℕ => ringPoint c r2 z2 (α + i * θ)) (i + 1))
      (corner false ((List.range (n + 1)).map fun i : ℕ => ringPoint c r2 z2 (α + i * θ)) i) := by
  rw [corner_range_open _ (n + 1) i (by omega), corner_range_open _ (n + 1) (i + 1) (by omega),
    corner_range_open _ (n + 1) i (by omega), corner_range_open _ (n + 1) (i + 1) (by omega)]
  by_cases hi : i < n
  · rw [min_eq_left (by omega), min_eq_left (by omega)]
    have e : α + ((i + 1 : ℕ) : ℝ) * θ = (α + i * θ) + θ := by push_cast; ring
    rw [e]
    exact ring_good c r1 z1 r2 z2 _ θ hk h1 h2 hd
  · rw [min_eq_right (by omega), min_eq_right (by omega)]
    exact goodQuad_still rfl rfl

/-- The quads of a fan from the first point of an arc that is at most a full circle. -/
theorem fan_good (c : Vec) (r z α θ : ℝ) (m : ℕ) (hm : 0 < m) (hθ0 : 0 < θ) (hθ : m * θ ≤ 2 * Real.pi)
    (hs0 : 0 < Real.sin (θ / 2)) (hs : 1e-6 ≤ 2 * r ^ 2 * Real.sin (θ / 2) ^ 3) (i : ℕ) :
    GoodQuad (corner false (((List.range m).map fun i : ℕ => ringPoint c r z (α + i * θ)).take 1) i)
      (corner false (((List.range m).map fun i : ℕ => ringPoint c r z (α + i * θ)).take 1) (i + 1))
      (corner false ((List.range m).map fun i : ℕ => ringPoint c r z (α + i * θ)) (i + 1))
      (corner false ((List.range m).map fun i : ℕ => ringPoint c r z (α + i * θ)) i) := by
  have e1 : ((List.range m).map fun i : ℕ => ringPoint c r z (α + i * θ)).take 1 = [ringPoint c r z α] := by
    obtain ⟨k, rfl⟩ := Nat.exists_eq_succ_of_ne_zero hm.ne'
    rw [List.range_succ_eq_map]
    simp
  rw [e1, corner_single, corner_single, corner_range_open _ m i hm, corner_range_open _ m (i + 1) hm]
  by_cases hi : i + 1 < m
  · rw [min_eq_left (by omega), min_eq_left (by omega)]
    apply goodQuad_ab rfl
    rcases Nat.eq_zero_or_pos i with rfl | hi0
    · right; right; left
      simp
    · left
      have hiR : (1 : ℝ) ≤ i := by exact_mod_cast hi0
      have hi2 : (i : ℝ) + 2 ≤ m := by exact_mod_cast hi
      have hA : Real.sin (θ / 2) ≤ Real.sin (i * θ / 2) := sin_ge (by linarith) (by nlinarith) (by nlinarith)
      have hB : Real.sin (θ / 2) ≤ Real.sin ((i + 1 : ℕ) * θ / 2) := by
        push_cast
        exact sin_ge (by linarith) (by nlinarith) (by nlinarith)
      have hprod : Real.sin (θ / 2) ^ 3 ≤ Real.sin (θ / 2) * Real.sin (i * θ / 2) * Real.sin ((i + 1 : ℕ) * θ / 2) := by
        have h1 := mul_le_mul hA hB hs0.le (hs0.le.trans hA)
        have h2 := mul_le_mul_of_nonneg_left h1 hs0.le
        calc Real.sin (θ / 2) ^ 3 = Real.sin (θ / 2) * (Real.sin (θ / 2) * Real.sin (θ / 2)) := by ring
          _ ≤ _ := h2
          _ = _ := by ring
      refine area_of_sq (k := 4 * r ^ 2 * (Real.sin (θ / 2) * Real.sin (i * θ / 2) * Real.sin ((i + 1 : ℕ) * θ / 2))) ?_ ?_
      · have h3 := mul_le_mul_of_nonneg_left hprod (by positivity : 0 ≤ 4 * r ^ 2)
        refine le_trans ?_ h3
        nlinarith
      · rw [ring_fan c r z α (i * θ) ((i + 1 : ℕ) * θ)]
        have e2 : (((i + 1 : ℕ) : ℝ) * θ - i * θ) / 2 = θ / 2 := by push_cast; ring
        rw [e2]
        apply le_of_eq
        ring
  · rw [min_eq_right (by omega), min_eq_right (by omega)]
    exact goodQuad_still rfl rfl

/-- Snapping does not change half a circle around the origin that starts on an axis. -/
theorem snapped_half {r θ : ℝ} {n : ℕ} (hn : 0 < n) (hθ0 : 0 < θ) (hθ : n * θ = Real.pi)
    (hs : 7 / 1000 ≤ r * Real.sin (θ / 2)) (hr : 0 < r) {i : ℕ} (hi : i ≤ n) :
    (ringPoint 0 r 0 (-Real.pi / 2 + i * θ)).snapped = ringPoint 0 r 0 (-Real.pi / 2 + i * θ) := by
  have hpi := Real.pi_pos
  have hnR : (0 : ℝ) < n := by exact_mod_cast hn
  have hiR : (i : ℝ) ≤ n := by exact_mod_cast hi
  have hsnap : ∀ x : ℝ, x = 0 ∨ 7 / 1000 ≤ |x| → (open Classical in if isZero x then (0 : ℝ) else x) = x := by
    intro x hx
    split_ifs with h
    · rw [isZero_iff] at h
      rcases hx with hx | hx
      · exact hx.symm
      · norm_num at h; linarith
    · rfl
  have hle : θ ≤ Real.pi := by
    have : (1 : ℝ) ≤ n := by exact_mod_cast hn
    nlinarith
  have hcos : Real.cos (-Real.pi / 2 + i * θ) = Real.sin (i * θ) := by
    rw [← Real.cos_pi_div_two_sub, ← Real.cos_neg]; congr 1; ring
  have hsin : Real.sin (-Real.pi / 2 + i * θ) = -Real.cos (i * θ) := by
    rw [← Real.sin_pi_div_two_sub, ← Real.sin_neg]; congr 1; ring
  have hx : r * Real.sin (i * θ) = 0 ∨ 7 / 1000 ≤ |r * Real.sin (i * θ)| := by
    rcases Nat.eq_zero_or_pos i with rfl | h0
    · left; simp
    · rcases Nat.eq_or_lt_of_le hi with rfl | h1
      · left; rw [hθ]; simp
      · right
        have h0R : (1 : ℝ) ≤ i := by exact_mod_cast h0
        have h1R : (i : ℝ) + 1 ≤ n := by exact_mod_cast h1
        have := sin_ge (θ := θ / 2) (x := i * θ) (by linarith) (by nlinarith) (by nlinarith)
        refine le_trans ?_ (le_abs_self _)
        exact hs.trans (mul_le_mul_of_nonneg_left this hr.le)
  have hy : r * (-Real.cos (i * θ)) = 0 ∨ 7 / 1000 ≤ |r * (-Real.cos (i * θ))| := by
    have e : Real.cos (i * θ) = Real.sin (((n : ℝ) - 2 * i) * (θ / 2)) := by
      rw [← Real.cos_pi_div_two_sub]; congr 1
      linear_combination (1 / 2 : ℝ) * hθ
    rw [e]
    rcases lt_trichotomy (2 * i) n with h | h | h
    · right
      have h1 : (2 : ℝ) * i + 1 ≤ n := by exact_mod_cast h
      have := sin_ge (θ := θ / 2) (x := ((n : ℝ) - 2 * i) * (θ / 2)) (by linarith) (by nlinarith) (by nlinarith [(Nat.cast_nonneg i : (0 : ℝ) ≤ i)])
      rw [mul_neg, abs_neg]
      refine le_trans ?_ (le_abs_self _)
      exact hs.trans (mul_le_mul_of_nonneg_left this hr.le)
    · left
      have h1 : (2 : ℝ) * i = n := by exact_mod_cast h
      rw [← h1]; simp
    · right
      have h1 : (n : ℝ) + 1 ≤ 2 * i := by exact_mod_cast h
      have := sin_ge (θ := θ / 2) (x := (2 * i - (n : ℝ)) * (θ / 2)) (by linarith) (by nlinarith) (by nlinarith)
      have e2 : ((n : ℝ) - 2 * i) * (θ / 2) = -((2 * i - (n : ℝ)) * (θ / 2)) := by ring
      rw [e2, Real.sin_neg, neg_neg]
      refine le_trans ?_ (le_abs_self _)
      exact hs.trans (mul_le_mul_of_nonneg_left this hr.le)
  have zx : (0 : Vec).x = 0 := rfl
  have zy : (0 : Vec).y = 0 := rfl
  unfold Vec.snapped ringPoint
  rw [hcos, hsin, zx, zy]
  ext
  · exact hsnap _ (by dsimp only; rw [zero_add]; exact hx)
  · exact hsnap _ (by dsimp only; rw [zero_add]; exact hy)
  · exact hsnap 0 (Or.inl rfl)

end Chrumm.Part
