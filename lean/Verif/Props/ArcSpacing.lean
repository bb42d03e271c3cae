import Verif.Props.Arc
import Verif.Spec.Pieces
import Mathlib.Analysis.SpecialFunctions.Trigonometric.Bounds

/-! The points of arcs are not needlessly close to each other. -/

namespace Chrumm.Part
open Geo Geo.Spec Spec

theorem arccos_sqrt {t : ℝ} (h0 : 0 ≤ t) (h2 : t ≤ 2) : Real.sqrt (2 * t) ≤ Real.arccos (1 - t) := by
  refine Real.sqrt_le_iff.mpr ⟨Real.arccos_nonneg _, ?_⟩
  have := Real.one_sub_sq_div_two_le_cos (x := Real.arccos (1 - t))
  rw [Real.cos_arccos (by linarith) (by linarith)] at this
  linarith

/-- **C53** The chords of an arc of at most half a circle are not needlessly short: they are not shorter than `2/π` times the whole arc, or half of the longest chord that the quality
allows, whichever is less. -/
theorem C53_spacing {q : Quality} {radius start span : ℝ} {center : Vec} {pts : List Vec}
    (hr : 1 / 1000000 ≤ radius) (hq : 0 < q.maxChordAngle) (hh : 0 < q.maxChordHeight) (hs : |span| ≤ Real.pi) (h : arc2D q radius start span center = .ok pts) :
    ∀ ab ∈ pathPairs pts, 2 / Real.pi * min (radius * |span|) (min (radius * (q.maxChordAngle / 2)) (Real.sqrt (2 * q.maxChordHeight * radius))) ≤
      Real.sqrt (distSq2D ab.1 ab.2) := by
  obtain ⟨d⟩ := arc2D_data hr hq h
  have hnR : (0 : ℝ) < d.n := by exact_mod_cast d.n_pos
  have r0 : 0 < radius := by linarith
  have hpi := Real.pi_pos
  have hS : clampSpan span = span := clampSpan_eq (hs.trans (by unfold tau; linarith))
  intro ab hab
  unfold pathPairs at hab
  obtain ⟨i, hi⟩ := List.mem_iff_getElem?.mp hab
  rw [List.getElem?_zip_eq_some, List.getElem?_tail] at hi
  have key : ∀ (j : ℕ) (p : Vec), pts[j]? = some p → p = circlePoint center radius (start + j * (span / d.n)) := by
    intro j p hj
    rw [d.pts_eq, List.getElem?_map, hS] at hj
    obtain ⟨k, hk, rfl⟩ := Option.map_eq_some_iff.mp hj
    obtain ⟨hlt, hk⟩ := List.getElem?_eq_some_iff.mp hk
    rw [List.getElem_range] at hk
    rw [hk]
  have e1 := key i _ hi.1
  have e2 := key (i + 1) _ hi.2
  have nlt := d.n_lt
  have fits := d.fits
  have n1 : 1 ≤ d.n := d.n_pos
  have mp := d.max_pos
  rw [hS] at nlt
  generalize d.n = n at *
  clear d
  -- the step
  have x2 : q.maxChordHeight / radius ≤ 2 := by rw [div_le_iff₀ r0]; linarith
  have hx := arccos_sqrt (t := q.maxChordHeight / radius) (by positivity) x2
  have step : min (radius * |span|) (min (radius * (q.maxChordAngle / 2)) (Real.sqrt (2 * q.maxChordHeight * radius))) ≤ radius * |span / n| := by
    rcases Nat.lt_or_ge 1 n with h1 | h1
    · have n2 : (2 : ℝ) ≤ n := by exact_mod_cast h1
      have h3 : (n : ℝ) / 2 * min q.maxChordAngle (Real.arccos (1 - q.maxChordHeight / radius) * 2) ≤ |span| := by
        rw [← le_div_iff₀ mp]
        linarith
      refine (min_le_right _ _).trans ?_
      have h4 : min q.maxChordAngle (Real.arccos (1 - q.maxChordHeight / radius) * 2) / 2 ≤ |span / n| := by
        rw [abs_div, abs_of_pos hnR, le_div_iff₀ hnR]
        linarith
      refine le_trans ?_ (mul_le_mul_of_nonneg_left h4 r0.le)
      rcases min_cases q.maxChordAngle (Real.arccos (1 - q.maxChordHeight / radius) * 2) with ⟨e, -⟩ | ⟨e, -⟩
      · rw [e]
        exact min_le_left _ _
      · rw [e]
        refine (min_le_right _ _).trans ?_
        have : Real.sqrt (2 * q.maxChordHeight * radius) = radius * Real.sqrt (2 * (q.maxChordHeight / radius)) := by
          rw [show 2 * q.maxChordHeight * radius = radius ^ 2 * (2 * (q.maxChordHeight / radius)) by field_simp, Real.sqrt_mul (sq_nonneg _), Real.sqrt_sq r0.le]
        rw [this]
        have := mul_le_mul_of_nonneg_left hx r0.le
        linarith
    · have : n = 1 := by omega
      subst this
      simp
  have sl : |span / n| ≤ Real.pi := by
    rw [abs_div, abs_of_pos hnR]
    have n1' : (1 : ℝ) ≤ n := by exact_mod_cast n1
    exact (div_le_self (abs_nonneg _) n1').trans hs
  have sn := Real.mul_le_sin (x := |span / n| / 2) (by positivity) (by linarith)
  have dd : distSq2D ab.1 ab.2 = (2 * radius * Real.sin (|span / n| / 2)) ^ 2 := by
    rw [e1, e2]
    simp only [distSq2D, circlePoint]
    push_cast
    have f1 : Real.sin (|span / n| / 2) ^ 2 = Real.sin (span / n / 2) ^ 2 := by
      rcases abs_cases (span / n) with ⟨e, -⟩ | ⟨e, -⟩ <;> rw [e]
      rw [neg_div, Real.sin_neg]; ring
    have f2 : Real.cos (span / n) = 1 - 2 * Real.sin (span / n / 2) ^ 2 := by
      have := Real.cos_two_mul (span / n / 2)
      rw [show 2 * (span / n / 2) = span / n by ring] at this
      have h2 := Real.sin_sq_add_cos_sq (span / n / 2)
      linarith
    have f3 : start + (↑i + 1) * (span / ↑n) = (start + ↑i * (span / ↑n)) + span / n := by ring
    rw [f3, Real.cos_add (start + ↑i * (span / ↑n)) (span / n), Real.sin_add (start + ↑i * (span / ↑n)) (span / n), mul_pow, f1]
    have g1 := Real.sin_sq_add_cos_sq (start + ↑i * (span / ↑n))
    have g2 := Real.sin_sq_add_cos_sq (span / ↑n)
    generalize Real.sin (start + ↑i * (span / ↑n)) = a at *
    generalize Real.cos (start + ↑i * (span / ↑n)) = b at *
    generalize Real.sin (span / ↑n / 2) ^ 2 = w at *
    generalize Real.sin (span / ↑n) = u at *
    generalize Real.cos (span / ↑n) = v at *
    have : w = (1 - v) / 2 := by linarith
    subst this
    have hb : b ^ 2 = 1 - a ^ 2 := by linarith
    have hv : v ^ 2 = 1 - u ^ 2 := by linarith
    linear_combination (radius ^ 2 * (v ^ 2 + u ^ 2 + 1 - 2 * v)) * g1 + radius ^ 2 * g2
  rw [dd, Real.sqrt_sq (by
    have := Real.sin_nonneg_of_nonneg_of_le_pi (x := |span / n| / 2) (by positivity) (by linarith)
    positivity)]
  calc _ ≤ 2 / Real.pi * (radius * |span / n|) := mul_le_mul_of_nonneg_left step (by positivity)
    _ = 2 * radius * (2 / Real.pi * (|span / n| / 2)) := by ring
    _ ≤ _ := mul_le_mul_of_nonneg_left sn (by positivity)

end Chrumm.Part
