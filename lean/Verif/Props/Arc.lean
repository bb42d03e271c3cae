import Verif.Spec.Arc
import Verif.Geo.Chain
import Mathlib.Analysis.SpecialFunctions.Trigonometric.Angle

/-! C53 and C54: arcs. -/

namespace Chrumm.Part
open Geo Geo.Spec Spec

private theorem bind_ok {A B : Type} {x : Py A} {f : A → Py B} {b : B} (h : (x >>= f) = .ok b) :
    ∃ a, x = .ok a ∧ f a = .ok b := by
  cases x with
  | error e => cases h
  | ok a => exact ⟨a, rfl, h⟩

private theorem pyDiv_ok {a b c : ℝ} (h : pyDiv a b = .ok c) : b ≠ 0 ∧ c = a / b := by
  unfold pyDiv at h
  split_ifs at h with h0
  cases h
  exact ⟨h0, rfl⟩

private theorem pyAcos_ok {a c : ℝ} (h : pyAcos a = .ok c) : -1 ≤ a ∧ a ≤ 1 ∧ c = Real.arccos a := by
  unfold pyAcos at h
  split_ifs at h with h0
  cases h
  push Not at h0
  exact ⟨h0.1, h0.2, rfl⟩

/-- The span that is used. -/
noncomputable def clampSpan (s : ℝ) : ℝ := max (-tau) (min s tau)

theorem tau_pos : 0 < tau := by unfold tau; positivity

theorem clampSpan_abs (s : ℝ) : |clampSpan s| ≤ tau := by
  unfold clampSpan
  rw [abs_le]
  have := tau_pos
  exact ⟨le_max_left _ _, max_le (by linarith) (min_le_right _ _)⟩

theorem clampSpan_eq {s : ℝ} (h : |s| ≤ tau) : clampSpan s = s := by
  rw [abs_le] at h
  rw [clampSpan, min_eq_left h.2, max_eq_right h.1]

/-- What is known about a successful arc. -/
structure ArcData (q : Quality) (radius start span : ℝ) (center : Vec) (pts : List Vec) where
  n : ℕ
  n_pos : 0 < n
  span_ne : clampSpan span ≠ 0
  fits : q.maxChordHeight ≤ 2 * radius
  step_height : |clampSpan span / n| ≤ 2 * Real.arccos (1 - q.maxChordHeight / radius)
  step_angle : |clampSpan span / n| ≤ q.maxChordAngle
  n_lt : (n : ℝ) < |clampSpan span| / min q.maxChordAngle (Real.arccos (1 - q.maxChordHeight / radius) * 2) + 1
  max_pos : 0 < min q.maxChordAngle (Real.arccos (1 - q.maxChordHeight / radius) * 2)
  pts_eq : pts = (List.range (if |(|clampSpan span| - tau)| > 1 / 1000000 then n + 1 else n)).map
    fun i : ℕ => circlePoint center radius (start + i * (clampSpan span / n))

theorem arc2D_data {q : Quality} {radius start span : ℝ} {center : Vec} {pts : List Vec}
    (hr : 1 / 1000000 ≤ radius) (hq : 0 < q.maxChordAngle)
    (h : arc2D q radius start span center = .ok pts) : Nonempty (ArcData q radius start span center pts) := by
  have hr0 : 0 < radius := by linarith
  unfold arc2D at h
  rw [if_neg (not_lt.mpr hr)] at h
  obtain ⟨ratio, h1, h⟩ := bind_ok h
  obtain ⟨half, h2, h⟩ := bind_ok h
  obtain ⟨quot, h3, h⟩ := bind_ok h
  obtain ⟨chord, h4, h⟩ := bind_ok h
  obtain ⟨-, rfl⟩ := pyDiv_ok h1
  obtain ⟨ha, hb, rfl⟩ := pyAcos_ok h2
  obtain ⟨hm, rfl⟩ := pyDiv_ok h3
  obtain ⟨hn, rfl⟩ := pyDiv_ok h4
  change _ = Except.ok pts at h
  injection h with h
  have hS : max (-tau) (min span tau) = clampSpan span := rfl
  rw [hS] at h hn
  set S := clampSpan span
  set M := min q.maxChordAngle (Real.arccos (1 - q.maxChordHeight / radius) * 2) with hM
  have hM0 : 0 < M := by
    refine lt_of_le_of_ne (le_min hq.le ?_) (Ne.symm hm)
    have := Real.arccos_nonneg (1 - q.maxChordHeight / radius)
    linarith
  have hc0 : (0 : ℤ) ≤ ⌈|S| / M⌉ := Int.ceil_nonneg (by positivity)
  have hcne : ⌈|S| / M⌉ ≠ 0 := by
    intro h0
    rw [h0] at hn
    simp at hn
  obtain ⟨n, hnn⟩ := Int.eq_ofNat_of_zero_le hc0
  have hn0 : 0 < n := by
    rcases Nat.eq_zero_or_pos n with h0 | h0
    · rw [h0] at hnn; exact absurd hnn hcne
    · exact h0
  have hcast : ((⌈|S| / M⌉ : ℤ) : ℝ) = n := by rw [hnn]; simp
  have hnR : (0 : ℝ) < n := by exact_mod_cast hn0
  have hstep : |S / n| ≤ M := by
    rw [abs_div, abs_of_pos hnR, div_le_iff₀ hnR, mul_comm, ← div_le_iff₀ hM0, ← hcast]
    exact Int.le_ceil _
  have hSne : S ≠ 0 := by
    intro h0
    rw [h0] at hcne
    simp at hcne
  refine ⟨⟨n, hn0, hSne, ?_, ?_, ?_, ?_, hM0, ?_⟩⟩
  · have : q.maxChordHeight / radius ≤ 2 := by linarith
    rwa [div_le_iff₀ hr0] at this
  · have := hstep.trans (min_le_right _ _)
    linarith
  · exact hstep.trans (min_le_left _ _)
  · rw [← hcast]
    exact Int.ceil_lt_add_one _
  · rw [← h, hcast, hnn]
    have : ((if |(|S| - tau)| > 1 / 1000000 then ((n : ℕ) : ℤ) + 1 else ((n : ℕ) : ℤ))).toNat =
        if |(|S| - tau)| > 1 / 1000000 then n + 1 else n := by
      split_ifs
      · omega
      · omega
    change List.map _ (List.range (if |(|S| - tau)| > 1 / 1000000 then ((n : ℕ) : ℤ) + 1 else ((n : ℕ) : ℤ)).toNat) = _
    rw [this]
    rfl

/-- C53. All points are on the circle. -/
theorem C53_on_circle {q : Quality} {radius start span : ℝ} {center : Vec} {pts : List Vec}
    (hr : 1 / 1000000 ≤ radius) (hq : 0 < q.maxChordAngle) (h : arc2D q radius start span center = .ok pts) :
    ∀ p ∈ pts, OnCircle2D center radius p := by
  obtain ⟨d⟩ := arc2D_data hr hq h
  intro p hp
  rw [d.pts_eq] at hp
  obtain ⟨i, -, rfl⟩ := List.mem_map.mp hp
  refine ⟨rfl, ?_⟩
  simp only [distSq2D, circlePoint]
  have := Real.sin_sq_add_cos_sq (start + i * (clampSpan span / d.n))
  nlinarith

/-- C53. The arc starts at the start angle; if it is not a full circle, then it ends at the end of the span. -/
theorem C53_ends {q : Quality} {radius start span : ℝ} {center : Vec} {pts : List Vec}
    (hr : 1 / 1000000 ≤ radius) (hq : 0 < q.maxChordAngle) (h : arc2D q radius start span center = .ok pts) :
    pts.head? = some (circlePoint center radius start) ∧
    (|span| < tau - 1 / 1000000 → 2 ≤ pts.length ∧ pts.getLast? = some (circlePoint center radius (start + span))) := by
  obtain ⟨d⟩ := arc2D_data hr hq h
  have hn := d.n_pos
  constructor
  · rw [d.pts_eq, List.head?_map]
    have : (List.range (if |(|clampSpan span| - tau)| > 1 / 1000000 then d.n + 1 else d.n)).head? = some 0 := by
      rw [List.head?_range]
      simp only [ite_eq_right_iff]
      intro h0
      split_ifs at h0 <;> omega
    rw [this]
    simp
  · intro hs
    have hS : clampSpan span = span := clampSpan_eq (by linarith)
    have hc : |(|clampSpan span| - tau)| > 1 / 1000000 := by
      rw [hS, abs_sub_comm]
      exact lt_of_lt_of_le (by linarith) (le_abs_self _)
    have e := d.pts_eq
    rw [if_pos hc] at e
    constructor
    · rw [e]; simp; omega
    · rw [e, List.range_succ, List.map_append]
      simp only [List.map_cons, List.map_nil, List.getLast?_append, List.getLast?_singleton, Option.some_or]
      rw [hS, mul_div_cancel₀ _ (by positivity)]

theorem circlePoint_inj {c : Vec} {r α β : ℝ} (hr : 0 < r) (h : circlePoint c r α = circlePoint c r β)
    (hd : |α - β| < tau) : α = β := by
  simp only [circlePoint, Vec.mk.injEq] at h
  obtain ⟨h1, h2, -⟩ := h
  have h1 : Real.cos α = Real.cos β := mul_left_cancel₀ hr.ne' (by linarith)
  have h2 : Real.sin α = Real.sin β := mul_left_cancel₀ hr.ne' (by linarith)
  have h3 : Real.cos (α - β) = 1 := by
    rw [Real.cos_sub, h1, h2, ← sq, ← sq]
    exact Real.cos_sq_add_sin_sq β
  obtain ⟨hl, hu⟩ := abs_lt.mp hd
  unfold tau at hl hu
  have := (Real.cos_eq_one_iff_of_lt_of_lt (by linarith) hu).mp h3
  linarith

/-- C53. No point is repeated, also in a full circle. -/
theorem C53_distinct {q : Quality} {radius start span : ℝ} {center : Vec} {pts : List Vec}
    (hr : 1 / 1000000 ≤ radius) (hq : 0 < q.maxChordAngle) (h : arc2D q radius start span center = .ok pts) :
    pts.Nodup := by
  obtain ⟨d⟩ := arc2D_data hr hq h
  have hnR : (0 : ℝ) < d.n := by exact_mod_cast d.n_pos
  rw [d.pts_eq]
  refine List.Nodup.map_on ?_ List.nodup_range
  intro i hi j hj hij
  rw [List.mem_range] at hi hj
  have key : ∀ i j : ℕ, i < j → (j < if |(|clampSpan span| - tau)| > 1 / 1000000 then d.n + 1 else d.n) →
      |(start + j * (clampSpan span / d.n)) - (start + i * (clampSpan span / d.n))| < tau := by
    intro i j hlt hj
    have e : (start + j * (clampSpan span / d.n)) - (start + i * (clampSpan span / d.n)) =
        ((j : ℝ) - i) * (clampSpan span / d.n) := by ring
    have hji : (0 : ℝ) ≤ (j : ℝ) - i := by
      have : (i : ℝ) ≤ j := by exact_mod_cast hlt.le
      linarith
    rw [e, abs_mul, abs_div, abs_of_pos hnR, abs_of_nonneg hji]
    have hle : (j : ℝ) - i ≤ j := by
      have : (0 : ℝ) ≤ i := by positivity
      linarith
    have hS0 : 0 < |clampSpan span| := abs_pos.mpr d.span_ne
    split_ifs at hj with hc
    · have hjn : (j : ℝ) ≤ d.n := by exact_mod_cast (by omega : j ≤ d.n)
      have hlt : |clampSpan span| < tau := by
        refine lt_of_le_of_ne (clampSpan_abs span) ?_
        intro h0
        rw [h0] at hc
        norm_num at hc
      calc ((j : ℝ) - i) * (|clampSpan span| / d.n) ≤ d.n * (|clampSpan span| / d.n) := by
              apply mul_le_mul_of_nonneg_right (by linarith) (by positivity)
        _ = |clampSpan span| := by field_simp
        _ < tau := hlt
    · have hjn : (j : ℝ) < d.n := by exact_mod_cast hj
      calc ((j : ℝ) - i) * (|clampSpan span| / d.n) < d.n * (|clampSpan span| / d.n) := by
              apply mul_lt_mul_of_pos_right (by linarith) (by positivity)
        _ = |clampSpan span| := by field_simp
        _ ≤ tau := clampSpan_abs span
  have hr0 : 0 < radius := by linarith
  have hstep : clampSpan span / d.n ≠ 0 := div_ne_zero d.span_ne hnR.ne'
  have fin : ∀ i j : ℕ, start + (j : ℝ) * (clampSpan span / d.n) = start + i * (clampSpan span / d.n) → j = i := by
    intro i j h
    have : (j : ℝ) = i := mul_right_cancel₀ hstep (by linarith)
    exact_mod_cast this
  rcases lt_trichotomy i j with hlt | rfl | hlt
  · exact (fin _ _ (circlePoint_inj hr0 hij.symm (key i j hlt hj))).symm
  · rfl
  · exact fin _ _ (circlePoint_inj hr0 hij (key j i hlt hi))

/-- The deviation of a chord. -/
theorem chord_deviation {c : Vec} {r h α step u : ℝ} (hr : 0 < r) (hh : 0 < h) (hfit : h ≤ 2 * r)
    (hs : |step| ≤ 2 * Real.arccos (1 - h / r)) (hu0 : 0 ≤ u) (hu1 : u ≤ 1) :
    ∃ s : ℝ, 0 ≤ s ∧ s ≤ 1 ∧ distSq2D (circlePoint c r (α + u * step))
      (between2D (circlePoint c r α) (circlePoint c r (α + step)) s) ≤ h ^ 2 := by
  -- the frame of the middle of the arc
  set m := α + step / 2 with hm
  set δ := step / 2 with hδ
  set t := (u - 1 / 2) * step with ht
  have eα : α = m - δ := by rw [hm]; ring
  have eβ : α + step = m + δ := by rw [hm, hδ]; ring
  have eφ : α + u * step = m + t := by rw [hm, ht]; ring
  have hδpi : |δ| ≤ Real.pi := by
    rw [hδ, abs_div, abs_two]
    have := Real.arccos_le_pi (1 - h / r)
    linarith
  have htδ : |t| ≤ |δ| := by
    rw [ht, hδ, abs_mul, abs_div, abs_two]
    have : |u - 1 / 2| ≤ 1 / 2 := by rw [abs_le]; constructor <;> linarith
    nlinarith [abs_nonneg step]
  have hcosδ : r * (1 - Real.cos δ) ≤ h := by
    have h1 : |δ| ≤ Real.arccos (1 - h / r) := by
      rw [hδ, abs_div, abs_two]; linarith
    have h2 := Real.cos_le_cos_of_nonneg_of_le_pi (abs_nonneg δ) (Real.arccos_le_pi _) h1
    have hhr : h / r ≤ 2 := by rw [div_le_iff₀ hr]; exact hfit
    have hhr0 : 0 < h / r := by positivity
    rw [Real.cos_arccos (by linarith) (by linarith), Real.cos_abs] at h2
    have : r * (1 - Real.cos δ) ≤ r * (h / r) := mul_le_mul_of_nonneg_left (by linarith) hr.le
    rwa [mul_div_cancel₀ _ hr.ne'] at this
  have hcos : Real.cos δ ≤ Real.cos t := by
    have := Real.cos_le_cos_of_nonneg_of_le_pi (abs_nonneg t) hδpi htδ
    rwa [Real.cos_abs, Real.cos_abs] at this
  have hc1 := Real.cos_le_one t
  have hd1 := Real.cos_le_one δ
  -- distances in that frame
  have dist : ∀ s : ℝ, distSq2D (circlePoint c r (α + u * step))
      (between2D (circlePoint c r α) (circlePoint c r (α + step)) s) =
      r ^ 2 * ((Real.cos t - Real.cos δ) ^ 2 + (Real.sin t - (2 * s - 1) * Real.sin δ) ^ 2) := by
    intro s
    rw [eφ, eβ, eα]
    simp only [distSq2D, circlePoint, between2D, Real.cos_add, Real.sin_add, Real.cos_sub, Real.sin_sub]
    have h1 := Real.sin_sq_add_cos_sq m
    generalize Real.sin m = sm at *
    generalize Real.cos m = cm at *
    have h1' : sm ^ 2 = 1 - cm ^ 2 := by linarith
    ring_nf
    rw [h1']
    ring
  have hmain : ∀ x y : ℝ, 0 ≤ y → y ≤ (1 - Real.cos δ) ^ 2 → x = y → r ^ 2 * x ≤ h ^ 2 := by
    rintro x y hy0 hy rfl
    have h0 : 0 ≤ r * (1 - Real.cos δ) := mul_nonneg hr.le (by linarith)
    calc r ^ 2 * x ≤ r ^ 2 * (1 - Real.cos δ) ^ 2 := mul_le_mul_of_nonneg_left hy (sq_nonneg r)
      _ = (r * (1 - Real.cos δ)) ^ 2 := by ring
      _ ≤ h ^ 2 := pow_le_pow_left₀ h0 hcosδ 2
  by_cases hsin : |Real.sin t| ≤ |Real.sin δ|
  · refine ⟨(1 + Real.sin t / Real.sin δ) / 2, ?_, ?_, ?_⟩
    · have : |Real.sin t / Real.sin δ| ≤ 1 := by
        rw [abs_div]; exact div_le_one_of_le₀ hsin (abs_nonneg _)
      have := (abs_le.mp this).1
      linarith
    · have : |Real.sin t / Real.sin δ| ≤ 1 := by
        rw [abs_div]; exact div_le_one_of_le₀ hsin (abs_nonneg _)
      have := (abs_le.mp this).2
      linarith
    · rw [dist]
      have e : Real.sin t - (2 * ((1 + Real.sin t / Real.sin δ) / 2) - 1) * Real.sin δ = 0 := by
        by_cases h0 : Real.sin δ = 0
        · rw [h0, abs_zero] at hsin
          have := abs_eq_zero.mp (le_antisymm hsin (abs_nonneg _))
          rw [h0, this]; ring
        · field_simp
          ring
      rw [e]
      refine hmain _ ((Real.cos t - Real.cos δ) ^ 2) (sq_nonneg _) ?_ (by ring)
      exact pow_le_pow_left₀ (by linarith) (by linarith) 2
  · push Not at hsin
    -- more than a half circle
    have hδ2 : Real.pi / 2 < |δ| := by
      by_contra hcon
      push Not at hcon
      have hp := Real.pi_pos
      have h1 := Real.sin_le_sin_of_le_of_le_pi_div_two (by linarith [abs_nonneg t]) hcon htδ
      have e1 : ∀ x : ℝ, |x| ≤ Real.pi / 2 → |Real.sin x| = Real.sin |x| := by
        intro x hx
        rcases le_total 0 x with h0 | h0
        · rw [abs_of_nonneg h0] at hx ⊢
          exact abs_of_nonneg (Real.sin_nonneg_of_nonneg_of_le_pi h0 (by linarith))
        · rw [abs_of_nonpos h0] at hx ⊢
          rw [Real.sin_neg, abs_of_nonpos]
          have := Real.sin_nonneg_of_nonneg_of_le_pi (x := -x) (by linarith) (by linarith)
          rw [Real.sin_neg] at this
          linarith
      rw [e1 t (htδ.trans hcon), e1 δ hcon] at hsin
      linarith
    have hcδ : Real.cos δ ≤ 0 := by
      rw [← Real.cos_abs]
      exact Real.cos_nonpos_of_pi_div_two_le_of_le hδ2.le (by linarith [Real.pi_pos])
    have hquad : ∀ w : ℝ, |w| ≤ |Real.sin t| →
        (Real.cos t - Real.cos δ) ^ 2 + w ^ 2 ≤ (1 - Real.cos δ) ^ 2 := by
      intro w hw
      have h1 : w ^ 2 ≤ Real.sin t ^ 2 := sq_le_sq.mpr hw
      have h2 := Real.sin_sq_add_cos_sq t
      have h3 : 0 ≤ (1 - Real.cos t) * (-Real.cos δ) := mul_nonneg (by linarith) (by linarith)
      nlinarith
    by_cases hsame : 0 ≤ Real.sin t * Real.sin δ
    · refine ⟨1, by norm_num, le_rfl, ?_⟩
      rw [dist]
      refine hmain _ _ (by positivity) (hquad (Real.sin t - (2 * 1 - 1) * Real.sin δ) ?_) rfl
      rw [show (2 * 1 - 1 : ℝ) * Real.sin δ = Real.sin δ by ring]
      rcases le_total 0 (Real.sin t) with h0 | h0
      · have hδ0 : 0 ≤ Real.sin δ := by
          by_contra hneg
          push Not at hneg
          have : Real.sin t = 0 := by nlinarith
          rw [this, abs_zero] at hsin
          exact absurd hsin (not_lt.mpr (abs_nonneg _))
        rw [abs_of_nonneg h0, abs_of_nonneg hδ0] at hsin
        rw [abs_of_nonneg h0, abs_of_nonneg (by linarith)]
        linarith
      · have hδ0 : Real.sin δ ≤ 0 := by
          by_contra hneg
          push Not at hneg
          have : Real.sin t = 0 := by nlinarith
          rw [this, abs_zero] at hsin
          exact absurd hsin (not_lt.mpr (abs_nonneg _))
        rw [abs_of_nonpos h0, abs_of_nonpos hδ0] at hsin
        rw [abs_of_nonpos h0, abs_of_nonpos (by linarith)]
        linarith
    · push Not at hsame
      refine ⟨0, le_rfl, by norm_num, ?_⟩
      rw [dist]
      refine hmain _ _ (by positivity) (hquad (Real.sin t - (2 * 0 - 1) * Real.sin δ) ?_) rfl
      rw [show (2 * 0 - 1 : ℝ) * Real.sin δ = -Real.sin δ by ring]
      rcases le_total 0 (Real.sin t) with h0 | h0
      · have hδ0 : Real.sin δ ≤ 0 := by
          by_contra hneg
          push Not at hneg
          nlinarith
        rw [abs_of_nonneg h0, abs_of_nonpos hδ0] at hsin
        rw [abs_of_nonneg h0, abs_of_nonneg (by linarith)]
        linarith
      · have hδ0 : 0 ≤ Real.sin δ := by
          by_contra hneg
          push Not at hneg
          nlinarith
        rw [abs_of_nonpos h0, abs_of_nonneg hδ0] at hsin
        rw [abs_of_nonpos h0, abs_of_nonpos (by linarith)]
        linarith

theorem mem_pathPairs {f : ℕ → Vec} {m i : ℕ} (h : i + 1 < m) : (f i, f (i + 1)) ∈ pathPairs ((List.range m).map f) := by
  unfold pathPairs
  rw [List.mem_iff_getElem?]
  refine ⟨i, ?_⟩
  rw [List.getElem?_zip_eq_some]
  constructor
  · simp [List.getElem?_range (by omega : i < m)]
  · rw [List.getElem?_tail, List.getElem?_map, List.getElem?_range h]; rfl

theorem mem_cycPairs {f : ℕ → Vec} {m i : ℕ} (h : i < m) :
    (f i, f ((i + 1) % m)) ∈ cycPairs ((List.range m).map f) := by
  unfold cycPairs
  rw [List.mem_iff_getElem?]
  refine ⟨i, ?_⟩
  rw [List.getElem?_zip_eq_some]
  constructor
  · simp [List.getElem?_range h]
  · rw [List.getElem?_rotate (by simpa using h), List.getElem?_map, List.length_map, List.length_range,
      List.getElem?_range (Nat.mod_lt _ (by omega))]
    rfl

/-- The chord of an angle. -/
theorem find_chord {n : ℕ} (hn : 0 < n) {t : ℝ} (h0 : 0 ≤ t) (h1 : t ≤ 1) :
    ∃ i < n, ∃ u : ℝ, 0 ≤ u ∧ u ≤ 1 ∧ t * n = i + u := by
  have hnR : (0 : ℝ) < n := by exact_mod_cast hn
  have htn : 0 ≤ t * n := by positivity
  by_cases h : ⌊t * n⌋₊ < n
  · refine ⟨⌊t * n⌋₊, h, t * n - ⌊t * n⌋₊, ?_, ?_, by ring⟩
    · have := Nat.floor_le htn; linarith
    · have := Nat.lt_floor_add_one (t * n); linarith
  · have h2 : (n : ℝ) ≤ t * n := by
      have : n ≤ ⌊t * n⌋₊ := not_lt.mp h
      exact (Nat.le_floor_iff htn).mp this
    have h3 : t = 1 := le_antisymm h1 (by
      by_contra hcon
      push Not at hcon
      nlinarith)
    refine ⟨n - 1, by omega, 1, by norm_num, le_rfl, ?_⟩
    rw [h3, Nat.cast_sub (by omega : 1 ≤ n)]
    push_cast
    ring

/-- C53. No point of the true arc is farther from the generated edge than the configured maximum. A full circle is a
closed edge, any other arc is an open one. -/
theorem C53_deviation {q : Quality} {radius start span : ℝ} {center : Vec} {pts : List Vec}
    (hr : 1 / 1000000 ≤ radius) (hq : 0 < q.maxChordAngle) (hh : 0 < q.maxChordHeight)
    (h : arc2D q radius start span center = .ok pts) {t : ℝ} (h0 : 0 ≤ t) (h1 : t ≤ 1) :
    (|span| < tau - 1 / 1000000 →
      NearPolyline false pts q.maxChordHeight (circlePoint center radius (start + t * span))) ∧
    (tau ≤ |span| →
      NearPolyline true pts q.maxChordHeight (circlePoint center radius (start + t * tau))) := by
  obtain ⟨d⟩ := arc2D_data hr hq h
  have hr0 : 0 < radius := by linarith
  have hnR : (0 : ℝ) < d.n := by exact_mod_cast d.n_pos
  constructor
  · intro hs
    have hS : clampSpan span = span := clampSpan_eq (by linarith)
    have hc : |(|clampSpan span| - tau)| > 1 / 1000000 := by
      rw [hS, abs_sub_comm]
      exact lt_of_lt_of_le (by linarith) (le_abs_self _)
    have e := d.pts_eq
    rw [if_pos hc] at e
    obtain ⟨i, hi, u, hu0, hu1, htn⟩ := find_chord d.n_pos h0 h1
    obtain ⟨s, hs0, hs1, hs2⟩ := chord_deviation (c := center) (α := start + i * (clampSpan span / d.n)) hr0 hh d.fits
      d.step_height hu0 hu1
    refine ⟨(circlePoint center radius (start + i * (clampSpan span / d.n)),
        circlePoint center radius (start + (i + 1 : ℕ) * (clampSpan span / d.n))), ?_, s, hs0, hs1, ?_⟩
    · have hmem := mem_pathPairs (f := fun i : ℕ => circlePoint center radius (start + i * (clampSpan span / d.n)))
        (show i + 1 < d.n + 1 by omega)
      rw [← e] at hmem
      exact hmem
    · have e1 : start + t * span = start + i * (clampSpan span / d.n) + u * (clampSpan span / d.n) := by
        have : t * span = (t * d.n) * (span / d.n) := by field_simp
        rw [hS, this, htn]; ring
      have e2 : start + (i + 1 : ℕ) * (clampSpan span / d.n) =
          start + i * (clampSpan span / d.n) + clampSpan span / d.n := by push_cast; ring
      rw [e1]
      dsimp only
      rw [e2]
      exact hs2
  · intro hs
    have ht0 := tau_pos
    have habs : clampSpan span = tau ∨ clampSpan span = -tau := by
      unfold clampSpan
      rcases le_abs.mp hs with h | h
      · left; rw [min_eq_right h]; exact max_eq_right (by linarith)
      · right; rw [min_eq_left (by linarith)]; exact max_eq_left (by linarith)
    have hS : |clampSpan span| = tau := by
      rcases habs with h | h
      · rw [h]; exact abs_of_pos ht0
      · rw [h, abs_neg]; exact abs_of_pos ht0
    have hc : ¬ |(|clampSpan span| - tau)| > 1 / 1000000 := by
      rw [hS, sub_self, abs_zero]; norm_num
    have e := d.pts_eq
    rw [if_neg hc] at e
    -- the same point, in the direction of the span
    obtain ⟨t', ht'0, ht'1, hpt⟩ : ∃ t' : ℝ, 0 ≤ t' ∧ t' ≤ 1 ∧
        circlePoint center radius (start + t * tau) = circlePoint center radius (start + t' * clampSpan span) := by
      rcases habs with h | h
      · exact ⟨t, h0, h1, by rw [h]⟩
      · refine ⟨1 - t, by linarith, by linarith, ?_⟩
        have : start + (1 - t) * clampSpan span = start + t * tau - 2 * Real.pi := by rw [h]; unfold tau; ring
        rw [this]
        simp only [circlePoint, Real.cos_sub_two_pi, Real.sin_sub_two_pi]
    obtain ⟨i, hi, u, hu0, hu1, htn⟩ := find_chord d.n_pos ht'0 ht'1
    obtain ⟨s, hs0, hs1, hs2⟩ := chord_deviation (c := center) (α := start + i * (clampSpan span / d.n)) hr0 hh d.fits
      d.step_height hu0 hu1
    refine ⟨(circlePoint center radius (start + i * (clampSpan span / d.n)),
        circlePoint center radius (start + ((i + 1) % d.n : ℕ) * (clampSpan span / d.n))), ?_, s, hs0, hs1, ?_⟩
    · have hmem := mem_cycPairs (f := fun i : ℕ => circlePoint center radius (start + i * (clampSpan span / d.n))) hi
      rw [← e] at hmem
      exact hmem
    · have e1 : start + t' * clampSpan span = start + i * (clampSpan span / d.n) + u * (clampSpan span / d.n) := by
        have : t' * clampSpan span = (t' * d.n) * (clampSpan span / d.n) := by field_simp
        rw [this, htn]; ring
      have e2 : circlePoint center radius (start + ((i + 1) % d.n : ℕ) * (clampSpan span / d.n)) =
          circlePoint center radius (start + i * (clampSpan span / d.n) + clampSpan span / d.n) := by
        by_cases hi1 : i + 1 < d.n
        · rw [Nat.mod_eq_of_lt hi1]
          congr 1; push_cast; ring
        · have hin : i + 1 = d.n := by omega
          rw [hin, Nat.mod_self]
          have e3 : start + i * (clampSpan span / d.n) + clampSpan span / d.n = start + clampSpan span := by
            have : (i : ℝ) + 1 = d.n := by exact_mod_cast hin
            have h4 : (i : ℝ) * (clampSpan span / d.n) + clampSpan span / d.n = ((i : ℝ) + 1) * (clampSpan span / d.n) := by ring
            rw [add_assoc, h4, this, mul_div_cancel₀ _ hnR.ne']
          rw [e3]
          rcases habs with h | h
          · rw [h]; unfold tau
            simp only [circlePoint, Real.cos_add_two_pi, Real.sin_add_two_pi, Nat.cast_zero, zero_mul, add_zero]
          · rw [h]; unfold tau
            simp only [circlePoint, ← sub_eq_add_neg, Real.cos_sub_two_pi, Real.sin_sub_two_pi, Nat.cast_zero, zero_mul, add_zero]
      rw [hpt, e1]
      dsimp only
      rw [e2]
      exact hs2

/-- C53. Neighbours are not farther apart than the configured angle. -/
theorem C53_angle {q : Quality} {radius start span : ℝ} {center : Vec} {pts : List Vec}
    (hr : 1 / 1000000 ≤ radius) (hq : 0 < q.maxChordAngle) (h : arc2D q radius start span center = .ok pts) :
    ∀ ab ∈ pathPairs pts, ∃ θ step : ℝ, |step| ≤ q.maxChordAngle ∧ 0 ≤ step * span ∧
      ab.1 = circlePoint center radius θ ∧ ab.2 = circlePoint center radius (θ + step) := by
  obtain ⟨d⟩ := arc2D_data hr hq h
  have hnR : (0 : ℝ) < d.n := by exact_mod_cast d.n_pos
  intro ab hab
  unfold pathPairs at hab
  obtain ⟨i, hi⟩ := List.mem_iff_getElem?.mp hab
  rw [List.getElem?_zip_eq_some, List.getElem?_tail] at hi
  have key : ∀ (j : ℕ) (p : Vec), pts[j]? = some p → p = circlePoint center radius (start + j * (clampSpan span / d.n)) := by
    intro j p hj
    rw [d.pts_eq, List.getElem?_map] at hj
    obtain ⟨k, hk, rfl⟩ := Option.map_eq_some_iff.mp hj
    obtain ⟨hlt, hk⟩ := List.getElem?_eq_some_iff.mp hk
    rw [List.getElem_range] at hk
    rw [hk]
  refine ⟨_, clampSpan span / d.n, d.step_angle, ?_, key i _ hi.1, ?_⟩
  · have : 0 ≤ clampSpan span * span := by
      have ht := tau_pos
      unfold clampSpan
      rcases le_total 0 span with h0 | h0
      · exact mul_nonneg (le_max_of_le_right (le_min h0 ht.le)) h0
      · exact mul_nonneg_of_nonpos_of_nonpos (max_le (by linarith) ((min_le_left _ _).trans h0)) h0
    rw [div_mul_eq_mul_div]
    positivity
  · rw [key (i + 1) _ hi.2]
    congr 1; push_cast; ring

/-- C53. Which arcs can be generated: the span must not be zero, and the radius at least half of the maximum deviation
(`ValueError` of `math.acos`). Without a radius, there is just the center. -/
theorem C53_succeeds (q : Quality) (radius start span : ℝ) (center : Vec) (hq : 0 < q.maxChordAngle)
    (hh : 0 < q.maxChordHeight) :
    (radius < 1 / 1000000 → arc2D q radius start span center = .ok [center]) ∧
    (1 / 1000000 ≤ radius → ((∃ pts, arc2D q radius start span center = .ok pts) ↔
      q.maxChordHeight ≤ 2 * radius ∧ span ≠ 0)) ∧
    (1 / 1000000 ≤ radius → 2 * radius < q.maxChordHeight →
      arc2D q radius start span center = .error .valueError) ∧
    (1 / 1000000 ≤ radius → q.maxChordHeight ≤ 2 * radius →
      arc2D q radius start 0 center = .error .zeroDivision) := by
  have hzero : ∀ s, clampSpan s = 0 ↔ s = 0 := by
    intro s
    have ht := tau_pos
    constructor
    · intro h
      unfold clampSpan at h
      rcases le_total s tau with h1 | h1
      · rw [min_eq_left h1] at h
        rcases le_total s (-tau) with h2 | h2
        · rw [max_eq_left h2] at h; linarith
        · rwa [max_eq_right h2] at h
      · rw [min_eq_right h1, max_eq_right (by linarith)] at h; linarith
    · rintro rfl
      exact clampSpan_eq (by rw [abs_zero]; exact ht.le)
  have run : 1 / 1000000 ≤ radius → q.maxChordHeight ≤ 2 * radius → ∀ span : ℝ,
      ∃ M : ℝ, 0 < M ∧ arc2D q radius start span center = (do
        let chordAngle ← pyDiv (clampSpan span) (⌈|clampSpan span| / M⌉ : ℤ)
        pure ((List.range (if |(|clampSpan span| - tau)| > 1 / 1000000 then
            ⌈|clampSpan span| / M⌉ + 1 else ⌈|clampSpan span| / M⌉).toNat).map fun (i : ℕ) =>
          (⟨center.x + radius * Real.cos (start + i * chordAngle), center.y + radius * Real.sin (start + i * chordAngle), 0⟩ : Vec))) := by
    intro hr hf span
    have hr0 : 0 < radius := by linarith
    have hd : q.maxChordHeight / radius ≤ 2 := by rw [div_le_iff₀ hr0]; exact hf
    have hd0 : 0 < q.maxChordHeight / radius := by positivity
    have hM : 0 < min q.maxChordAngle (Real.arccos (1 - q.maxChordHeight / radius) * 2) := by
      refine lt_min hq ?_
      have := Real.arccos_pos.mpr (show 1 - q.maxChordHeight / radius < 1 by linarith)
      linarith
    refine ⟨_, hM, ?_⟩
    unfold arc2D
    rw [if_neg (not_lt.mpr hr)]
    have e1 : pyDiv q.maxChordHeight radius = .ok (q.maxChordHeight / radius) := by
      unfold pyDiv; rw [if_neg hr0.ne']
    have e2 : pyAcos (1 - q.maxChordHeight / radius) = .ok (Real.arccos (1 - q.maxChordHeight / radius)) := by
      unfold pyAcos
      rw [if_neg]
      push Not
      exact ⟨by linarith, by linarith⟩
    have e3 : pyDiv |clampSpan span| (min q.maxChordAngle (Real.arccos (1 - q.maxChordHeight / radius) * 2)) =
        .ok (|clampSpan span| / min q.maxChordAngle (Real.arccos (1 - q.maxChordHeight / radius) * 2)) := by
      unfold pyDiv; rw [if_neg hM.ne']
    rw [e1]
    simp only [bind, Except.bind, e2]
    rw [show max (-tau) (min span tau) = clampSpan span from rfl, e3]
  refine ⟨fun h => by unfold arc2D; rw [if_pos h], fun hr => ⟨?_, ?_⟩, fun hr hf => ?_, fun hr hf => ?_⟩
  · rintro ⟨pts, h⟩
    obtain ⟨d⟩ := arc2D_data hr hq h
    exact ⟨d.fits, fun h0 => d.span_ne ((hzero span).mpr h0)⟩
  · rintro ⟨hf, hs⟩
    obtain ⟨M, hM, e⟩ := run hr hf span
    rw [e]
    have hS : clampSpan span ≠ 0 := fun h => hs ((hzero span).mp h)
    have hpos : 0 < ⌈|clampSpan span| / M⌉ := Int.ceil_pos.mpr (div_pos (abs_pos.mpr hS) hM)
    have hne : ((⌈|clampSpan span| / M⌉ : ℤ) : ℝ) ≠ 0 := by exact_mod_cast hpos.ne'
    unfold pyDiv
    rw [if_neg hne]
    exact ⟨_, rfl⟩
  · have hr0 : 0 < radius := by linarith
    unfold arc2D
    rw [if_neg (not_lt.mpr hr)]
    have e1 : pyDiv q.maxChordHeight radius = .ok (q.maxChordHeight / radius) := by
      unfold pyDiv; rw [if_neg hr0.ne']
    have e2 : pyAcos (1 - q.maxChordHeight / radius) = .error .valueError := by
      unfold pyAcos
      rw [if_pos]
      left
      have : 2 < q.maxChordHeight / radius := by rw [lt_div_iff₀ hr0]; exact hf
      linarith
    rw [e1]
    simp only [bind, Except.bind, e2]
  · obtain ⟨M, hM, e⟩ := run hr hf 0
    rw [e]
    have : clampSpan 0 = 0 := (hzero 0).mpr rfl
    rw [this]
    simp [pyDiv, bind, Except.bind]

/-! ### C54 -/

theorem normalized2D_ok {v u : Vec} (h : v.normalized2D = .ok u) :
    0 < v.magnitude2D ∧ v.xy = u * v.magnitude2D ∧ u.x ^ 2 + u.y ^ 2 = 1 ∧ u.z = 0 := by
  unfold Vec.normalized2D at h
  split_ifs at h with h0
  cases h
  have hpos : 0 < v.magnitude2D := lt_of_le_of_ne (Real.sqrt_nonneg _) (Ne.symm h0)
  have hsq : v.magnitude2D ^ 2 = v.x * v.x + v.y * v.y := Real.sq_sqrt (by nlinarith [sq_nonneg v.x, sq_nonneg v.y])
  refine ⟨hpos, ?_, ?_, rfl⟩
  · ext
    · show v.x = v.x / v.magnitude2D * v.magnitude2D
      field_simp
    · show v.y = v.y / v.magnitude2D * v.magnitude2D
      field_simp
    · show (0 : ℝ) = 0 * v.magnitude2D
      ring
  · show (v.x / v.magnitude2D) ^ 2 + (v.y / v.magnitude2D) ^ 2 = 1
    rw [div_pow, div_pow, ← add_div, hsq, div_eq_one_iff_eq]
    · ring
    · nlinarith

theorem angle2D_unit {v : Vec} (h : v.x ^ 2 + v.y ^ 2 = 1) : Real.cos (angle2D v) = v.x ∧ Real.sin (angle2D v) = v.y := by
  have hn : ‖(⟨v.x, v.y⟩ : ℂ)‖ = 1 := by
    rw [Complex.norm_eq_sqrt_sq_add_sq]
    simp [h]
  have hne : (⟨v.x, v.y⟩ : ℂ) ≠ 0 := by
    intro h0
    rw [h0, norm_zero] at hn
    norm_num at hn
  constructor
  · unfold angle2D
    rw [Complex.cos_arg hne, hn, div_one]
  · unfold angle2D
    rw [Complex.sin_arg, hn, div_one]

/-- Two directions, and the angle between them. -/
theorem corner_angle {u w : Vec} (hu : u.x ^ 2 + u.y ^ 2 = 1) (hw : w.x ^ 2 + w.y ^ 2 = 1) (hz : u.z = 0) {γ σ : ℝ}
    (hσ : σ = if (w.cross u).z > 0 then 1 else -1) (hγ : γ = Real.arccos (u.dot w)) :
    σ ^ 2 = 1 ∧ 0 ≤ γ ∧ γ ≤ Real.pi ∧ 
      w.x = Real.cos γ * u.x + σ * Real.sin γ * u.y ∧ w.y = Real.cos γ * u.y - σ * Real.sin γ * u.x := by
  have hd : u.dot w = u.x * w.x + u.y * w.y := by simp [Vec.dot, hz]
  have hcross : (w.cross u).z = w.x * u.y - w.y * u.x := rfl
  have hid : (u.x * w.x + u.y * w.y) ^ 2 + (w.x * u.y - w.y * u.x) ^ 2 = 1 := by
    have : (u.x * w.x + u.y * w.y) ^ 2 + (w.x * u.y - w.y * u.x) ^ 2 = (u.x ^ 2 + u.y ^ 2) * (w.x ^ 2 + w.y ^ 2) := by ring
    rw [this, hu, hw]; norm_num
  have hσ2 : σ ^ 2 = 1 := by rw [hσ]; split_ifs <;> norm_num
  have hcos : Real.cos γ = u.x * w.x + u.y * w.y := by
    rw [hγ, hd, Real.cos_arccos]
    · nlinarith [sq_nonneg (w.x * u.y - w.y * u.x)]
    · nlinarith [sq_nonneg (w.x * u.y - w.y * u.x)]
  have hsin : Real.sin γ = |w.x * u.y - w.y * u.x| := by
    rw [hγ, hd, Real.sin_arccos, ← Real.sqrt_sq_eq_abs]
    congr 1
    linarith
  have hsσ : σ * Real.sin γ = w.x * u.y - w.y * u.x := by
    rw [hsin, hσ, hcross]
    split_ifs with h
    · rw [abs_of_pos h]; ring
    · rw [abs_of_nonpos (not_lt.mp h)]; ring
  refine ⟨hσ2, ?_, ?_, ?_, ?_⟩
  · rw [hγ]; exact Real.arccos_nonneg _
  · rw [hγ]; exact Real.arccos_le_pi _
  · rw [hsσ, hcos]
    linear_combination (-w.x) * hu
  · rw [hsσ, hcos]
    linear_combination (-w.y) * hu

theorem near_side (bx b_y ux uy σ cg sg ct st K : ℝ) (hu : ux ^ 2 + uy ^ 2 = 1) (hσ2 : σ ^ 2 = 1)
    (hsc : sg ^ 2 + cg ^ 2 = 1) (hst : st ^ 2 + ct ^ 2 = 1) :
    (bx - (bx + (ux + (cg * ux + σ * sg * uy)) * K + K * sg * (-σ * ct * uy - st * ux))) ^ 2 +
      (b_y - (b_y + (uy + (cg * uy - σ * sg * ux)) * K + K * sg * (σ * ct * ux - st * uy))) ^ 2 =
    K ^ 2 * (2 + 2 * cg + sg ^ 2 - 2 * sg * (st * cg + ct * sg + st)) := by
  have e : (bx - (bx + (ux + (cg * ux + σ * sg * uy)) * K + K * sg * (-σ * ct * uy - st * ux))) ^ 2 +
      (b_y - (b_y + (uy + (cg * uy - σ * sg * ux)) * K + K * sg * (σ * ct * ux - st * uy))) ^ 2 =
      K ^ 2 * ((1 + cg - sg * st) ^ 2 + σ ^ 2 * (sg - sg * ct) ^ 2) * (ux ^ 2 + uy ^ 2) := by ring
  rw [e, hu, hσ2]
  linear_combination K ^ 2 * sg ^ 2 * hst + K ^ 2 * hsc

theorem arc_key {γ t : ℝ} (hγpos : 0 < γ) (hγpi : γ < Real.pi) (ht0 : 0 ≤ t) (ht1 : t ≤ Real.pi - γ) :
    Real.sin γ ≤ Real.sin (t + γ) + Real.sin t := by
  have hc2 : 0 < Real.cos (γ / 2) := Real.cos_pos_of_mem_Ioo ⟨by linarith, by linarith⟩
  have hsγ : Real.sin γ = 2 * Real.sin (γ / 2) * Real.cos (γ / 2) := by
    rw [← Real.sin_two_mul]; congr 1; ring
  have e1 : Real.sin (t + γ) + Real.sin t = 2 * Real.sin (t + γ / 2) * Real.cos (γ / 2) := by
    rw [show t + γ = (t + γ / 2) + γ / 2 by ring, show Real.sin t = Real.sin ((t + γ / 2) - γ / 2) by congr 1; ring,
      Real.sin_add, Real.sin_sub]
    ring
  rw [e1, hsγ]
  have : Real.sin (γ / 2) ≤ Real.sin (t + γ / 2) := by
    rcases le_total (t + γ / 2) (Real.pi / 2) with h | h
    · exact Real.sin_le_sin_of_le_of_le_pi_div_two (by linarith) h (by linarith)
    · rw [← Real.sin_pi_sub (t + γ / 2)]
      exact Real.sin_le_sin_of_le_of_le_pi_div_two (by linarith) (by linarith) (by linarith)
  exact mul_le_mul_of_nonneg_right (by linarith) hc2.le

/-- C54. A corner arc starts on the side from `b` to `a`, ends on the side from `b` to `c`, in the same distance from
the corner; its circle touches both sides there; and it is the part of the circle which is closer to the corner. -/
theorem C54_tangent {q : Quality} {radius : ℝ} {a b c : Vec} {pts : List Vec} (hr : 1 / 1000000 ≤ radius)
    (hq : 0 < q.maxChordAngle) (h : cornerArc2D q radius a b c = .ok pts) :
    ∃ aDir cDir center : Vec, ∃ dist : ℝ, 0 < dist ∧
      UnitOf aDir (a - b).xy ∧ UnitOf cDir (c - b).xy ∧
      pts.head? = some (b.xy + aDir * dist) ∧ pts.getLast? = some (b.xy + cDir * dist) ∧
      (b.xy + aDir * dist - center).dot aDir = 0 ∧ (b.xy + cDir * dist - center).dot cDir = 0 ∧
      (∀ p ∈ pts, OnCircle2D center radius p ∧ distSq2D b p ≤ dist ^ 2) := by
  have hr0 : 0 < radius := by linarith
  unfold cornerArc2D at h
  obtain ⟨u, h1, h⟩ := bind_ok h
  obtain ⟨w, h2, h⟩ := bind_ok h
  obtain ⟨γ, h3, h⟩ := bind_ok h
  obtain ⟨D, h4, h⟩ := bind_ok h
  obtain ⟨e, h5, h⟩ := bind_ok h
  obtain ⟨ha, hau, hu, huz⟩ := normalized2D_ok h1
  obtain ⟨hc, hcw, hw, hwz⟩ := normalized2D_ok h2
  obtain ⟨hm, hme, -, -⟩ := normalized2D_ok h5
  obtain ⟨-, -, hγ⟩ := pyAcos_ok h3
  obtain ⟨hsn, rfl⟩ := pyDiv_ok h4
  obtain ⟨σ, hσ⟩ : ∃ σ : ℝ, σ = if (w.cross u).z > 0 then 1 else -1 := ⟨_, rfl⟩
  obtain ⟨hσ2, hγ0, hγ1, hwx, hwy⟩ := corner_angle hu hw huz hσ hγ
  have hpi := Real.pi_pos
  have hγpos : 0 < γ := by
    refine lt_of_le_of_ne hγ0 ?_
    rintro rfl
    simp at hsn
  have hmsq : (u + w).magnitude2D ^ 2 = 2 + 2 * Real.cos γ := by
    have : (u + w).magnitude2D ^ 2 = (u.x + w.x) * (u.x + w.x) + (u.y + w.y) * (u.y + w.y) :=
      Real.sq_sqrt (by nlinarith [sq_nonneg (u.x + w.x), sq_nonneg (u.y + w.y)])
    rw [this, hwx, hwy]
    have hsc := Real.sin_sq_add_cos_sq γ
    linear_combination (2 + 2 * Real.cos γ - 2 * (Real.sin γ) ^ 2 + (Real.sin γ) ^ 2 * 1 + (Real.cos γ) ^ 2 - 1 + (Real.sin γ) ^ 2 * σ ^ 2 - (Real.sin γ)^2 + 2 * (Real.sin γ)^2) * hu + hsc + (Real.sin γ) ^ 2 * hσ2
  have hγpi : γ < Real.pi := by
    refine lt_of_le_of_ne hγ1 ?_
    rintro rfl
    rw [Real.cos_pi] at hmsq
    have : 0 < (u + w).magnitude2D ^ 2 := by positivity
    linarith
  have hsin : 0 < Real.sin γ := Real.sin_pos_of_pos_of_lt_pi hγpos hγpi
  have hs2 : 0 < Real.sin (γ / 2) := Real.sin_pos_of_pos_of_lt_pi (by linarith) (by linarith)
  have hc2 : 0 < Real.cos (γ / 2) := Real.cos_pos_of_mem_Ioo ⟨by linarith, by linarith⟩
  have hm2 : (u + w).magnitude2D = 2 * Real.cos (γ / 2) := by
    have e1 : (u + w).magnitude2D ^ 2 = (2 * Real.cos (γ / 2)) ^ 2 := by
      rw [hmsq, show Real.cos γ = Real.cos (2 * (γ / 2)) by congr 1; ring, Real.cos_two_mul]; ring
    exact (pow_left_inj₀ hm.le (by linarith) two_ne_zero).mp e1
  have hsγ : Real.sin γ = 2 * Real.sin (γ / 2) * Real.cos (γ / 2) := by
    rw [← Real.sin_two_mul]; congr 1; ring
  set K := radius / Real.sin γ with hK
  have hKr : K * Real.sin γ = radius := by rw [hK]; field_simp
  have hK0 : 0 < K := by positivity
  -- the center
  have hex : e.x * (radius / Real.sin (γ / 2)) = (u.x + w.x) * K := by
    have : u.x + w.x = e.x * (2 * Real.cos (γ / 2)) := by
      have := congrArg Vec.x hme
      rw [hm2] at this
      exact this
    rw [this, hK, hsγ]
    field_simp
  have hey : e.y * (radius / Real.sin (γ / 2)) = (u.y + w.y) * K := by
    have : u.y + w.y = e.y * (2 * Real.cos (γ / 2)) := by
      have := congrArg Vec.y hme
      rw [hm2] at this
      exact this
    rw [this, hK, hsγ]
    field_simp
  set center := b.xy + e * (radius / Real.sin (γ / 2)) with hcenter
  have hcx : center.x = b.x + (u.x + w.x) * K := by rw [← hex]; rfl
  have hcy : center.y = b.y + (u.y + w.y) * K := by rw [← hey]; rfl
  rw [← hσ] at h
  change arc2D q radius (angle2D (u.ortho2D * σ)) ((Real.pi - γ) * σ) center = .ok pts at h
  obtain ⟨hψc, hψs⟩ := angle2D_unit (v := u.ortho2D * σ) (by
    show (-u.y * σ) ^ 2 + (u.x * σ) ^ 2 = 1
    linear_combination hu * σ ^ 2 + hσ2)
  change _ = -u.y * σ at hψc
  change _ = u.x * σ at hψs
  set ψ := angle2D (u.ortho2D * σ)
  have hcs : ∀ t : ℝ, Real.cos (t * σ) = Real.cos t ∧ Real.sin (t * σ) = σ * Real.sin t := by
    intro t
    have : σ = 1 ∨ σ = -1 := by rw [hσ]; split_ifs <;> simp
    rcases this with h | h <;> rw [h] <;> simp
  -- a point of the arc
  have hpoint : ∀ t : ℝ, circlePoint center radius (ψ + t * σ) =
      ⟨center.x + radius * (-σ * Real.cos t * u.y - Real.sin t * u.x),
       center.y + radius * (σ * Real.cos t * u.x - Real.sin t * u.y), 0⟩ := by
    intro t
    simp only [circlePoint, Real.cos_add, Real.sin_add, hψc, hψs, (hcs t).1, (hcs t).2]
    ext
    · show center.x + radius * _ = center.x + radius * _
      congr 2
      linear_combination (-u.x * Real.sin t) * hσ2
    · show center.y + radius * _ = center.y + radius * _
      congr 2
      linear_combination (-u.y * Real.sin t) * hσ2
    · rfl
  have habs : |(Real.pi - γ) * σ| = Real.pi - γ := by
    have : |σ| = 1 := by rw [hσ]; split_ifs <;> simp
    rw [abs_mul, this, mul_one, abs_of_pos (by linarith)]
  have hsmall : |(Real.pi - γ) * σ| < tau - 1 / 1000000 := by
    rw [habs]; unfold tau
    have := Real.two_le_pi
    linarith
  obtain ⟨hhead, hlast⟩ := C53_ends hr hq h
  obtain ⟨-, hlast⟩ := hlast hsmall
  set L := K * (1 + Real.cos γ) with hL
  have hcos1 : 0 < 1 + Real.cos γ := by
    have : 0 < (u + w).magnitude2D ^ 2 := by positivity
    linarith
  have hsc := Real.sin_sq_add_cos_sq γ
  refine ⟨u, w, center, L, by positivity, ⟨?_, (a - b).magnitude2D, ha, hau⟩, ⟨?_, (c - b).magnitude2D, hc, hcw⟩, ?_, ?_, ?_, ?_, ?_⟩
  · show u.x * u.x + u.y * u.y + u.z * u.z = 1
    rw [huz]; linarith
  · show w.x * w.x + w.y * w.y + w.z * w.z = 1
    rw [hwz]; linarith
  · rw [hhead]
    congr 1
    have := hpoint 0
    rw [zero_mul, add_zero] at this
    rw [this]
    ext
    · show center.x + _ = b.x + u.x * L
      rw [hcx, hwx, Real.cos_zero, Real.sin_zero, ← hKr, hL]
      ring
    · show center.y + _ = b.y + u.y * L
      rw [hcy, hwy, Real.cos_zero, Real.sin_zero, ← hKr, hL]
      ring
    · show (0 : ℝ) = 0 + u.z * L
      rw [huz]; ring
  · rw [hlast]
    congr 1
    rw [hpoint (Real.pi - γ), Real.cos_pi_sub, Real.sin_pi_sub]
    ext
    · show center.x + _ = b.x + w.x * L
      rw [hcx, hwx, ← hKr, hL]
      linear_combination (-K * u.x) * hsc
    · show center.y + _ = b.y + w.y * L
      rw [hcy, hwy, ← hKr, hL]
      linear_combination (-K * u.y) * hsc
    · show (0 : ℝ) = 0 + w.z * L
      rw [hwz]; ring
  · show (b.x + u.x * L - center.x) * u.x + (b.y + u.y * L - center.y) * u.y + (0 + u.z * L - center.z) * u.z = 0
    rw [huz, hcx, hcy, hwx, hwy, hL]
    ring
  · show (b.x + w.x * L - center.x) * w.x + (b.y + w.y * L - center.y) * w.y + (0 + w.z * L - center.z) * w.z = 0
    rw [hwz, hcx, hcy, hL]
    have : (b.x + w.x * (K * (1 + Real.cos γ)) - (b.x + (u.x + w.x) * K)) * w.x +
        (b.y + w.y * (K * (1 + Real.cos γ)) - (b.y + (u.y + w.y) * K)) * w.y + (0 + 0 * (K * (1 + Real.cos γ)) - center.z) * 0 =
        K * (Real.cos γ * (w.x ^ 2 + w.y ^ 2) - (u.x * w.x + u.y * w.y)) := by ring
    rw [this, hw, hwx, hwy]
    linear_combination (-K * Real.cos γ) * hu
  · intro p hp
    refine ⟨C53_on_circle hr hq h p hp, ?_⟩
    obtain ⟨d⟩ := arc2D_data hr hq h
    have hS : clampSpan ((Real.pi - γ) * σ) = (Real.pi - γ) * σ := clampSpan_eq (by linarith)
    have hcond : |(|clampSpan ((Real.pi - γ) * σ)| - tau)| > 1 / 1000000 := by
      rw [hS, abs_sub_comm]
      exact lt_of_lt_of_le (by linarith) (le_abs_self _)
    have hp' := hp
    rw [d.pts_eq, if_pos hcond] at hp'
    obtain ⟨i, hi, rfl⟩ := List.mem_map.mp hp'
    rw [List.mem_range] at hi
    have hnR : (0 : ℝ) < d.n := by exact_mod_cast d.n_pos
    have hi0 : (0 : ℝ) ≤ i := by positivity
    have hin : (i : ℝ) ≤ d.n := by exact_mod_cast (by omega : i ≤ d.n)
    set t := (i : ℝ) * ((Real.pi - γ) / d.n) with ht
    have ht0 : 0 ≤ t := mul_nonneg hi0 (div_nonneg (by linarith) hnR.le)
    have ht1 : t ≤ Real.pi - γ := by
      calc t ≤ d.n * ((Real.pi - γ) / d.n) := mul_le_mul_of_nonneg_right hin (div_nonneg (by linarith) hnR.le)
        _ = Real.pi - γ := by field_simp
    have ethe : ψ + (i : ℝ) * (clampSpan ((Real.pi - γ) * σ) / d.n) = ψ + t * σ := by rw [hS, ht]; ring
    rw [ethe, hpoint t]
    have hkey := arc_key hγpos hγpi ht0 ht1
    have hdist : distSq2D b (⟨center.x + radius * (-σ * Real.cos t * u.y - Real.sin t * u.x),
       center.y + radius * (σ * Real.cos t * u.x - Real.sin t * u.y), 0⟩ : Vec) =
       K ^ 2 * (2 + 2 * Real.cos γ + (Real.sin γ) ^ 2 - 2 * Real.sin γ * (Real.sin (t + γ) + Real.sin t)) := by
      simp only [distSq2D]
      rw [hcx, hcy, hwx, hwy, ← hKr, Real.sin_add]
      exact near_side b.x b.y u.x u.y σ _ _ _ _ K hu hσ2 hsc (Real.sin_sq_add_cos_sq t)
    rw [hdist, hL, mul_pow]
    refine mul_le_mul_of_nonneg_left ?_ (sq_nonneg K)
    have := mul_le_mul_of_nonneg_left hkey hsin.le
    linarith [show (1 + Real.cos γ) ^ 2 = 1 + 2 * Real.cos γ + Real.cos γ ^ 2 by ring,
      show Real.sin γ * Real.sin γ = Real.sin γ ^ 2 by ring]

theorem normalized2D_of {v : Vec} (h : v.x ≠ 0 ∨ v.y ≠ 0) : ∃ u, v.normalized2D = .ok u := by
  unfold Vec.normalized2D
  rw [if_neg]
  · exact ⟨_, rfl⟩
  · intro h0
    have h1 : v.x * v.x + v.y * v.y ≤ 0 := Real.sqrt_eq_zero'.mp h0
    have hx : v.x = 0 := by nlinarith [sq_nonneg v.x, sq_nonneg v.y]
    have hy : v.y = 0 := by nlinarith [sq_nonneg v.x, sq_nonneg v.y]
    rcases h with h | h
    · exact h hx
    · exact h hy

/-- The directions of the sides and the bisector of a proper corner. -/
theorem corner_dirs {a b c : Vec} (hl : left b a c ≠ 0) :
    ∃ u w e : Vec, (a - b).normalized2D = .ok u ∧ (c - b).normalized2D = .ok w ∧
      pyAcos (u.dot w) = .ok (Real.arccos (u.dot w)) ∧ Real.sin (Real.arccos (u.dot w) / 2) ≠ 0 ∧ (u + w).normalized2D = .ok e := by
  have hl' : (a.x - b.x) * (c.y - b.y) - (a.y - b.y) * (c.x - b.x) ≠ 0 := hl
  obtain ⟨u, h1⟩ := normalized2D_of (v := a - b) (by
    by_contra hcon
    push Not at hcon
    have hx : a.x - b.x = 0 := hcon.1
    have hy : a.y - b.y = 0 := hcon.2
    rw [hx, hy] at hl'
    simp at hl')
  obtain ⟨w, h2⟩ := normalized2D_of (v := c - b) (by
    by_contra hcon
    push Not at hcon
    have hx : c.x - b.x = 0 := hcon.1
    have hy : c.y - b.y = 0 := hcon.2
    rw [hx, hy] at hl'
    simp at hl')
  obtain ⟨ha, hau, hu, huz⟩ := normalized2D_ok h1
  obtain ⟨hc, hcw, hw, hwz⟩ := normalized2D_ok h2
  have hcross : w.x * u.y - w.y * u.x ≠ 0 := by
    intro h0
    apply hl'
    have e1 : a.x - b.x = u.x * (a - b).magnitude2D := congrArg Vec.x hau
    have e2 : a.y - b.y = u.y * (a - b).magnitude2D := congrArg Vec.y hau
    have e3 : c.x - b.x = w.x * (c - b).magnitude2D := congrArg Vec.x hcw
    have e4 : c.y - b.y = w.y * (c - b).magnitude2D := congrArg Vec.y hcw
    rw [e1, e2, e3, e4]
    linear_combination (-(a - b).magnitude2D * (c - b).magnitude2D) * h0
  have hid : (u.x * w.x + u.y * w.y) ^ 2 + (w.x * u.y - w.y * u.x) ^ 2 = 1 := by
    have : (u.x * w.x + u.y * w.y) ^ 2 + (w.x * u.y - w.y * u.x) ^ 2 = (u.x ^ 2 + u.y ^ 2) * (w.x ^ 2 + w.y ^ 2) := by ring
    rw [this, hu, hw]; norm_num
  have hc2 : 0 < (w.x * u.y - w.y * u.x) ^ 2 := by positivity
  have hd : u.dot w = u.x * w.x + u.y * w.y := by simp [Vec.dot, huz]
  have hlo : -1 < u.dot w := by rw [hd]; nlinarith
  have hhi : u.dot w < 1 := by rw [hd]; nlinarith
  have hacos : pyAcos (u.dot w) = .ok (Real.arccos (u.dot w)) := by
    unfold pyAcos
    rw [if_neg]
    push Not
    exact ⟨hlo.le, hhi.le⟩
  have hγ0 : 0 < Real.arccos (u.dot w) := Real.arccos_pos.mpr hhi
  have hγ1 : Real.arccos (u.dot w) < Real.pi := by
    refine lt_of_le_of_ne (Real.arccos_le_pi _) ?_
    rw [Ne, Real.arccos_eq_pi]
    linarith
  have hs2 : 0 < Real.sin (Real.arccos (u.dot w) / 2) := Real.sin_pos_of_pos_of_lt_pi (by linarith) (by linarith)
  obtain ⟨e, h5⟩ := normalized2D_of (v := u + w) (by
    by_contra hcon
    push Not at hcon
    have hx : u.x + w.x = 0 := hcon.1
    have hy : u.y + w.y = 0 := hcon.2
    apply hcross
    rw [show w.x = -u.x by linarith, show w.y = -u.y by linarith]
    ring)
  exact ⟨u, w, e, h1, h2, hacos, hs2.ne', h5⟩

/-- C54. There is a corner arc for any three points that are not on one line, if the radius is large enough. -/
theorem C54_succeeds (q : Quality) (radius : ℝ) (a b c : Vec) (hq : 0 < q.maxChordAngle) (hh : 0 < q.maxChordHeight)
    (hr : 1 / 1000000 ≤ radius) (hf : q.maxChordHeight ≤ 2 * radius) (hl : left b a c ≠ 0) :
    ∃ pts, cornerArc2D q radius a b c = .ok pts := by
  have hl' : (a.x - b.x) * (c.y - b.y) - (a.y - b.y) * (c.x - b.x) ≠ 0 := hl
  obtain ⟨u, h1⟩ := normalized2D_of (v := a - b) (by
    by_contra hcon
    push Not at hcon
    have hx : a.x - b.x = 0 := hcon.1
    have hy : a.y - b.y = 0 := hcon.2
    rw [hx, hy] at hl'
    simp at hl')
  obtain ⟨w, h2⟩ := normalized2D_of (v := c - b) (by
    by_contra hcon
    push Not at hcon
    have hx : c.x - b.x = 0 := hcon.1
    have hy : c.y - b.y = 0 := hcon.2
    rw [hx, hy] at hl'
    simp at hl')
  obtain ⟨ha, hau, hu, huz⟩ := normalized2D_ok h1
  obtain ⟨hc, hcw, hw, hwz⟩ := normalized2D_ok h2
  have hcross : w.x * u.y - w.y * u.x ≠ 0 := by
    intro h0
    apply hl'
    have e1 : a.x - b.x = u.x * (a - b).magnitude2D := congrArg Vec.x hau
    have e2 : a.y - b.y = u.y * (a - b).magnitude2D := congrArg Vec.y hau
    have e3 : c.x - b.x = w.x * (c - b).magnitude2D := congrArg Vec.x hcw
    have e4 : c.y - b.y = w.y * (c - b).magnitude2D := congrArg Vec.y hcw
    rw [e1, e2, e3, e4]
    linear_combination (-(a - b).magnitude2D * (c - b).magnitude2D) * h0
  have hid : (u.x * w.x + u.y * w.y) ^ 2 + (w.x * u.y - w.y * u.x) ^ 2 = 1 := by
    have : (u.x * w.x + u.y * w.y) ^ 2 + (w.x * u.y - w.y * u.x) ^ 2 = (u.x ^ 2 + u.y ^ 2) * (w.x ^ 2 + w.y ^ 2) := by ring
    rw [this, hu, hw]; norm_num
  have hc2 : 0 < (w.x * u.y - w.y * u.x) ^ 2 := by positivity
  have hd : u.dot w = u.x * w.x + u.y * w.y := by simp [Vec.dot, huz]
  have hlo : -1 < u.dot w := by rw [hd]; nlinarith
  have hhi : u.dot w < 1 := by rw [hd]; nlinarith
  have hacos : pyAcos (u.dot w) = .ok (Real.arccos (u.dot w)) := by
    unfold pyAcos
    rw [if_neg]
    push Not
    exact ⟨hlo.le, hhi.le⟩
  have hγ0 : 0 < Real.arccos (u.dot w) := Real.arccos_pos.mpr hhi
  have hγ1 : Real.arccos (u.dot w) < Real.pi := by
    refine lt_of_le_of_ne (Real.arccos_le_pi _) ?_
    rw [Ne, Real.arccos_eq_pi]
    linarith
  have hs2 : 0 < Real.sin (Real.arccos (u.dot w) / 2) := Real.sin_pos_of_pos_of_lt_pi (by linarith) (by linarith)
  obtain ⟨e, h5⟩ := normalized2D_of (v := u + w) (by
    by_contra hcon
    push Not at hcon
    have hx : u.x + w.x = 0 := hcon.1
    have hy : u.y + w.y = 0 := hcon.2
    apply hcross
    rw [show w.x = -u.x by linarith, show w.y = -u.y by linarith]
    ring)
  have hσ : (if (w.cross u).z > 0 then (1 : ℝ) else -1) ≠ 0 := by split_ifs <;> norm_num
  obtain ⟨pts, hp⟩ := (((C53_succeeds q radius (angle2D (u.ortho2D * (if (w.cross u).z > 0 then (1 : ℝ) else -1)))
    ((Real.pi - Real.arccos (u.dot w)) * (if (w.cross u).z > 0 then (1 : ℝ) else -1))
    (b.xy + e * (radius / Real.sin (Real.arccos (u.dot w) / 2))) hq hh).2.1) hr).mpr
    ⟨hf, mul_ne_zero (by linarith) hσ⟩
  refine ⟨pts, ?_⟩
  unfold cornerArc2D
  rw [h1]
  simp only [bind, Except.bind, h2, hacos]
  have : pyDiv radius (Real.sin (Real.arccos (u.dot w) / 2)) = .ok (radius / Real.sin (Real.arccos (u.dot w) / 2)) := by
    unfold pyDiv; rw [if_neg hs2.ne']
  rw [this]
  simp only [h5]
  exact hp

/-- A quarter circle with a right corner. -/
example : ∃ pts, cornerArc2D ⟨1 / 100, 1 / 10⟩ 2 ⟨10, 0, 0⟩ ⟨0, 0, 0⟩ ⟨0, 5, 0⟩ = .ok pts :=
  C54_succeeds _ _ _ _ _ (by norm_num) (by norm_num) (by norm_num) (by norm_num) (by norm_num [left])

/-! ### C67 -/

/-- C67. An upright hole is symmetric; its flat top is exactly at the radius; the straight lines next to the top touch
the circle at the ends of the arc. -/
theorem C67_hole {q : Quality} {radius angle : ℝ} {pts : List Vec} (hr : 1 / 1000000 ≤ radius)
    (hq : 0 < q.maxChordAngle) (ha : 1 / 1000000 ≤ angle) (ha1 : angle < Real.pi)
    (h : uprightHole2D q (some angle) radius = .ok pts) :
    ∃ top : Vec, ∃ arc : List Vec, ∃ first last : Vec, pts = top :: arc ++ [top.mirroredX] ∧ top.y = radius ∧
      top.x < 0 ∧ arc.head? = some first ∧ arc.getLast? = some last ∧ last = first.mirroredX ∧
      (∀ p ∈ arc, OnCircle2D 0 radius p) ∧
      (top - first).dot first = 0 ∧ (top.mirroredX - last).dot last = 0 := by
  have hr0 : 0 < radius := by linarith
  unfold uprightHole2D at h
  dsimp only at h
  rw [if_pos (by linarith)] at h
  obtain ⟨arc, h1, h⟩ := bind_ok h
  obtain ⟨t, h2, h⟩ := bind_ok h
  obtain ⟨hc, rfl⟩ := pyDiv_ok h2
  cases h
  have hspan : |tau - 2 * angle| < tau - 1 / 1000000 := by
    unfold tau
    rw [abs_lt]
    constructor <;> linarith
  obtain ⟨e1, e2⟩ := C53_ends hr hq h1
  obtain ⟨-, e2⟩ := e2 hspan
  have hs2 : 0 < Real.sin (angle / 2) := Real.sin_pos_of_pos_of_lt_pi (by linarith) (by linarith)
  have hc2 : 0 < Real.cos (angle / 2) := Real.cos_pos_of_mem_Ioo ⟨by linarith, by linarith⟩
  have hfirst : circlePoint 0 radius (tau / 4 + angle) = ⟨-(radius * Real.sin angle), radius * Real.cos angle, 0⟩ := by
    have : tau / 4 + angle = angle + Real.pi / 2 := by unfold tau; ring
    rw [this]
    simp [circlePoint, Real.cos_add_pi_div_two, Real.sin_add_pi_div_two]
  have hlast : circlePoint 0 radius (tau / 4 + angle + (tau - 2 * angle)) =
      ⟨radius * Real.sin angle, radius * Real.cos angle, 0⟩ := by
    have : tau / 4 + angle + (tau - 2 * angle) = (Real.pi / 2 - angle) + 2 * Real.pi := by unfold tau; ring
    rw [this]
    simp [circlePoint, Real.cos_add_two_pi, Real.sin_add_two_pi, Real.cos_pi_div_two_sub, Real.sin_pi_div_two_sub]
  have key : Real.sin (angle / 2) / Real.cos (angle / 2) * Real.sin angle + Real.cos angle = 1 := by
    have e3 : Real.sin angle = 2 * Real.sin (angle / 2) * Real.cos (angle / 2) := by
      rw [← Real.sin_two_mul]; congr 1; ring
    have e4 : Real.cos angle = 1 - 2 * Real.sin (angle / 2) ^ 2 := by
      rw [show Real.cos angle = Real.cos (2 * (angle / 2)) by congr 1; ring, Real.cos_two_mul]
      have := Real.sin_sq_add_cos_sq (angle / 2)
      linarith
    rw [e3, e4]
    field_simp
    ring
  have hsc := Real.sin_sq_add_cos_sq angle
  refine ⟨_, arc, _, _, rfl, rfl, ?_, e1, e2, ?_, C53_on_circle hr hq h1, ?_, ?_⟩
  · show -radius * Real.sin (angle / 2) / Real.cos (angle / 2) < 0
    apply div_neg_of_neg_of_pos _ hc2
    nlinarith
  · rw [hfirst, hlast]
    ext <;> simp [Vec.mirroredX]
  · rw [hfirst]
    show (-radius * Real.sin (angle / 2) / Real.cos (angle / 2) - -(radius * Real.sin angle)) * -(radius * Real.sin angle) +
      (radius - radius * Real.cos angle) * (radius * Real.cos angle) + (0 - 0) * 0 = 0
    linear_combination radius ^ 2 * key - radius ^ 2 * hsc
  · rw [hlast]
    show (-(-radius * Real.sin (angle / 2) / Real.cos (angle / 2)) - radius * Real.sin angle) * (radius * Real.sin angle) +
      (radius - radius * Real.cos angle) * (radius * Real.cos angle) + (0 - 0) * 0 = 0
    linear_combination radius ^ 2 * key - radius ^ 2 * hsc

/-- C67. An upright half hole is the polygon from `(radius, 0)` to `(-radius, 0)`: its right half is an eighth of a
circle, then the corner of the flat top at the radius, and its left half is the mirror image. With a taper angle of 45°
the straight line next to the top touches the circle. -/
theorem C67_half {q : Quality} {radius angle : ℝ} {pts : List Vec} (hr : 1 / 1000000 ≤ radius)
    (hq : 0 < q.maxChordAngle) (ha : 0 < angle) (ha1 : angle < Real.pi)
    (h : uprightHalfHole2D q (some angle) radius = .ok pts) :
    ∃ arc : List Vec, ∃ last top : Vec, pts = arc ++ [top, top.mirroredX] ++ (arc.map Vec.mirroredX).reverse ∧
      arc.head? = some ⟨radius, 0, 0⟩ ∧ pts.getLast? = some ⟨-radius, 0, 0⟩ ∧ arc.getLast? = some last ∧
      last = circlePoint 0 radius (Real.pi / 4) ∧
      (∀ p ∈ arc, OnCircle2D 0 radius p) ∧ top.y = radius ∧ 0 < top.x ∧
      ((top - last).dot last = 0 ↔ angle = Real.pi / 4) := by
  have hr0 : 0 < radius := by linarith
  unfold uprightHalfHole2D at h
  dsimp only at h
  rw [if_pos ha] at h
  obtain ⟨arc, h1, h⟩ := bind_ok h
  obtain ⟨t, h2, h⟩ := bind_ok h
  obtain ⟨hc, rfl⟩ := pyDiv_ok h2
  cases h
  have hpi := Real.two_le_pi
  have hspan : |tau / 8| < tau - 1 / 1000000 := by
    unfold tau
    rw [abs_lt]
    constructor <;> linarith
  obtain ⟨e1, e2⟩ := C53_ends hr hq h1
  obtain ⟨-, e2⟩ := e2 hspan
  have hfirst : circlePoint 0 radius 0 = ⟨radius, 0, 0⟩ := by simp [circlePoint]
  rw [hfirst] at e1
  have hs2 : 0 < Real.sin (angle / 2) := Real.sin_pos_of_pos_of_lt_pi (by linarith) (by linarith)
  have hc2 : 0 < Real.cos (angle / 2) := Real.cos_pos_of_mem_Ioo ⟨by linarith, by linarith⟩
  have hang : 0 + tau / 8 = Real.pi / 4 := by unfold tau; ring
  rw [hang] at e2
  refine ⟨arc, _, ⟨radius * Real.sin (angle / 2) / Real.cos (angle / 2), radius, 0⟩, ?_, e1, ?_, e2, rfl,
    C53_on_circle hr hq h1, rfl, by positivity, ?_⟩
  · simp [Vec.mirroredX]
  · have hne : arc ≠ [] := by rintro rfl; simp at e1
    obtain ⟨a, l, rfl⟩ := List.exists_cons_of_ne_nil hne
    simp only [List.head?_cons, Option.some.injEq] at e1
    subst e1
    rw [List.cons_append, List.map_cons, List.reverse_cons, ← List.append_assoc, List.getLast?_concat]
    simp [Vec.mirroredX]
  · have e3 : Real.sin angle = 2 * Real.sin (angle / 2) * Real.cos (angle / 2) := by
      rw [← Real.sin_two_mul]; congr 1; ring
    have h45 : circlePoint 0 radius (Real.pi / 4) = ⟨radius * (√2 / 2), radius * (√2 / 2), 0⟩ := by
      simp [circlePoint]
    rw [h45]
    have hsq : √2 * √2 = (2 : ℝ) := Real.mul_self_sqrt (by norm_num)
    have h2pos : (0 : ℝ) < √2 := Real.sqrt_pos.mpr (by norm_num)
    -- tan (π/8) = √2 - 1
    have hs8 : 0 < Real.cos (Real.pi / 8) := Real.cos_pos_of_mem_Ioo ⟨by linarith, by linarith⟩
    have htan : Real.tan (Real.pi / 8) = √2 - 1 := by
      have a1 : Real.sin (Real.pi / 4) = 2 * Real.sin (Real.pi / 8) * Real.cos (Real.pi / 8) := by
        rw [← Real.sin_two_mul]; congr 1; ring
      have a2 : Real.cos (Real.pi / 4) = 2 * Real.cos (Real.pi / 8) ^ 2 - 1 := by
        rw [← Real.cos_two_mul]; congr 1; ring
      rw [Real.sin_pi_div_four] at a1
      rw [Real.cos_pi_div_four] at a2
      rw [Real.tan_eq_sin_div_cos, div_eq_iff hs8.ne']
      have : 2 * Real.cos (Real.pi / 8) * (Real.sin (Real.pi / 8) - (√2 - 1) * Real.cos (Real.pi / 8)) = 0 := by
        linear_combination -a1 + (√2 - 1) * a2 - hsq / 2
      rcases mul_eq_zero.mp this with h0 | h0
      · linarith
      · linarith
    have hkey : ((⟨radius * Real.sin (angle / 2) / Real.cos (angle / 2), radius, 0⟩ : Vec) -
        ⟨radius * (√2 / 2), radius * (√2 / 2), 0⟩).dot ⟨radius * (√2 / 2), radius * (√2 / 2), 0⟩ =
        radius ^ 2 * (√2 / 2) * (Real.tan (angle / 2) - Real.tan (Real.pi / 8)) := by
      rw [htan, Real.tan_eq_sin_div_cos]
      show (radius * Real.sin (angle / 2) / Real.cos (angle / 2) - radius * (√2 / 2)) * (radius * (√2 / 2)) +
        (radius - radius * (√2 / 2)) * (radius * (√2 / 2)) + (0 - 0) * 0 = _
      ring
    rw [hkey]
    constructor
    · intro h0
      have h3 : Real.tan (angle / 2) = Real.tan (Real.pi / 8) := by
        rcases mul_eq_zero.mp h0 with h4 | h4
        · exfalso; have : 0 < radius ^ 2 * (√2 / 2) := by positivity
          linarith
        · linarith
      have := Real.injOn_tan (x₁ := angle / 2) (x₂ := Real.pi / 8) ⟨by linarith, by linarith⟩
        ⟨by linarith, by linarith⟩ h3
      linarith
    · rintro rfl
      rw [show Real.pi / 4 / 2 = Real.pi / 8 by ring]
      ring

/-- C67. Without support settings, or with a taper angle of zero, the holes are round. -/
theorem C67_round (q : Quality) (radius : ℝ) (taper : Option ℝ) (h : ∀ a ∈ taper, a ≤ 0) :
    uprightHole2D q taper radius = arc2D q radius 0 tau 0 ∧
    uprightHalfHole2D q taper radius = arc2D q radius 0 Real.pi 0 := by
  rcases taper with _ | a
  · exact ⟨rfl, rfl⟩
  · have := h a rfl
    constructor
    · unfold uprightHole2D; dsimp only; rw [if_neg (by linarith)]
    · unfold uprightHalfHole2D; dsimp only; rw [if_neg (by linarith)]

/-- C67. Holes whose radius is not too small for the chord height can be made. -/
theorem C67_succeeds (q : Quality) (radius angle : ℝ) (hq : 0 < q.maxChordAngle) (hh : 0 < q.maxChordHeight)
    (hr : 1 / 1000000 ≤ radius) (hf : q.maxChordHeight ≤ 2 * radius) (ha1 : angle < Real.pi) :
    (∃ pts, uprightHole2D q (some angle) radius = .ok pts) ∧
    (∃ pts, uprightHalfHole2D q (some angle) radius = .ok pts) := by
  have hpi := Real.two_le_pi
  have harc : ∀ start span : ℝ, span ≠ 0 → ∃ pts, arc2D q radius start span 0 = .ok pts := fun start span hs =>
    ((C53_succeeds q radius start span 0 hq hh).2.1 hr).mpr ⟨hf, hs⟩
  by_cases ha : 0 < angle
  · have hc2 : 0 < Real.cos (angle / 2) := Real.cos_pos_of_mem_Ioo ⟨by linarith, by linarith⟩
    constructor
    · obtain ⟨pts, h⟩ := harc (tau / 4 + angle) (tau - 2 * angle) (by unfold tau; intro h; linarith)
      unfold uprightHole2D
      dsimp only
      rw [if_pos ha, h]
      simp only [bind, Except.bind, pyDiv, if_neg hc2.ne']
      exact ⟨_, rfl⟩
    · obtain ⟨pts, h⟩ := harc 0 (tau / 8) (by unfold tau; intro h; linarith)
      unfold uprightHalfHole2D
      dsimp only
      rw [if_pos ha, h]
      simp only [bind, Except.bind, pyDiv, if_neg hc2.ne']
      exact ⟨_, rfl⟩
  · obtain ⟨e1, e2⟩ := C67_round q radius (some angle) (by rintro a ⟨rfl⟩; linarith)
    rw [e1, e2]
    exact ⟨harc _ _ (by unfold tau; intro h; linarith), harc _ _ (by intro h; linarith)⟩

/-- A hole of a screw with the default quality and taper. -/
example : ∃ pts, uprightHole2D ⟨1 / 100, 1 / 10⟩ (some (Real.pi / 4)) (3 / 2) = .ok pts := by
  have hpi := Real.two_le_pi
  exact (C67_succeeds _ _ _ (by norm_num) (by norm_num) (by norm_num) (by norm_num) (by linarith)).1

end Chrumm.Part
