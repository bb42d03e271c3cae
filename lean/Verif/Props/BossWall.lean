import Verif.Props.BossRoof

/-! C79: where bosses meet the wall. -/

namespace Chrumm.Part
open Geo Geo.Spec Spec Classical

/-- The points of an arc are between its ends. -/
theorem arc_between {q : Quality} {radius start span : ℝ} {center : Vec} {pts : List Vec}
    (hr : 1 / 1000000 ≤ radius) (hq : 0 < q.maxChordAngle) (hs : |span| ≤ Real.pi)
    (h : arc2D q radius start span center = .ok pts) :
    ∀ p ∈ pts, ∃ s : ℝ, 0 ≤ s ∧ s ≤ 1 ∧ p = circlePoint center radius (start + s * span) := by
  obtain ⟨d⟩ := arc2D_data hr hq h
  have hnR : (0 : ℝ) < d.n := by exact_mod_cast d.n_pos
  have hc : clampSpan span = span := clampSpan_eq (by unfold tau; linarith [Real.pi_pos])
  intro p hp
  have hpts := d.pts_eq
  rw [hc] at hpts
  rw [hpts] at hp
  obtain ⟨i, hi, rfl⟩ := List.mem_map.mp hp
  rw [List.mem_range] at hi
  have hin : i ≤ d.n := by split_ifs at hi <;> omega
  have hiR : (i : ℝ) ≤ d.n := by exact_mod_cast hin
  refine ⟨i / d.n, by positivity, (div_le_one hnR).mpr hiR, ?_⟩
  congr 1
  ring

theorem sin89_pos : 0 < Real.sin (89 * Real.pi / 180) ∧ 89 * Real.pi / 180 < Real.pi / 2 ∧ 0 < 89 * Real.pi / 180 := by
  have := Real.pi_pos
  exact ⟨Real.sin_pos_of_pos_of_lt_pi (by linarith) (by linarith), by linarith, by linarith⟩

/-- The tangent angle of a transition. -/
theorem tangent_angle {P R F a : ℝ} (hR : 0 < R) (hF : 0 ≤ F) (hP : (R + F) * (1 - Real.sin (89 * Real.pi / 180)) ≤ P) {t : ℝ}
    (ht : t = min (max (max 0 a) (angle2D ⟨Real.sqrt (max 0 ((R + F) ^ 2 - (R - P + F) ^ 2)), R - P + F, 0⟩)) (89 * Real.pi / 180)) :
    0 ≤ t ∧ t < Real.pi / 2 ∧ R - P + F ≤ (R + F) * Real.sin t := by
  obtain ⟨s1, s2, s3⟩ := sin89_pos
  have hpi := Real.pi_pos
  have t0 : 0 ≤ t := by
    rw [ht]
    exact le_min (le_trans (le_max_left _ _) (le_max_left _ _)) s3.le
  have t1 : t ≤ 89 * Real.pi / 180 := by rw [ht]; exact min_le_right _ _
  have tpi : t < Real.pi / 2 := by linarith
  refine ⟨t0, tpi, ?_⟩
  have hsin : 0 ≤ Real.sin t := Real.sin_nonneg_of_nonneg_of_le_pi t0 (by linarith)
  have hRF : 0 < R + F := by linarith
  rcases le_or_gt (R - P + F) 0 with h0 | h0
  · exact h0.trans (by positivity)
  · by_cases h89 : t = 89 * Real.pi / 180
    · rw [h89]; linarith
    · set φ := angle2D ⟨Real.sqrt (max 0 ((R + F) ^ 2 - (R - P + F) ^ 2)), R - P + F, 0⟩ with hφ
      have hle : φ ≤ t := by
        rcases min_choice (max (max 0 a) φ) (89 * Real.pi / 180) with e | e
        · rw [ht, e]; exact le_max_right _ _
        · exact absurd (ht.trans e) h89
      have hP0 : 0 ≤ P := by
        have : Real.sin (89 * Real.pi / 180) ≤ 1 := Real.sin_le_one _
        nlinarith
      have hsq : 0 ≤ (R + F) ^ 2 - (R - P + F) ^ 2 := by nlinarith
      have hnorm : Real.sin φ = (R - P + F) / (R + F) := by
        rw [hφ]
        unfold angle2D
        rw [Complex.sin_arg]
        dsimp only
        congr 1
        rw [Complex.norm_def, Complex.normSq_mk, max_eq_right hsq, Real.mul_self_sqrt hsq]
        rw [show (R + F) ^ 2 - (R - P + F) ^ 2 + (R - P + F) * (R - P + F) = (R + F) ^ 2 by ring, Real.sqrt_sq hRF.le]
      have hφ0 : -(Real.pi / 2) ≤ φ := by
        have : 0 < Real.sin φ := by rw [hnorm]; positivity
        by_contra hcon
        push Not at hcon
        have h1 : -Real.pi < φ := Complex.neg_pi_lt_arg _
        have := Real.sin_nonpos_of_nonpos_of_neg_pi_le (x := φ) (by linarith) (by linarith)
        linarith
      have : Real.sin φ ≤ Real.sin t := Real.sin_le_sin_of_le_of_le_pi_div_two hφ0 (by linarith) hle
      rw [hnorm, div_le_iff₀ hRF] at this
      linarith

/-- C79. The outline between a wall and a boss is smooth: the fillet touches the wall, and the straight line between the
fillet and the boss touches both; nothing is inside the boss. -/
theorem C79_transition (q : Quality) (P R F a : ℝ) (fillet boss : List Vec) (hq : 0 < q.maxChordAngle)
    (hR : 1 / 1000000 ≤ R) (hF : F = 0 ∨ 1 / 1000000 ≤ F)
    (hP : (R + F) * (1 - Real.sin (89 * Real.pi / 180)) ≤ P)
    (h : transitionArcs q P R F a = .ok (fillet, boss)) : ∃ C, SmoothTransition P R F C fillet boss := by
  have hF0 : 0 ≤ F := by rcases hF with h | h <;> linarith
  have hR0 : 0 < R := by linarith
  have hpi := Real.pi_pos
  unfold transitionArcs at h
  dsimp only at h
  obtain ⟨t0, t1, tgap⟩ := tangent_angle (a := a) hR0 hF0 hP rfl
  generalize min (max (max 0 a) (angle2D ⟨Real.sqrt (max 0 ((R + F) ^ 2 - (R - P + F) ^ 2)), R - P + F, 0⟩)) (89 * Real.pi / 180) = t at *
  generalize Real.sqrt (max 0 ((R + F) ^ 2 - (R - P + F) ^ 2)) = X at *
  obtain ⟨fa, h1, ha⟩ := bind_ok h
  obtain ⟨ba, h2, hb⟩ := bind_ok ha
  obtain ⟨b0, h3, hc⟩ := bind_ok hb
  obtain ⟨f1, h4, hd⟩ := bind_ok hc
  obtain ⟨ratio, h5, he⟩ := bind_ok hd
  clear h ha hb hc hd
  obtain ⟨rfl, rfl⟩ := Prod.mk.inj (Except.ok.inj he)
  clear he
  obtain ⟨hcos, rfl⟩ := pyDiv_val h5
  clear h5
  have hct : 0 < Real.cos t := Real.cos_pos_of_mem_Ioo ⟨by linarith, t1⟩
  have hst : 0 ≤ Real.sin t := Real.sin_nonneg_of_nonneg_of_le_pi t0 (by linarith)
  have hsc := Real.sin_sq_add_cos_sq t
  have htau : tau / 4 = Real.pi / 2 := by unfold tau; ring
  have htau' : -tau / 4 = -(Real.pi / 2) := by unfold tau; ring
  rw [htau', htau] at h1
  rw [htau] at h2
  have habs : |Real.pi / 2 - t| ≤ Real.pi := by rw [abs_of_pos (by linarith)]; linarith
  have habs' : |Real.pi / 2 - t| < tau - 1 / 1000000 := by
    rw [abs_of_pos (by linarith)]; unfold tau; linarith [Real.pi_gt_three]
  -- the boss
  obtain ⟨eb0, eb1⟩ := C53_ends hR hq h2
  have eb1 := (eb1 habs').2
  have hbb := arc_between hR hq habs h2
  rw [pyIndex_zero, ← List.head?_eq_getElem?, eb0] at h3
  obtain rfl := Option.some.inj h3
  rw [show t + (Real.pi / 2 - t) = Real.pi / 2 by ring] at eb1
  -- the fillet
  have fill : fa.head? = some ⟨X, R - P, 0⟩ ∧ fa.getLast? = some ⟨X - F * Real.cos t, R - P + F - F * Real.sin t, 0⟩ ∧
      ∀ p ∈ fa, ∃ φ : ℝ, t ≤ φ ∧ φ ≤ Real.pi / 2 ∧ p = ⟨X - F * Real.cos φ, R - P + F - F * Real.sin φ, 0⟩ := by
    rcases hF with rfl | hF
    · have := (C53_succeeds q 0 (-(Real.pi / 2)) (-(Real.pi / 2 - t)) ⟨X, R - P + 0, 0⟩ hq
        (by
          obtain ⟨d⟩ := arc2D_data hR hq h2
          by_contra hcon
          push Not at hcon
          have hle := d.max_pos
          have h6 : 0 < Real.arccos (1 - q.maxChordHeight / R) * 2 := lt_of_lt_of_le hle (min_le_right _ _)
          rw [Real.arccos_of_one_le (by
            have : q.maxChordHeight / R ≤ 0 := div_nonpos_of_nonpos_of_nonneg hcon hR0.le
            linarith)] at h6
          simp at h6)).1 (by norm_num)
      rw [this] at h1
      obtain rfl := Except.ok.inj h1
      refine ⟨by simp, by simp, ?_⟩
      intro p hp
      refine ⟨t, le_refl _, t1.le, ?_⟩
      rw [List.mem_singleton] at hp
      rw [hp]; simp
    · obtain ⟨e0, e1⟩ := C53_ends hF hq h1
      have e1 := (e1 (by rw [abs_neg]; exact habs')).2
      have hb := arc_between hF hq (by rw [abs_neg]; exact habs) h1
      have key : ∀ φ : ℝ, circlePoint ⟨X, R - P + F, 0⟩ F (φ - Real.pi) = ⟨X - F * Real.cos φ, R - P + F - F * Real.sin φ, 0⟩ := by
        intro φ
        unfold circlePoint
        rw [Real.cos_sub_pi, Real.sin_sub_pi]
        ext <;> simp <;> ring
      refine ⟨?_, ?_, ?_⟩
      · rw [e0, show -(Real.pi / 2) = Real.pi / 2 - Real.pi by ring, key]
        simp
      · rw [e1, show -(Real.pi / 2) + -(Real.pi / 2 - t) = t - Real.pi by ring, key]
      · intro p hp
        obtain ⟨s, s0, s1, rfl⟩ := hb p hp
        refine ⟨Real.pi / 2 - s * (Real.pi / 2 - t), by nlinarith, by nlinarith, ?_⟩
        rw [← key]
        congr 1
        ring
  clear h1 h2
  obtain ⟨ff0, ff1, ffp⟩ := fill
  rw [pyIndex_last, ff1] at h4
  obtain rfl := Option.some.inj h4
  clear h3 h4
  -- the gap
  have eb : circlePoint 0 R t = ⟨R * Real.cos t, R * Real.sin t, 0⟩ := by
    unfold circlePoint; ext <;> simp
  rw [eb] at eb0
  simp only [eb] at *
  set g := (R * Real.sin t - (R - P + F - F * Real.sin t)) / Real.cos t with hg
  have hg0 : 0 ≤ g := div_nonneg (by linarith) hct.le
  have hgc : g * Real.cos t = R * Real.sin t - (R - P + F - F * Real.sin t) := by rw [hg]; field_simp
  set dx := g * Real.sin t - (X - F * Real.cos t - R * Real.cos t) with hdx
  -- the fillet's center
  have hcx : X + dx = (R + F) * Real.cos t + g * Real.sin t := by rw [hdx]; ring
  have hcy : R - P + F = (R + F) * Real.sin t - g * Real.cos t := by linarith
  have etr : ∀ p : Vec, p ∈ edgeTranslated fa ⟨dx, 0, 0⟩ → ∃ φ : ℝ, t ≤ φ ∧ φ ≤ Real.pi / 2 ∧
      p = ⟨X + dx - F * Real.cos φ, R - P + F - F * Real.sin φ, 0⟩ := by
    intro p hp
    obtain ⟨p', hp', rfl⟩ := List.mem_map.mp hp
    obtain ⟨φ, a1, a2, rfl⟩ := ffp p' hp'
    refine ⟨φ, a1, a2, ?_⟩
    ext <;> simp only [Vec.add_x, Vec.add_y, Vec.add_z] <;> ring
  refine ⟨⟨X + dx, R - P + F, 0⟩, rfl, ?_, ?_, ?_, ?_, ?_, ?_, ?_⟩
  · unfold edgeTranslated
    rw [List.head?_map, ff0]
    simp only [Option.map_some, Option.some.injEq]
    ext <;> simp only [Vec.add_x, Vec.add_y, Vec.add_z] <;> ring
  · rw [eb1]
    unfold circlePoint
    rw [Real.cos_pi_div_two, Real.sin_pi_div_two]
    simp
  · intro p hp
    obtain ⟨φ, -, -, rfl⟩ := etr p hp
    simp only [distSq2D]
    linear_combination F ^ 2 * Real.sin_sq_add_cos_sq φ
  · intro p hp
    obtain ⟨s, -, -, rfl⟩ := hbb p hp
    simp only [distSq2D, circlePoint, Vec.zero_x, Vec.zero_y]
    linear_combination R ^ 2 * Real.sin_sq_add_cos_sq (t + s * (Real.pi / 2 - t))
  · refine ⟨⟨X + dx - F * Real.cos t, R - P + F - F * Real.sin t, 0⟩, ⟨R * Real.cos t, R * Real.sin t, 0⟩, ?_, eb0, ?_, ?_, ?_, ?_⟩
    · unfold edgeTranslated
      rw [List.getLast?_map, ff1]
      simp only [Option.map_some, Option.some.injEq]
      ext <;> simp only [Vec.add_x, Vec.add_y, Vec.add_z] <;> ring
    · simp only [Vec.dot, Vec.sub_x, Vec.sub_y, Vec.sub_z]
      rw [hcx]
      linear_combination (-R * Real.sin t) * hcy
    · simp only [Vec.dot, Vec.sub_x, Vec.sub_y, Vec.sub_z]
      rw [hcx]
      linear_combination (F * Real.sin t) * hcy
    · dsimp only; nlinarith
    · dsimp only; rw [hcx]; nlinarith
  · intro p hp
    obtain ⟨φ, p1, p2, rfl⟩ := etr p hp
    simp only [distSq2D, Vec.zero_x, Vec.zero_y]
    rw [hcx, hcy]
    have e : ((R + F) * Real.cos t + g * Real.sin t - F * Real.cos φ - 0) ^ 2 +
        ((R + F) * Real.sin t - g * Real.cos t - F * Real.sin φ - 0) ^ 2 =
        (R + F) ^ 2 + g ^ 2 + F ^ 2 - 2 * F * ((R + F) * (Real.cos φ * Real.cos t + Real.sin φ * Real.sin t) -
          g * (Real.sin φ * Real.cos t - Real.cos φ * Real.sin t)) := by
      linear_combination ((R + F) ^ 2 + g ^ 2) * hsc + F ^ 2 * Real.sin_sq_add_cos_sq φ
    have e' : (0 - ((R + F) * Real.cos t + g * Real.sin t - F * Real.cos φ)) ^ 2 +
        (0 - ((R + F) * Real.sin t - g * Real.cos t - F * Real.sin φ)) ^ 2 =
        ((R + F) * Real.cos t + g * Real.sin t - F * Real.cos φ - 0) ^ 2 +
        ((R + F) * Real.sin t - g * Real.cos t - F * Real.sin φ - 0) ^ 2 := by ring
    first
      | rw [e']
      | skip
    rw [e, ← Real.cos_sub, ← Real.sin_sub]
    have c1 := Real.cos_le_one (φ - t)
    have s1 : 0 ≤ Real.sin (φ - t) := Real.sin_nonneg_of_nonneg_of_le_pi (by linarith) (by linarith)
    have k1 : 0 ≤ F * (R + F) * (1 - Real.cos (φ - t)) := by
      have : 0 ≤ 1 - Real.cos (φ - t) := by linarith
      positivity
    have k2 : 0 ≤ F * g * Real.sin (φ - t) := by positivity
    nlinarith [sq_nonneg g]
  · intro p hp
    rcases List.mem_append.mp hp with hp | hp
    · obtain ⟨φ, p1, p2, rfl⟩ := etr p hp
      have c1 : Real.cos φ ≤ Real.cos t := Real.cos_le_cos_of_nonneg_of_le_pi t0 (by linarith) p1
      have s1 : Real.sin t ≤ Real.sin φ := Real.sin_le_sin_of_le_of_le_pi_div_two (by linarith) p2 p1
      have s2 := Real.sin_le_one φ
      have s3 := Real.sin_le_one t
      refine ⟨?_, ?_, ?_, rfl⟩
      · dsimp only
        rw [hcx]
        have : 0 ≤ g * Real.sin t := by positivity
        have : F * Real.cos φ ≤ F * Real.cos t := mul_le_mul_of_nonneg_left c1 hF0
        have : 0 ≤ R * Real.cos t := by positivity
        linarith
      · dsimp only
        have : F * Real.sin φ ≤ F := mul_le_of_le_one_right hF0 s2
        linarith
      · dsimp only
        have h1 : F * Real.sin t ≤ F * Real.sin φ := mul_le_mul_of_nonneg_left s1 hF0
        have h2 : R * Real.sin t ≤ R := mul_le_of_le_one_right hR0.le s3
        linarith
    · obtain ⟨s, p1, p2, rfl⟩ := hbb p hp
      have w0 : 0 ≤ Real.pi / 2 - t := by linarith
      have w1 : t ≤ t + s * (Real.pi / 2 - t) := le_add_of_nonneg_right (mul_nonneg p1 w0)
      have w2 : t + s * (Real.pi / 2 - t) ≤ Real.pi / 2 := by
        have := mul_le_of_le_one_left w0 p2
        linarith
      generalize t + s * (Real.pi / 2 - t) = φ at w1 w2 ⊢
      have s1 : Real.sin t ≤ Real.sin φ := Real.sin_le_sin_of_le_of_le_pi_div_two (by linarith) w2 w1
      have c1 : 0 ≤ Real.cos φ := Real.cos_nonneg_of_mem_Icc ⟨by linarith, w2⟩
      have s2 := Real.sin_le_one φ
      have s3 := Real.sin_le_one t
      refine ⟨?_, ?_, ?_, rfl⟩
      · simp only [circlePoint, Vec.zero_x]; positivity
      · simp only [circlePoint, Vec.zero_y]
        have h1 : R * Real.sin t ≤ R * Real.sin φ := mul_le_mul_of_nonneg_left s1 hR0.le
        have h2 : F * Real.sin t ≤ F := mul_le_of_le_one_right hF0 s3
        linarith
      · simp only [circlePoint, Vec.zero_y]
        have h2 : R * Real.sin φ ≤ R := mul_le_of_le_one_right hR0.le s2
        linarith

/-- A point of the wall edge is the image of a point of a transition. -/
theorem bossWall_points {q : Quality} {thick : ℝ} {cfg : BossCfg} {support : Option SupportCfg} {pos d : Vec} {edge : List Vec}
    (hq : 0 < q.maxChordAngle) (hR : 1 / 1000000 ≤ cfg.diameter / 2)
    (hF : cfg.innerWallFillet = 0 ∨ 1 / 1000000 ≤ cfg.innerWallFillet)
    (hP : (cfg.diameter / 2 + cfg.innerWallFillet) * (1 - Real.sin (89 * Real.pi / 180)) ≤ cfg.diameter + cfg.outerWallMargin - thick)
    (h : bossWall q thick cfg support pos (some d) = .ok edge) :
    ∀ p ∈ edge, ∃ s t : ℝ, p = ⟨pos.x + s * Real.cos (angle2D d) - t * Real.sin (angle2D d),
        pos.y + s * Real.sin (angle2D d) + t * Real.cos (angle2D d), pos.z⟩ ∧
      thick - cfg.diameter / 2 - cfg.outerWallMargin ≤ t ∧ t ≤ cfg.diameter / 2 ∧ (cfg.diameter / 2) ^ 2 ≤ s ^ 2 + t ^ 2 := by
  have key : ∀ (a : ℝ) (e : List Vec), smoothTransition q (cfg.diameter / 2 * 2 + cfg.outerWallMargin - thick) (cfg.diameter / 2)
      cfg.innerWallFillet a = .ok e → ∀ p ∈ e, p.z = 0 ∧ thick - cfg.diameter / 2 - cfg.outerWallMargin ≤ p.y ∧
        p.y ≤ cfg.diameter / 2 ∧ (cfg.diameter / 2) ^ 2 ≤ p.x ^ 2 + p.y ^ 2 := by
    intro a e he
    unfold smoothTransition at he
    obtain ⟨⟨fil, bo⟩, h1, h2⟩ := bind_ok he
    obtain rfl := Except.ok.inj h2
    obtain ⟨C, hC⟩ := C79_transition q _ _ _ _ fil bo hq hR hF (by linarith) h1
    intro p hp
    have hp' := (C35_subsequence _ _).1.subset hp
    obtain ⟨-, b1, b2, b3⟩ := hC.bounds p hp'
    refine ⟨b3, by linarith, b2, ?_⟩
    rcases List.mem_append.mp hp' with h3 | h3
    · have := hC.outside p h3
      simpa [distSq2D] using this
    · have := hC.on_boss p h3
      simp only [distSq2D, Vec.zero_x, Vec.zero_y] at this
      linarith
  unfold bossWall at h
  dsimp only at h
  split_ifs at h with hc
  · obtain rfl := Except.ok.inj h
    simp
  · obtain ⟨right, h1, ha⟩ := bind_ok h
    obtain ⟨left, h2, hb⟩ := bind_ok ha
    obtain rfl := Except.ok.inj hb
    intro p hp
    obtain ⟨v, hv, rfl⟩ := List.mem_map.mp hp
    have hv' := (C35_subsequence _ _).1.subset hv
    have hw : v.z = 0 ∧ thick - cfg.diameter / 2 - cfg.outerWallMargin ≤ v.y ∧
        v.y ≤ cfg.diameter / 2 ∧ (cfg.diameter / 2) ^ 2 ≤ v.x ^ 2 + v.y ^ 2 := by
      rcases List.mem_append.mp hv' with h3 | h3
      · exact key _ _ h1 v h3
      · obtain ⟨w, hw, rfl⟩ := List.mem_map.mp (List.mem_reverse.mp h3)
        have := key _ _ h2 w hw
        simpa [Vec.mirroredX] using this
    obtain ⟨z0, w1, w2, w3⟩ := hw
    refine ⟨v.x, v.y, ?_, w1, w2, w3⟩
    unfold Mat.translated Mat.rotatedZ Mat.rotateBy
    dsimp only
    rw [one_mul_mat]
    ext <;> simp [Vec.transformed, Mat.mul_def, z0] <;> ring

/-- C79. A boss is joined to its wall by an edge that keeps off the boss: its points are between the inner side of the
wall and the boss's far side, and none is inside the boss. -/
theorem C79_wall (q : Quality) (thick : ℝ) (cfg : BossCfg) (support : Option SupportCfg) (pos d : Vec) (edge : List Vec)
    (hq : 0 < q.maxChordAngle) (hd : d.x ^ 2 + d.y ^ 2 = 1) (hR : 1 / 1000000 ≤ cfg.diameter / 2)
    (hF : cfg.innerWallFillet = 0 ∨ 1 / 1000000 ≤ cfg.innerWallFillet)
    (hP : (cfg.diameter / 2 + cfg.innerWallFillet) * (1 - Real.sin (89 * Real.pi / 180)) ≤ cfg.diameter + cfg.outerWallMargin - thick)
    (h : bossWall q thick cfg support pos (some d) = .ok edge) : ∀ p ∈ edge,
      p.z = pos.z ∧ (cfg.diameter / 2) ^ 2 ≤ distSq2D pos p ∧
      left pos (pos + d) p ≤ cfg.diameter / 2 ∧
      thick - (cfg.diameter / 2 + cfg.outerWallMargin) ≤ left pos (pos + d) p := by
  obtain ⟨hc, hs⟩ := angle2D_unit hd
  intro p hp
  obtain ⟨s, t, rfl, h1, h2, h3⟩ := bossWall_points hq hR hF hP h p hp
  rw [hc, hs]
  refine ⟨rfl, ?_, ?_, ?_⟩
  · refine h3.trans (le_of_eq ?_)
    simp only [distSq2D]
    linear_combination (-(s ^ 2 + t ^ 2)) * hd
  · refine le_trans (le_of_eq ?_) h2
    simp only [left, Vec.add_x, Vec.add_y]
    linear_combination t * hd
  · refine le_trans (by linarith : _ ≤ t) (le_of_eq ?_)
    simp only [left, Vec.add_x, Vec.add_y]
    linear_combination (-t) * hd

/-- C79. A boss that stands out of its wall by less than a tenth of the wall's thickness gets no bump; any other gets two
smooth transitions, one to either side, seen from the wall's direction. -/
theorem C79_shape (q : Quality) (thick : ℝ) (cfg : BossCfg) (support : Option SupportCfg) (pos d : Vec) (edge : List Vec)
    (hq : 0 < q.maxChordAngle) (hd : d.x ^ 2 + d.y ^ 2 = 1) (hR : 1 / 1000000 ≤ cfg.diameter / 2)
    (hF : cfg.innerWallFillet = 0 ∨ 1 / 1000000 ≤ cfg.innerWallFillet)
    (hP : (cfg.diameter / 2 + cfg.innerWallFillet) * (1 - Real.sin (89 * Real.pi / 180)) ≤ cfg.diameter + cfg.outerWallMargin - thick)
    (h : bossWall q thick cfg support pos (some d) = .ok edge) :
    (cfg.diameter + cfg.outerWallMargin - thick < thick / 10 → edge = []) ∧
    (thick / 10 ≤ cfg.diameter + cfg.outerWallMargin - thick → ∃ CR fR bR CL fL bL,
      SmoothTransition (cfg.diameter + cfg.outerWallMargin - thick) (cfg.diameter / 2) cfg.innerWallFillet CR fR bR ∧
      SmoothTransition (cfg.diameter + cfg.outerWallMargin - thick) (cfg.diameter / 2) cfg.innerWallFillet CL fL bL ∧
      edge = (collapsed (collapsed (fR ++ bR) (1 / 1000) ++
          ((collapsed (fL ++ bL) (1 / 1000)).map fun v => ⟨-v.x, v.y, v.z⟩).reverse) (1 / 1000)).map fun v =>
        ⟨pos.x + v.x * d.x - v.y * d.y, pos.y + v.x * d.y + v.y * d.x, pos.z + v.z⟩) := by
  obtain ⟨hc, hs⟩ := angle2D_unit hd
  have e2 : cfg.diameter / 2 * 2 + cfg.outerWallMargin - thick = cfg.diameter + cfg.outerWallMargin - thick := by ring
  unfold bossWall at h
  dsimp only at h
  rw [e2] at h
  split_ifs at h with hc1
  · obtain rfl := Except.ok.inj h
    exact ⟨fun _ => rfl, fun hh => absurd hc1 (not_lt.mpr hh)⟩
  · refine ⟨fun hh => absurd hh hc1, fun _ => ?_⟩
    obtain ⟨right, h1, ha⟩ := bind_ok h
    obtain ⟨lft, h2, hb⟩ := bind_ok ha
    obtain rfl := Except.ok.inj hb
    unfold smoothTransition at h1 h2
    obtain ⟨⟨fR, bR⟩, r1, r2⟩ := bind_ok h1
    obtain ⟨⟨fL, bL⟩, l1, l2⟩ := bind_ok h2
    obtain rfl := Except.ok.inj r2
    obtain rfl := Except.ok.inj l2
    obtain ⟨CR, hCR⟩ := C79_transition q _ _ _ _ fR bR hq hR hF hP r1
    obtain ⟨CL, hCL⟩ := C79_transition q _ _ _ _ fL bL hq hR hF hP l1
    refine ⟨CR, fR, bR, CL, fL, bL, hCR, hCL, ?_⟩
    refine List.map_congr_left fun v _ => ?_
    unfold Mat.translated Mat.rotatedZ Mat.rotateBy
    dsimp only
    rw [one_mul_mat]
    ext <;> simp [Vec.transformed, Mat.mul_def, hc, hs] <;> ring

end Chrumm.Part
