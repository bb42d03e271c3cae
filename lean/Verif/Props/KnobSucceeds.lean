import Verif.Props.KnobShape
import Verif.Props.Chamfer
import Verif.Props.HexGrid

/-! Which knobs can be generated (C97). -/

namespace Chrumm.Part
open Geo Geo.Spec Spec

theorem value_bind {α β : Type} (x : α) (f : α → Py β) : ((Except.ok x : Py α) >>= f) = f x := rfl

theorem circles_two {P r1 r2 : ℝ} (hP : 1e-6 ≤ P) (h1 : P ≤ r1 + r2) (h2 : |r1 - r2| ≤ P)
    (h : 1e-12 * (4 * P ^ 2) ≤ ((r1 + r2) ^ 2 - P ^ 2) * (P ^ 2 - (r1 - r2) ^ 2)) :
    ∃ xs c, (Circle.mk 0 r1).intersectCircle2D ⟨⟨0, P, 0⟩, r2⟩ = .ok xs ∧ pyIndex xs 1 = .ok c := by
  have hm : ((⟨0, P, 0⟩ : Vec).xy - (0 : Vec).xy).magnitude2D = P := by
    simp only [Vec.magnitude2D, Vec.xy, Vec.sub_x, Vec.sub_y, Vec.zero_x, Vec.zero_y, sub_zero]
    rw [mul_zero, zero_add, Real.sqrt_mul_self (le_trans (by norm_num) hP)]
  have hP0 : 0 < P := lt_of_lt_of_le (by norm_num) hP
  unfold Circle.intersectCircle2D
  dsimp only
  rw [hm, if_neg]
  swap
  · rintro (h0 | h0 | h0)
    · rw [isZero_iff, abs_of_pos hP0] at h0
      linarith
    · linarith
    · linarith
  have hne : ((⟨0, P, 0⟩ : Vec).xy - (0 : Vec).xy) ≠ 0 := by
    intro h0
    have := congrArg Vec.y h0
    simp [Vec.xy] at this
    exact hP0.ne' this
  obtain ⟨d, hd⟩ : ∃ d, ((⟨0, P, 0⟩ : Vec).xy - (0 : Vec).xy).normalized = .ok d := by
    unfold Vec.normalized Vec.div
    rw [if_neg (magnitude_ne_zero hne)]
    exact ⟨_, rfl⟩
  rw [hd]
  have hk : pyDiv (r1 ^ 2 - r2 ^ 2 + P ^ 2) (2 * P) = .ok ((r1 ^ 2 - r2 ^ 2 + P ^ 2) / (2 * P)) := by
    unfold pyDiv; rw [if_neg (by positivity)]
  change ∃ xs c, (pyDiv _ _ >>= _) = _ ∧ _
  rw [hk]
  have e : r1 ^ 2 - ((r1 ^ 2 - r2 ^ 2 + P ^ 2) / (2 * P)) ^ 2 = ((r1 + r2) ^ 2 - P ^ 2) * (P ^ 2 - (r1 - r2) ^ 2) / (4 * P ^ 2) := by
    field_simp; ring
  have g : 1e-12 ≤ r1 ^ 2 - ((r1 ^ 2 - r2 ^ 2 + P ^ 2) / (2 * P)) ^ 2 := by
    rw [e, le_div_iff₀ (by positivity)]; exact h
  change ∃ xs c, (pySqrt _ >>= _) = _ ∧ _
  unfold pySqrt
  rw [if_neg (by norm_num at g ⊢; linarith)]
  rw [value_bind]
  rw [if_neg]
  · exact ⟨_, _, rfl, rfl⟩
  · rw [isZero_iff, abs_of_nonneg (Real.sqrt_nonneg _), not_lt]
    apply Real.le_sqrt_of_sq_le
    norm_num at g ⊢
    exact g

theorem arc_exists {q : Quality} {radius start span : ℝ} {center : Vec} (hq : 0 < q.maxChordAngle)
    (hh : 0 < q.maxChordHeight) (h1 : 1 / 1000000 ≤ radius) (h2 : q.maxChordHeight ≤ 2 * radius) (h3 : span ≠ 0) :
    ∃ pts, arc2D q radius start span center = .ok pts :=
  ((C53_succeeds q radius start span center hq hh).2.1 h1).mpr ⟨h2, h3⟩

theorem grooves_room {R rg c i : ℝ} (o1 : 1 ≤ R) (o2 : 1 / 1000 ≤ rg) (o3 : 1 / 1000 ≤ c) (o4 : 1 / 1000 ≤ i)
    (ht : R ^ 2 + rg ^ 2 < (R + rg - i) ^ 2) (hm : 2 * c + i ≤ R) :
    i < rg ∧ R < R + rg - i ∧
    1e-12 * (4 * (R + rg - i) ^ 2) ≤ ((R - c + (rg + c)) ^ 2 - (R + rg - i) ^ 2) * ((R + rg - i) ^ 2 - (R - c - (rg + c)) ^ 2) := by
  have hi : i < rg := by
    by_contra hh
    rw [not_lt] at hh
    have h1 : 0 ≤ R + rg - i := by linarith
    have : (R + rg - i) ^ 2 ≤ R ^ 2 := pow_le_pow_left₀ h1 (by linarith) 2
    nlinarith
  refine ⟨hi, by linarith, ?_⟩
  have e1 : (R - c + (rg + c)) ^ 2 - (R + rg - i) ^ 2 = i * (2 * (R + rg) - i) := by ring
  have e2 : (R + rg - i) ^ 2 - (R - c - (rg + c)) ^ 2 = (2 * rg + 2 * c - i) * (2 * R - 2 * c - i) := by ring
  rw [e1, e2]
  have hP : 0 < R + rg := by linarith
  have k1 : 1 / 1000 * (R + rg) ≤ i * (2 * (R + rg) - i) := mul_le_mul o4 (by linarith) hP.le (by linarith)
  have k2 : rg * R ≤ (2 * rg + 2 * c - i) * (2 * R - 2 * c - i) := mul_le_mul (by linarith) (by linarith) (by linarith) (by linarith)
  have k3 := mul_le_mul k1 k2 (by positivity) (le_trans (by positivity) k1)
  refine le_trans ?_ k3
  have k4 : (R + rg - i) ^ 2 ≤ (R + rg) ^ 2 := pow_le_pow_left₀ (by linarith) (by linarith) 2
  have k5 : 1 / 1000 * (R + rg) ≤ 2 * (rg * R) := by nlinarith
  have k6 : 1e-12 * 4 * (R + rg) ^ 2 ≤ 1 / 1000 * (R + rg) * (rg * R) := by
    norm_num
    nlinarith
  norm_num at k6 ⊢
  linarith

theorem segment_succeeds {q : Quality} {cfg : KnobCfg} (ho : SaneOutside cfg) (hg : GroovesFit cfg) (hf : FineOutside q cfg)
    (hn : 0 < cfg.grooveCount) : ∃ pts, grooveSegment q cfg = .ok pts := by
  obtain ⟨o1, -, -, o4, o5, o6, o7, -⟩ := ho
  obtain ⟨-, g2, g3, g4⟩ := hg
  obtain ⟨f1, f2, f3, f4, -⟩ := hf
  unfold grooveSegment
  dsimp only
  unfold KnobCfg.pitch at g2 g4
  have f3 : q.maxChordHeight ≤ 2 * (cfg.grooveDiameter / 2) := by linarith
  have o6 : cfg.grooveCornerRadius ≤ cfg.outerDiameter / 2 / 2 := by linarith
  generalize cfg.outerDiameter / 2 = R at *
  generalize cfg.grooveDiameter / 2 = rg at *
  generalize cfg.grooveCornerRadius = c at *
  generalize cfg.grooveInset = i at *
  obtain ⟨m1, m2, m3⟩ := grooves_room o1 o4 o5 o7 g2 g3
  obtain ⟨xs, cc, hx, hc⟩ := circles_two (P := R + rg - i) (r1 := R - c) (r2 := rg + c) (by norm_num; linarith) (by linarith)
    (by rw [abs_le]; constructor <;> linarith) m3
  have hN : (0 : ℝ) < cfg.grooveCount := by exact_mod_cast hn
  have hd : pyDiv tau (cfg.grooveCount : ℝ) = .ok (tau / cfg.grooveCount) := by
    unfold pyDiv; rw [if_neg hN.ne']
  obtain ⟨c1, c2, c3, c4⟩ := groove_corner (by linarith) hx hc
  have hcx : 0 < cc.x := lt_of_lt_of_le (by norm_num) c1
  obtain ⟨x, y, z⟩ := cc
  dsimp only at c2 c3 c4 hcx
  subst c2
  have e1 : (⟨0, R + rg - i, 0⟩ - ⟨x, y, 0⟩ : Vec) = ⟨-x, R + rg - i - y, 0⟩ := by ext <;> simp
  have e2 : (⟨x, y, 0⟩ - ⟨0, R + rg - i, 0⟩ : Vec) = ⟨x, y - (R + rg - i), 0⟩ := by ext <;> simp
  have hA : |angle2D ⟨x, y, 0⟩| < Real.pi / 2 := Complex.abs_arg_lt_pi_div_two_iff.mpr (.inl hcx)
  have hB : |angle2D ⟨x, y - (R + rg - i), 0⟩| < Real.pi / 2 := Complex.abs_arg_lt_pi_div_two_iff.mpr (.inl hcx)
  rw [abs_lt] at hA hB
  have s1 : -(tau / 4 - tau / cfg.grooveCount / 2 - angle2D ⟨x, y, 0⟩) ≠ 0 := by
    intro h0
    have ea : angle2D ⟨x, y, 0⟩ = Real.pi / 2 - Real.pi / cfg.grooveCount := by
      unfold tau at h0
      linear_combination h0
    have := (arg_cos_sin (x := x) (y := y) (r := R - c) (by linarith) c3).2
    rw [ea, Real.sin_pi_div_two_sub] at this
    have e4 : 2 * (R + rg - i) * (R - c) * Real.cos (Real.pi / cfg.grooveCount) = 2 * (R + rg - i) * y := by
      rw [← this]; ring
    rw [e4] at g4
    linarith
  have s2 : angle2D ⟨-x, R + rg - i - y, 0⟩ - angle2D ⟨x, y, 0⟩ ≠ 0 := by
    have hy : y < R + rg - i := by
      have : |y| ≤ R - c := abs_le_of_sq_le_sq (by linarith [sq_nonneg x]) (by linarith)
      linarith [le_abs_self y]
    exact (knob_turn (by linarith) (show 0 < R - c by linarith) (show 0 < rg + c by linarith) hcx hy c3 c4).1.ne'
  have s3 : -(tau / 4 + angle2D ⟨x, y - (R + rg - i), 0⟩) ≠ 0 := by
    unfold tau
    intro h0
    linarith
  obtain ⟨a1, h1⟩ := arc_exists (start := tau / 4 - tau / cfg.grooveCount / 2) (center := 0) f2 f1 (show 1 / 1000000 ≤ R by linarith) (by linarith) s1
  obtain ⟨a2, h2⟩ := arc_exists (start := angle2D ⟨x, y, 0⟩) (center := ⟨x, y, 0⟩) f2 f1 (show 1 / 1000000 ≤ c by linarith) (by linarith) s2
  obtain ⟨a3, h3⟩ := arc_exists (start := angle2D ⟨x, y - (R + rg - i), 0⟩) (center := ⟨0, R + rg - i, 0⟩) f2 f1 (show 1 / 1000000 ≤ rg by linarith) (by linarith) s3
  rw [← e1] at h2
  rw [← e2] at h3
  exact ⟨_, bind_ok_of hx (bind_ok_of hc (bind_ok_of hd (bind_ok_of h1 (bind_ok_of h2 (bind_ok_of h3 rfl)))))⟩

theorem outline_succeeds {q : Quality} {cfg : KnobCfg} (ho : SaneOutside cfg) (hg : 0 < cfg.grooveCount → GroovesFit cfg)
    (hf : FineOutside q cfg) : ∃ pts, grooveSketch q cfg = .ok pts := by
  unfold grooveSketch
  dsimp only
  have o1 := ho.outer
  by_cases hn : cfg.grooveCount ≤ 0
  · rw [if_pos hn]
    refine arc_exists hf.angle hf.height (by linarith) ?_ (by unfold tau; positivity)
    linarith [hf.corner, ho.corner_le]
  rw [if_neg hn]
  rw [not_le] at hn
  have hg := hg hn
  obtain ⟨pts, hp⟩ := segment_succeeds ho hg hf hn
  have hN : (0 : ℝ) < cfg.grooveCount := by exact_mod_cast hn
  have hd : pyDiv tau (cfg.grooveCount : ℝ) = .ok (tau / cfg.grooveCount) := by
    unfold pyDiv; rw [if_neg hN.ne']
  have hsq : pySqrt ((cfg.outerDiameter / 2) ^ 2 + (cfg.grooveDiameter / 2) ^ 2) = .ok (Real.sqrt ((cfg.outerDiameter / 2) ^ 2 + (cfg.grooveDiameter / 2) ^ 2)) := by
    unfold pySqrt; rw [if_neg (by rw [not_lt]; positivity)]
  rw [hsq]
  rw [value_bind]
  rw [if_neg, if_neg (not_le.mpr hg.inset_lt)]
  · exact ⟨_, bind_ok_of hp (bind_ok_of hd rfl)⟩
  · rw [ge_iff_le, not_le]
    have ht := hg.tangent
    have hr := hg.room
    unfold KnobCfg.pitch at ht
    have : Real.sqrt ((cfg.outerDiameter / 2) ^ 2 + (cfg.grooveDiameter / 2) ^ 2) < cfg.outerDiameter / 2 + cfg.grooveDiameter / 2 - cfg.grooveInset :=
      (Real.sqrt_lt' (by linarith [ho.groove, ho.corner])).mpr ht
    linarith

theorem shaft_succeeds {q : Quality} {cfg : KnobCfg} (hs : SaneShaft cfg) (hf : FineShaft q cfg)
    (h0 : 0 ≤ KnobCfg.flatY cfg) : ∃ pts, shaftSketch q cfg = .ok pts := by
  unfold shaftSketch
  dsimp only
  have o1 := hs.shaft
  have o2 := hs.flat
  have o3 := hs.prong
  have o4 := hs.prong_le
  have f1 := hf.height
  have f2 := hf.angle
  have f3 : q.maxChordHeight ≤ cfg.prongDiameter / 2 / 15 := by linarith [hf.hinge]
  have f4 := hf.notch
  rw [abs_of_nonneg h0] at o2
  unfold KnobCfg.flatY at *
  clear hs hf
  generalize cfg.shaftAcrossFlat - cfg.shaftDiameter / 2 = fy at *
  generalize cfg.shaftDiameter / 2 = r at *
  generalize cfg.prongDiameter / 2 = pr at *
  obtain ⟨s1, s2, s3⟩ := sin_fifteen
  have hsc := Real.sin_sq_add_cos_sq (15 * Real.pi / 180)
  have e15 : 15 * Real.pi / 180 = Real.pi / 12 := by ring
  have hr : 0 < r := by linarith
  have hn0 : 0 ≤ r ^ 2 - fy ^ 2 := le_trans (sq_nonneg _) o4
  obtain ⟨fx, hfx, efx, hfx0⟩ : ∃ fx, pySqrt (r ^ 2 - fy ^ 2) = .ok fx ∧ fx ^ 2 = r ^ 2 - fy ^ 2 ∧ 0 ≤ fx := by
    unfold pySqrt
    rw [if_neg (not_lt.mpr hn0)]
    exact ⟨_, rfl, Real.sq_sqrt hn0, Real.sqrt_nonneg _⟩
  rw [hfx, value_bind]
  have hpx : pr + 1 / 1000 ≤ fx := by
    rw [← efx] at o4
    exact le_trans (le_abs_self _) (abs_le_of_sq_le_sq o4 hfx0)
  have hpn : 3 / 2 * q.maxChordHeight + pr ≤ fx := by
    rw [← efx] at f4
    exact le_trans (le_abs_self _) (abs_le_of_sq_le_sq f4 hfx0)
  clear hfx
  have hfx : 0 < fx := by linarith
  have hfr : fx ^ 2 + fy ^ 2 = r ^ 2 := by linarith
  have hno0 : 0 ≤ (pr + (fx * (1 / 3) - pr * (1 - 2 / 3))) ^ 2 - (fx * (1 / 3)) ^ 2 := by
    rw [sub_nonneg]
    exact pow_le_pow_left₀ (by linarith) (by linarith) 2
  obtain ⟨no, hno, hnn⟩ : ∃ no, pySqrt ((pr + (fx * (1 / 3) - pr * (1 - 2 / 3))) ^ 2 - (fx * (1 / 3)) ^ 2) = .ok no ∧ 0 ≤ no := by
    unfold pySqrt
    rw [if_neg (not_lt.mpr hno0)]
    exact ⟨_, rfl, Real.sqrt_nonneg _⟩
  rw [hno, value_bind]
  clear hno
  have ne_y : ∀ {v : Vec}, v.y ≠ 0 → v ≠ 0 := by
    rintro v h rfl; exact h rfl
  have ne_x : ∀ {v : Vec}, v.x ≠ 0 → v ≠ 0 := by
    rintro v h rfl; exact h rfl
  obtain ⟨du, hd, d2⟩ := line_succeeds 0 (d := ⟨fx, fy, 0⟩) (ne_x hfx.ne')
  have edu : du = ⟨fx / r, fy / r, 0⟩ := by
    refine d2.unique ⟨?_, r, hr, by ext <;> simp <;> field_simp⟩
    simp only [Vec.dot]
    field_simp
    linarith
  subst edu
  rw [hd, value_bind]
  clear hd d2
  have huu : (fx / r) ^ 2 + (fy / r) ^ 2 = 1 := by
    field_simp; linarith
  have hux : 0 < fx / r := by positivity
  have huy : 0 ≤ fy / r := by positivity
  have huw : fy / r ≤ Real.cos (15 * Real.pi / 180) := by
    rw [div_le_iff₀ hr]; linarith
  have hfxu : fx = r * (fx / r) := by field_simp
  have hfyu : fy = r * (fy / r) := by field_simp
  generalize fx / r = ux at *
  generalize fy / r = uy at *
  generalize hwx : Real.cos (15 * Real.pi / 180) = wx at *
  generalize hwy : Real.sin (15 * Real.pi / 180) = wy at *
  have hux4 : 1 / 4 ≤ ux := by
    by_contra hh
    rw [not_le] at hh
    have k1 : ux ^ 2 < (1 / 4) ^ 2 := pow_lt_pow_left₀ hh hux.le two_ne_zero
    have k2 : uy ^ 2 ≤ wx ^ 2 := pow_le_pow_left₀ huy huw 2
    have k3 : (1 / 4) ^ 2 ≤ wy ^ 2 := pow_le_pow_left₀ (by norm_num) s1 2
    linarith
  obtain ⟨tu, ht, t2⟩ := line_succeeds ⟨fx, fy, 0⟩ (d := (⟨ux, uy, 0⟩ : Vec).ortho2D) (ne_y hux.ne')
  have etu : tu = ⟨-uy, ux, 0⟩ := by
    refine t2.unique ⟨?_, 1, one_pos, by ext <;> simp [Vec.ortho2D]⟩
    simp only [Vec.dot]
    linarith
  subst etu
  rw [ht, value_bind]
  clear ht t2
  obtain ⟨pu, hp, p2⟩ := line_succeeds (⟨fx * (1 / 3), fy + pr, 0⟩ - (⟨wx, wy, 0⟩ : Vec).ortho2D * pr) (d := (⟨wx, wy, 0⟩ : Vec))
    (ne_y (by dsimp only; linarith))
  have epu : pu = ⟨wx, wy, 0⟩ := by
    refine p2.unique ⟨?_, 1, one_pos, by ext <;> simp⟩
    simp only [Vec.dot]
    linarith
  subst epu
  rw [hp, value_bind]
  clear hp p2
  have pd : Planar (⟨0, ⟨ux, uy, 0⟩⟩ : Line) := ⟨rfl, rfl, by linarith⟩
  have pt : Planar (⟨⟨fx, fy, 0⟩, ⟨-uy, ux, 0⟩⟩ : Line) := ⟨rfl, rfl, by dsimp only; linarith⟩
  have pp : Planar (⟨⟨fx * (1 / 3), fy + pr, 0⟩ - (⟨wx, wy, 0⟩ : Vec).ortho2D * pr, ⟨wx, wy, 0⟩⟩ : Line) :=
    ⟨by simp [Vec.ortho2D], rfl, by dsimp only; linarith⟩
  have kc : 1 / 5 ≤ ux * wx + uy * wy := by
    have k1 : 1 / 4 * (95 / 100) ≤ ux * wx := mul_le_mul hux4 (by norm_num at s2 ⊢; linarith) (by norm_num) hux.le
    have k2 : 0 ≤ uy * wy := mul_nonneg huy (by linarith)
    linarith
  obtain ⟨P, hP⟩ := planar_meets pt pp (by
    dsimp only
    rw [show (-uy * wy - ux * wx) ^ 2 = (ux * wx + uy * wy) ^ 2 by ring]
    exact le_trans (by norm_num) (pow_le_pow_left₀ (by norm_num) kc 2))
  rw [hP, value_bind]
  obtain ⟨⟨a, ha⟩, ⟨b, hb⟩⟩ := planar_intersect pt pp hP
  have hPz : P.z = 0 := by rw [ha]; simp
  obtain ⟨bu, hbis, b2⟩ := line_succeeds P (d := (⟨-uy, ux, 0⟩ + ⟨wx, wy, 0⟩ : Vec)) (ne_y (by rw [Vec.add_y]; dsimp only; linarith))
  rw [hbis, value_bind]
  have pb : Planar (⟨P, bu⟩ : Line) := flat_line rfl b2 hPz (by simp)
  obtain ⟨bu1, k, hk, hbu⟩ := b2
  have hbx : k * bu.x = -uy + wx := by
    have := congrArg Vec.x hbu
    simp at this
    linarith
  have hby : k * bu.y = ux + wy := by
    have := congrArg Vec.y hbu
    simp at this
    linarith
  have hD : 1 / 16 ≤ 1 + (ux * wy - uy * wx) := by
    have k1 : uy * wx ≤ wx * wx := mul_le_mul_of_nonneg_right huw (by linarith)
    have k2 : 0 ≤ ux * wy := mul_nonneg hux.le (by linarith)
    have k3 : (1 / 4) ^ 2 ≤ wy ^ 2 := pow_le_pow_left₀ (by norm_num) s1 2
    linarith
  have hkk : k ^ 2 = 2 * (1 + (ux * wy - uy * wx)) := by
    have hz : bu.z = 0 := pb.2.1
    rw [Vec.dot, hz] at bu1
    have : k ^ 2 = (k * bu.x) ^ 2 + (k * bu.y) ^ 2 := by linear_combination -(k ^ 2) * bu1
    rw [this, hbx, hby]
    linear_combination huu + hsc
  obtain ⟨hc, hhc⟩ := planar_meets pd pb (by
    dsimp only
    have e : k * (ux * bu.y - uy * bu.x) = 1 + (ux * wy - uy * wx) := by
      linear_combination ux * hby - uy * hbx + huu
    have e2 : k ^ 2 * (ux * bu.y - uy * bu.x) ^ 2 = (1 + (ux * wy - uy * wx)) ^ 2 := by rw [← e]; ring
    rw [hkk] at e2
    have e3 : 2 * (ux * bu.y - uy * bu.x) ^ 2 = 1 + (ux * wy - uy * wx) := by
      have : (1 + (ux * wy - uy * wx)) ≠ 0 := by linarith
      apply mul_left_cancel₀ this
      linear_combination e2
    norm_num
    linarith)
  rw [hhc, value_bind]
  obtain ⟨⟨τ, hτ⟩, ⟨m, hm⟩⟩ := planar_intersect pd pb hhc
  have hcx : hc.x = τ * ux := by rw [hτ]; simp; ring
  have hcy : hc.y = τ * uy := by rw [hτ]; simp; ring
  obtain ⟨τ0, τ1, τ2⟩ := hinge_center (P := P) (a := a) (b := b) (m := m / k) (τ := τ) (r := r) (fx := fx) (fy := fy) (pr := pr) (ux := ux) (uy := uy)
    (wx := wx) (wy := wy) hr huu hux hfxu hfyu (by linarith) s1 s2 s3 o3 (by linarith)
    (by have := congrArg Vec.x ha; simp at this; rw [this]; ring)
    (by have := congrArg Vec.y ha; simp at this; rw [this]; ring)
    (by have := congrArg Vec.x hb; simp [Vec.ortho2D] at this; rw [this]; ring)
    (by have := congrArg Vec.y hb; simp [Vec.ortho2D] at this; rw [this]; ring)
    (by rw [← hcx, hm, ← hbx]; simp only [Vec.add_x, Vec.mul_x]; field_simp)
    (by rw [← hcy, hm, ← hby]; simp only [Vec.add_y, Vec.mul_y]; field_simp)
  have hmag : (hc - ⟨fx, fy, 0⟩).magnitude2D = r - τ := by
    unfold Vec.magnitude2D
    simp only [Vec.sub_x, Vec.sub_y, hcx, hcy]
    rw [hfxu, hfyu, show (τ * ux - r * ux) * (τ * ux - r * ux) + (τ * uy - r * uy) * (τ * uy - r * uy) =
      (r - τ) ^ 2 * (ux ^ 2 + uy ^ 2) by ring, huu, mul_one, Real.sqrt_sq (by linarith)]
  rw [hmag]
  have hα : |angle2D hc| < Real.pi / 2 := Complex.abs_arg_lt_pi_div_two_iff.mpr (.inl (by
    change 0 < hc.x; rw [hcx]; positivity))
  have hβ : |angle2D (⟨fx * (1 / 3), fy + pr, 0⟩ - ⟨0, fy + pr + no, 0⟩ : Vec)| < Real.pi / 2 :=
    Complex.abs_arg_lt_pi_div_two_iff.mpr (.inl (by simpa using hfx))
  rw [abs_lt] at hα hβ
  have hle : fx ≤ r := le_trans (le_abs_self _) (abs_le_of_sq_le_sq (by linarith [sq_nonneg fy]) hr.le)
  clear * - f1 f2 f3 o1 o3 hle hpx hpn τ1 τ2 hα hβ hr
  generalize angle2D hc = α at *
  generalize angle2D (⟨fx * (1 / 3), fy + pr, 0⟩ - ⟨0, fy + pr + no, 0⟩ : Vec) = β at *
  have hpi := Real.pi_pos
  obtain ⟨a1, h1⟩ := arc_exists (q := q) (radius := r) (start := Real.pi / 2 * 3) (span := Real.pi / 2 + α) (center := 0) f2 f1
    (by linarith) (by linarith) (by linarith)
  obtain ⟨a2, h2⟩ := arc_exists (q := q) (radius := r - τ) (start := α) (span := Real.pi / 2 + 15 * Real.pi / 180 - α) (center := hc) f2 f1
    (by linarith) (by linarith) (by linarith)
  obtain ⟨a3, h3⟩ := arc_exists (q := q) (radius := pr) (start := Real.pi / 2 * 3 + 15 * Real.pi / 180)
    (span := Real.pi + β - (Real.pi / 2 * 3 + 15 * Real.pi / 180)) (center := ⟨fx * (1 / 3), fy + pr, 0⟩) f2 f1
    (by linarith) (by linarith) (by linarith)
  obtain ⟨a4, h4⟩ := arc_exists (q := q) (radius := fx * (1 / 3) - pr * (1 - 2 / 3)) (start := β)
    (span := Real.pi / 2 - β) (center := ⟨0, fy + pr + no, 0⟩) f2 f1
    (by linarith) (by linarith) (by linarith)
  exact ⟨_, bind_ok_of h1 (bind_ok_of h2 (bind_ok_of h3 (bind_ok_of h4 rfl)))⟩

/-- **C97** Knobs of these shapes can be generated: the grooves fit beside each other, the flat side is not behind the axis, and the
allowed deviation is small compared to every rounding. -/
theorem C97_succeeds {q : Quality} {cfg : KnobCfg} (ho : SaneOutside cfg) (hg : 0 < cfg.grooveCount → GroovesFit cfg)
    (hs : SaneShaft cfg) (hf : 0 ≤ KnobCfg.flatY cfg) (h1 : FineOutside q cfg) (h2 : FineShaft q cfg) :
    ∃ ps, knobPieces q cfg = .ok ps := by
  obtain ⟨groove, e1⟩ := outline_succeeds ho hg h1
  obtain ⟨shaft, e2⟩ := shaft_succeeds hs h2 hf
  obtain ⟨k1, k2⟩ := C97_outline ho h1.angle e1
  obtain ⟨skirt, e3⟩ := arc_exists (q := q) (radius := cfg.outerDiameter / 2 - cfg.skirtThickness) (start := 0) (span := tau) (center := 0)
    h1.angle h1.height (by linarith [ho.skirt]) (by linarith [h1.skirt]) (by unfold tau; positivity)
  have hne : ∀ p ∈ groove, p ≠ 0 := by
    rintro p hp rfl
    have o1 := ho.outer
    rcases le_or_gt cfg.grooveCount 0 with hn | hn
    · have := (k1 hn _ hp).2
      simp [axisSq] at this
      linarith [pow_le_pow_left₀ zero_le_one o1 2]
    · have := ((k2 hn).2.1 _ hp).2.1
      have hr := (hg hn).room
      have hc := ho.corner
      have : (1 / 1000) ^ 2 ≤ (cfg.outerDiameter / 2 - cfg.grooveInset) ^ 2 := pow_le_pow_left₀ (by norm_num) (by linarith) 2
      simp [axisSq] at *
      norm_num at *
      linarith
  obtain ⟨dirs, e4⟩ := mapM_ok_of groove (f := Vec.normalized) fun p hp => by
    unfold Vec.normalized Vec.div
    rw [if_neg (magnitude_ne_zero (hne p hp))]
    exact ⟨_, rfl⟩
  unfold knobPieces
  dsimp only
  exact ⟨_, bind_ok_of e1 (bind_ok_of e4 (bind_ok_of e2 (bind_ok_of e3 rfl)))⟩

/-- The knob of the default configuration. -/
noncomputable def exKnob : KnobCfg where
  outerDiameter := 19.9
  outerChamfer := 1.8
  roofThickness := 1.2
  shaftHeight := 7.8
  skirtThickness := 2.6
  skirtHeight := 4.2
  grooveCount := 7
  grooveDiameter := 7
  grooveInset := 1
  grooveCornerRadius := 1
  shaftAcrossFlat := 4.35
  shaftDiameter := 6.2
  prongDiameter := 0.87

/-- **C97** The default knob has such a shape, and can be generated with the default quality. -/
theorem exKnob_made : SaneOutside exKnob ∧ GroovesFit exKnob ∧ SaneShaft exKnob ∧
    ∃ ps, knobPieces ⟨0.01, 30 * Real.pi / 180⟩ exKnob = .ok ps := by
  have hpi := Real.pi_pos
  obtain ⟨s1, s2, s3⟩ := sin_fifteen
  have a : SaneOutside exKnob := by constructor <;> norm_num [exKnob]
  have hc : Real.cos (Real.pi / 7) < 0.925 := by
    have h1 : Real.cos (Real.pi / 7) < Real.cos (Real.pi / 8) :=
      Real.cos_lt_cos_of_nonneg_of_le_pi_div_two (by positivity) (by linarith) (by linarith)
    rw [Real.cos_pi_div_eight] at h1
    have h2 : Real.sqrt 2 < 1.4143 := by rw [Real.sqrt_lt' (by norm_num)]; norm_num
    have h3 : Real.sqrt (2 + Real.sqrt 2) < 1.85 := by rw [Real.sqrt_lt' (by norm_num)]; norm_num at h2 ⊢; linarith
    norm_num at h3 ⊢
    linarith
  have b : GroovesFit exKnob := by
    constructor <;> norm_num [exKnob, KnobCfg.pitch]
    norm_num at hc
    linarith
  have c : SaneShaft exKnob := by
    constructor <;> norm_num [exKnob, KnobCfg.flatY]
    norm_num at s2
    have : 15 * Real.pi / 180 = Real.pi / 12 := by ring
    linarith
  refine ⟨a, b, c, C97_succeeds a (fun _ => b) c (by norm_num [exKnob, KnobCfg.flatY]) ?_ ?_⟩
  · constructor <;> norm_num [exKnob]
    positivity
  · constructor <;> norm_num [exKnob, KnobCfg.flatY]
    positivity

end Chrumm.Part
