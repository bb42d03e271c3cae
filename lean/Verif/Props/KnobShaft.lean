import Verif.Props.KnobGroove
import Verif.Props.Boss
import Verif.Props.PlanFinish

/-! C97: the hole for the shaft. -/

namespace Chrumm.Part
open Geo Geo.Spec Spec Classical

theorem sin_fifteen : 1 / 4 ≤ Real.sin (15 * Real.pi / 180) ∧ 0.95 ≤ Real.cos (15 * Real.pi / 180) ∧
    Real.cos (15 * Real.pi / 180) < 1 := by
  have e : 15 * Real.pi / 180 = Real.pi / 12 := by ring
  rw [e]
  have h1 := Real.pi_gt_d2
  have h2 := Real.pi_lt_d2
  have hx : 0.26 < Real.pi / 12 := by linarith
  have hx2 : Real.pi / 12 < 0.2625 := by linarith
  refine ⟨?_, ?_, ?_⟩
  · have := Real.sin_gt_sub_cube (x := Real.pi / 12) (by linarith)
    have h3 : (Real.pi / 12) ^ 3 ≤ 0.02 := by
      have : (Real.pi / 12) ^ 3 ≤ 0.2625 ^ 3 := pow_le_pow_left₀ (by linarith) hx2.le 3
      norm_num at this ⊢
      linarith
    norm_num at *
    linarith
  · have := Real.one_sub_sq_div_two_le_cos (x := Real.pi / 12)
    nlinarith
  · have := Real.cos_lt_cos_of_nonneg_of_le_pi_div_two (x := 0) (y := Real.pi / 12) (le_refl _) (by linarith) (by linarith)
    rwa [Real.cos_zero] at this

theorem sin_ge_of_between {a t : ℝ} (h0 : -(Real.pi / 2) ≤ a) (h1 : a ≤ t) (h2 : t ≤ Real.pi - a) : Real.sin a ≤ Real.sin t := by
  have e : Real.sin t - Real.sin a = 2 * Real.sin ((t - a) / 2) * Real.cos ((t + a) / 2) := Real.sin_sub_sin t a
  have k1 := Real.sin_nonneg_of_nonneg_of_le_pi (x := (t - a) / 2) (by linarith) (by linarith)
  have k2 := Real.cos_nonneg_of_neg_pi_div_two_le_of_le (x := (t + a) / 2) (by linarith) (by linarith)
  nlinarith [mul_nonneg k1 k2]

theorem hinge_bounds {r pr ux uy wx wy : ℝ} (hr : 0 < r) (hu : ux ^ 2 + uy ^ 2 = 1) (hux : 0 < ux)
    (hw : wx ^ 2 + wy ^ 2 = 1) (hwy : 1 / 4 ≤ wy) (hwx : 0.95 ≤ wx) (hwx1 : wx < 1) (hpr : 1 / 1000 ≤ pr)
    (hprx : pr ≤ r * ux) :
    0 < 1 + (-uy * wx + ux * wy) ∧ 1 + (-uy * wx + ux * wy) ≤ 3 ∧ pr / 10 ≤ 2 / 3 * (r * ux) * wy - pr * (1 - wx) ∧
    2 / 3 * (r * ux) * wy - pr * (1 - wx) < r * (1 + (-uy * wx + ux * wy)) := by
  have huy : uy < 1 := by nlinarith
  have huy' : -1 < uy := by nlinarith
  have hwy1 : wy < 1 := by nlinarith
  have hux1 : ux ≤ 1 := by nlinarith
  have k1 : ux * wy ≤ 1 := by nlinarith
  have k2 : -uy * wx ≤ 1 := by nlinarith
  have k3 : 0 < ux * wy := by positivity
  have k4 : uy * wx < 1 := by nlinarith
  have k5 : r * ux * (1 / 4) ≤ r * ux * wy := mul_le_mul_of_nonneg_left hwy (by positivity)
  have k6 : pr * (1 - wx) ≤ pr * 0.05 := mul_le_mul_of_nonneg_left (by norm_num at hwx ⊢; linarith) (by linarith)
  refine ⟨by linarith, by linarith, by norm_num at k6 ⊢; linarith, ?_⟩
  have k7 : 0 ≤ pr * (1 - wx) := mul_nonneg (by linarith) (by linarith)
  have k8 : 0 < r * (1 - uy * wx) := mul_pos hr (by linarith)
  have k9 : 0 < r * ux * wy := by positivity
  linarith

/-- The circle of the hinge: it touches the shaft at the end of the flat side from inside. -/
theorem hinge_center {r fx fy pr ux uy wx wy a b m τ : ℝ} {P : Vec} (hr : 0 < r) (hu : ux ^ 2 + uy ^ 2 = 1) (hux : 0 < ux)
    (hx : fx = r * ux) (hy : fy = r * uy) (hw : wx ^ 2 + wy ^ 2 = 1) (hwy : 1 / 4 ≤ wy) (hwx : 0.95 ≤ wx) (hwx1 : wx < 1)
    (hpr : 1 / 1000 ≤ pr) (hprx : pr ≤ fx)
    (p1 : P.x = fx - a * uy) (p2 : P.y = fy + a * ux)
    (p3 : P.x = fx * (1 / 3) + wy * pr + b * wx) (p4 : P.y = fy + pr - wx * pr + b * wy)
    (p5 : τ * ux = P.x + m * (-uy + wx)) (p6 : τ * uy = P.y + m * (ux + wy)) :
    0 < τ ∧ 1 / 1000000 ≤ r - τ ∧ pr / 30 ≤ r - τ := by
  have d1 : (r - τ) * (1 + (-uy * wx + ux * wy)) = 2 / 3 * fx * wy - pr * (1 - wx) := by
    have ea : a * (ux * wx + uy * wy) = 2 / 3 * fx * wy - pr * (1 - wx) := by
      have q1 : fx - a * uy = fx * (1 / 3) + wy * pr + b * wx := by rw [← p1, p3]
      have q2 : fy + a * ux = fy + pr - wx * pr + b * wy := by rw [← p2, p4]
      linear_combination q2 * wx - q1 * wy - pr * hw
    have em : a + m * (1 + (-uy * wx + ux * wy)) = 0 := by
      rw [p1] at p5
      rw [p2] at p6
      linear_combination uy * p5 - ux * p6 + uy * hx - ux * hy - (a + m) * hu
    have et : τ = r + m * (ux * wx + uy * wy) := by
      rw [p1] at p5
      rw [p2] at p6
      linear_combination ux * p5 + uy * p6 + ux * hx + uy * hy + (r - τ) * hu
    rw [← ea, et]
    linear_combination (-(ux * wx + uy * wy)) * em
  have hx1 : fx = r * ux := hx
  obtain ⟨hp, hp2, hD, hD2⟩ := hinge_bounds hr hu hux hw hwy hwx hwx1 hpr (hx ▸ hprx)
  rw [← hx1] at hD hD2
  rw [← d1] at hD hD2
  refine ⟨?_, ?_, ?_⟩
  · generalize 1 + (-uy * wx + ux * wy) = K at *
    have := lt_of_mul_lt_mul_right hD2 hp.le
    linarith
  · generalize 1 + (-uy * wx + ux * wy) = K at *
    have : (1 / 30000) * K ≤ (r - τ) * K := by linarith
    have := le_of_mul_le_mul_right this hp
    linarith
  · generalize 1 + (-uy * wx + ux * wy) = K at *
    have : (pr / 30) * K ≤ (r - τ) * K := by
      have : pr / 30 * K ≤ pr / 30 * 3 := mul_le_mul_of_nonneg_left hp2 (by linarith)
      linarith
    exact le_of_mul_le_mul_right this hp

theorem flat_line {p d : Vec} {l : Line} (h1 : l.pos = p) (h2 : UnitOf l.dir d) (k1 : p.z = 0) (k2 : d.z = 0) : Planar l := by
  obtain ⟨h3, k, hk, rfl⟩ := h2
  have hz : l.dir.z = 0 := by
    rw [Vec.mul_z] at k2
    rcases mul_eq_zero.mp k2 with h | h
    · exact h
    · exact absurd h hk.ne'
  refine ⟨by rw [h1, k1], hz, ?_⟩
  rw [Vec.dot, hz] at h3
  linarith

theorem angle_scaled {x y k : ℝ} (hk : 0 < k) : angle2D ⟨k * x, k * y, 0⟩ = angle2D ⟨x, y, 0⟩ := by
  unfold angle2D
  have : (⟨k * x, k * y⟩ : ℂ) = (k : ℂ) * ⟨x, y⟩ := by apply Complex.ext <;> simp
  rw [this, Complex.arg_real_mul _ hk]

set_option maxHeartbeats 1000000 in
/-- Half of the sketch: the points below the flat side are on the shaft, and no point is inside. -/
theorem shaft_half {q : Quality} {cfg : KnobCfg} (hs : SaneShaft cfg) (hq : 0 < q.maxChordAngle) {pts : List Vec}
    (h : shaftSketch q cfg = .ok pts) :
    ∃ half : List Vec, pts = collapsed (edgeSnapped (half ++ (half.map Vec.mirroredX).reverse)) (1 / 1000) ∧
      (∀ p ∈ half, p.z = 0 ∧ (axisSq p = (cfg.shaftDiameter / 2) ^ 2 ∨ KnobCfg.flatY cfg ≤ p.y)) ∧
      (⟨0, -(cfg.shaftDiameter / 2), 0⟩ : Vec) ∈ half ∧
      ∃ p ∈ half, 0 < p.x ∧ p.y = KnobCfg.flatY cfg + cfg.prongDiameter / 2 * (1 - Real.cos (15 * Real.pi / 180)) := by
  unfold shaftSketch at h
  dsimp only at h
  obtain ⟨fx, hfx, h⟩ := bind_ok h
  obtain ⟨no, hno, h⟩ := bind_ok h
  obtain ⟨diag, hdiag, h⟩ := bind_ok h
  obtain ⟨tan, htan, h⟩ := bind_ok h
  obtain ⟨pron, hpron, h⟩ := bind_ok h
  obtain ⟨P, hP, h⟩ := bind_ok h
  obtain ⟨bis, hbis, h⟩ := bind_ok h
  obtain ⟨hc, hhc, h⟩ := bind_ok h
  obtain ⟨a1, h1, h⟩ := bind_ok h
  obtain ⟨a2, h2, h⟩ := bind_ok h
  obtain ⟨a3, h3, h⟩ := bind_ok h
  obtain ⟨a4, h4, h⟩ := bind_ok h
  have h := Except.ok.inj h
  refine ⟨_, h.symm, ?_⟩
  clear h
  have o1 := hs.shaft
  have o2 := hs.flat
  have o3 := hs.prong
  have o4 := hs.prong_le
  rw [abs_le] at o2
  unfold KnobCfg.flatY at *
  clear hs
  generalize cfg.shaftAcrossFlat - cfg.shaftDiameter / 2 = fy at *
  generalize cfg.shaftDiameter / 2 = r at *
  generalize cfg.prongDiameter / 2 = pr at *
  obtain ⟨s1, s2, s3⟩ := sin_fifteen
  have hsc := Real.sin_sq_add_cos_sq (15 * Real.pi / 180)
  have e15 : 15 * Real.pi / 180 = Real.pi / 12 := by ring
  have hr : 0 < r := by linarith
  have efx : fx ^ 2 = r ^ 2 - fy ^ 2 ∧ 0 ≤ fx := by
    unfold pySqrt at hfx
    split_ifs at hfx with hn
    have := Except.ok.inj hfx
    rw [← this]
    exact ⟨Real.sq_sqrt (not_lt.mp hn), Real.sqrt_nonneg _⟩
  obtain ⟨efx, hfx0⟩ := efx
  have hpx : pr + 1 / 1000 ≤ fx := by
    rw [← efx] at o4
    exact le_trans (le_abs_self _) (abs_le_of_sq_le_sq o4 hfx0)
  clear hfx
  have hfx : 0 < fx := by linarith
  have hfr : fx ^ 2 + fy ^ 2 = r ^ 2 := by linarith
  have hn : ∀ {p d : Vec} {l : Line}, Line.make p d = .ok l → p.z = 0 → d.z = 0 → Planar l ∧ l.pos = p ∧ UnitOf l.dir d :=
    fun k k1 k2 => let m := line_make k; ⟨flat_line m.1 m.2 k1 k2, m.1, m.2⟩
  obtain ⟨pd, d1, d2⟩ := hn hdiag rfl rfl
  obtain ⟨dp, du⟩ := diag
  dsimp only at d1 d2
  subst d1
  have edu : du = ⟨fx / r, fy / r, 0⟩ := by
    refine d2.unique ⟨?_, r, hr, by ext <;> simp <;> field_simp⟩
    simp only [Vec.dot]
    field_simp
    linarith
  subst edu
  clear hdiag d2
  obtain ⟨pt, t1, t2⟩ := hn htan rfl rfl
  obtain ⟨tp, tu⟩ := tan
  dsimp only at t1 t2
  subst t1
  have etu : tu = ⟨-(fy / r), fx / r, 0⟩ := by
    refine t2.unique ⟨?_, 1, one_pos, by ext <;> simp [Vec.ortho2D]⟩
    simp only [Vec.dot]
    field_simp
    linarith
  subst etu
  clear htan t2
  obtain ⟨pp, r1, r2⟩ := hn hpron (by simp [Vec.ortho2D]) rfl
  obtain ⟨rp, ru⟩ := pron
  dsimp only at r1 r2
  subst r1
  have eru : ru = ⟨Real.cos (15 * Real.pi / 180), Real.sin (15 * Real.pi / 180), 0⟩ :=
    r2.unique ⟨by simp only [Vec.dot]; linarith, 1, one_pos, by ext <;> simp⟩
  subst eru
  clear hpron r2
  obtain ⟨⟨a, ha⟩, ⟨b, hb⟩⟩ := planar_intersect pt pp hP
  have hPz : P.z = 0 := by rw [ha]; simp
  obtain ⟨pb, b1, b2⟩ := hn hbis hPz (by simp)
  obtain ⟨bp, bu⟩ := bis
  dsimp only at b1 b2
  subst b1
  obtain ⟨⟨τ, hτ⟩, ⟨m, hm⟩⟩ := planar_intersect pd pb hhc
  obtain ⟨-, k, hk, hbu⟩ := b2
  have hcx : hc.x = τ * (fx / r) := by rw [hτ]; simp; ring
  have hcy : hc.y = τ * (fy / r) := by rw [hτ]; simp; ring
  have hcz : hc.z = 0 := by rw [hτ]; simp
  have hbx : bu.x = (-(fy / r) + Real.cos (15 * Real.pi / 180)) / k := by
    have := congrArg Vec.x hbu
    simp at this
    rw [this]; field_simp
  have hby : bu.y = (fx / r + Real.sin (15 * Real.pi / 180)) / k := by
    have := congrArg Vec.y hbu
    simp at this
    rw [this]; field_simp
  have huu : (fx / r) ^ 2 + (fy / r) ^ 2 = 1 := by
    field_simp; linarith
  have hux : 0 < fx / r := by positivity
  obtain ⟨τ0, τ1, -⟩ := hinge_center (P := bp) (a := a) (b := b) (m := m / k) (τ := τ) (r := r) (fx := fx) (fy := fy) (pr := pr) (ux := fx / r) (uy := fy / r)
    (wx := Real.cos (15 * Real.pi / 180)) (wy := Real.sin (15 * Real.pi / 180)) hr huu hux
    (by field_simp) (by field_simp) (by linarith) s1 s2 s3 o3 (by linarith)
    (by have := congrArg Vec.x ha; simp at this; rw [this]; ring)
    (by have := congrArg Vec.y ha; simp at this; rw [this]; ring)
    (by have := congrArg Vec.x hb; simp [Vec.ortho2D] at this; rw [this]; ring)
    (by have := congrArg Vec.y hb; simp [Vec.ortho2D] at this; rw [this]; ring)
    (by rw [← hcx, hm]; simp only [Vec.add_x, Vec.mul_x]; rw [hbx]; ring)
    (by rw [← hcy, hm]; simp only [Vec.add_y, Vec.mul_y]; rw [hby]; ring)
  clear hP hbis hhc ha hb hm hbu hbx hby pb pd pt pp
  have eα : angle2D hc = angle2D ⟨fx / r, fy / r, 0⟩ := by
    rw [← angle_scaled τ0, ← hcx, ← hcy]; rfl
  obtain ⟨ca, sa⟩ := angle2D_unit (v := ⟨fx / r, fy / r, 0⟩) huu
  have hα : |angle2D ⟨fx / r, fy / r, 0⟩| < Real.pi / 2 := Complex.abs_arg_lt_pi_div_two_iff.mpr (.inl hux)
  have hmag : (hc - ⟨fx, fy, 0⟩).magnitude2D = r - τ := by
    unfold Vec.magnitude2D
    simp only [Vec.sub_x, Vec.sub_y, hcx, hcy]
    rw [show (τ * (fx / r) - fx) * (τ * (fx / r) - fx) + (τ * (fy / r) - fy) * (τ * (fy / r) - fy) =
      (r - τ) ^ 2 * ((fx / r) ^ 2 + (fy / r) ^ 2) by field_simp; ring, huu, mul_one, Real.sqrt_sq (by linarith)]
  rw [eα, hmag] at h2
  rw [eα] at h1
  clear eα
  dsimp only at ca sa
  generalize angle2D ⟨fx / r, fy / r, 0⟩ = α at *
  rw [abs_lt] at hα
  have hα1 : α ≤ Real.pi / 2 - Real.pi / 12 := by
    by_contra hh
    rw [not_le] at hh
    have := Real.sin_lt_sin_of_lt_of_le_pi_div_two (by linarith [Real.pi_pos]) hα.2.le hh
    rw [Real.sin_pi_div_two_sub, sa, ← e15] at this
    rw [lt_div_iff₀ hr] at this
    linarith [o2.2]
  have hα2 : -(Real.pi / 2 - Real.pi / 12) ≤ α := by
    by_contra hh
    rw [not_le] at hh
    have := Real.sin_lt_sin_of_lt_of_le_pi_div_two hα.1.le (by linarith [Real.pi_pos]) hh
    rw [Real.sin_neg, Real.sin_pi_div_two_sub, sa, ← e15] at this
    rw [div_lt_iff₀ hr] at this
    linarith [o2.1]
  have eno : no ^ 2 = (pr + (fx * (1 / 3) - pr * (1 - 2 / 3))) ^ 2 - (fx * (1 / 3)) ^ 2 ∧ 0 ≤ no := by
    unfold pySqrt at hno
    split_ifs at hno with hn
    have := Except.ok.inj hno
    rw [← this]
    exact ⟨Real.sq_sqrt (not_lt.mp hn), Real.sqrt_nonneg _⟩
  obtain ⟨eno, hno0⟩ := eno
  generalize hnr : fx * (1 / 3) - pr * (1 - 2 / 3) = nr at *
  have hnr0 : 1 / 1000000 ≤ nr := by rw [← hnr]; linarith
  have e4 : (⟨fx * (1 / 3), fy + pr, 0⟩ - ⟨0, fy + pr + no, 0⟩ : Vec) = ⟨fx * (1 / 3), -no, 0⟩ := by ext <;> simp
  rw [e4] at h4
  obtain ⟨c4, s4⟩ := arg_cos_sin (x := fx * (1 / 3)) (y := -no) (r := pr + nr) (by linarith) (by rw [neg_sq, eno]; ring)
  have hA : |angle2D ⟨fx * (1 / 3), -no, 0⟩| < Real.pi / 2 := Complex.abs_arg_lt_pi_div_two_iff.mpr (.inl (by simpa using hfx))
  rw [abs_lt] at hA
  refine ⟨?_, ?_, ?_⟩
  rotate_left
  · have hl := List.mem_of_mem_head? (Option.mem_def.mpr (C53_ends (by linarith) hq h1).1)
    apply List.mem_append_left
    apply List.mem_append_left
    apply List.mem_append_left
    convert hl using 1
    rw [show Real.pi / 2 * 3 = Real.pi / 2 + Real.pi by ring, circlePoint, Real.cos_add_pi, Real.sin_add_pi, Real.cos_pi_div_two,
      Real.sin_pi_div_two]
    ext <;> simp
  · have hl := List.mem_of_mem_head? (Option.mem_def.mpr (C53_ends (by linarith) hq h3).1)
    refine ⟨_, List.mem_append_left _ (List.mem_append_right _ hl), ?_⟩
    rw [show Real.pi / 2 * 3 + 15 * Real.pi / 180 = 15 * Real.pi / 180 - Real.pi / 2 + 2 * Real.pi by ring, circlePoint,
      Real.cos_add_two_pi, Real.sin_add_two_pi, Real.cos_sub_pi_div_two, Real.sin_sub_pi_div_two]
    dsimp only
    constructor
    · have : 0 ≤ pr * Real.sin (15 * Real.pi / 180) := mul_nonneg (by linarith) (by linarith)
      linarith
    · ring
  intro p hp
  rw [List.mem_append, List.mem_append, List.mem_append] at hp
  rcases hp with ((hp | hp) | hp) | hp
  · obtain ⟨z0, hz⟩ := C53_on_circle (by linarith) hq h1 p hp
    exact ⟨z0, .inl (by rw [← hz]; simp [axisSq, distSq2D])⟩
  · obtain ⟨s, t0, t1, rfl⟩ := arc_between τ1 hq (by rw [e15, abs_le]; constructor <;> linarith [Real.pi_pos]) h2 p hp
    refine ⟨rfl, .inr ?_⟩
    have w0 : 0 ≤ Real.pi / 2 + 15 * Real.pi / 180 - α := by linarith [Real.pi_pos]
    have := sin_ge_of_between (a := α) (t := α + s * (Real.pi / 2 + 15 * Real.pi / 180 - α)) hα.1.le
      (by linarith [mul_nonneg t0 w0]) (by linarith [mul_le_of_le_one_left w0 t1])
    simp only [circlePoint, hcy]
    have e5 : fy = τ * (fy / r) + (r - τ) * (fy / r) := by field_simp; ring
    rw [e5]
    have e6 : τ * ((τ * (fy / r) + (r - τ) * (fy / r)) / r) = τ * (fy / r) := by rw [← e5]
    rw [e6]
    rw [sa] at this
    linarith [mul_le_mul_of_nonneg_left this (show 0 ≤ r - τ by linarith)]
  · obtain ⟨z0, hz⟩ := C53_on_circle (by linarith) hq h3 p hp
    refine ⟨z0, .inr ?_⟩
    simp only [distSq2D] at hz
    have : (fy + pr - p.y) ^ 2 ≤ pr ^ 2 := by rw [← hz]; linarith [sq_nonneg (fx * (1 / 3) - p.x)]
    have := le_trans (le_abs_self _) (abs_le_of_sq_le_sq this (by linarith))
    linarith
  · obtain ⟨s, t0, t1, rfl⟩ := arc_between hnr0 hq (by rw [abs_le]; constructor <;> linarith [Real.pi_pos]) h4 p hp
    refine ⟨rfl, .inr ?_⟩
    generalize angle2D ⟨fx * (1 / 3), -no, 0⟩ = β at *
    have := Real.sin_le_sin_of_le_of_le_pi_div_two (x := β) (y := β + s * (Real.pi / 2 - β)) hA.1.le
      (by linarith [mul_le_of_le_one_left (show 0 ≤ Real.pi / 2 - β by linarith) t1])
      (by linarith [mul_nonneg t0 (show 0 ≤ Real.pi / 2 - β by linarith)])
    simp only [circlePoint]
    have h5 : -no ≤ nr * Real.sin β := by
      have : 0 ≤ pr * -Real.sin β := by
        apply mul_nonneg (by linarith)
        by_contra hh
        have : 0 < (pr + nr) * Real.sin β := mul_pos (by linarith) (by linarith)
        linarith
      linarith
    linarith [mul_le_mul_of_nonneg_left this (show 0 ≤ nr by linarith)]

/-- **C97** The hole for the shaft. No corner of it is inside the D-shaped shaft; below the flat side, every corner is on the
circle of the shaft; the hole reaches the lowest point of the shaft, and on both sides of the middle a prong touches the flat side. -/
theorem C97_shaft {q : Quality} {cfg : KnobCfg} (hs : SaneShaft cfg) (hq : 0 < q.maxChordAngle) {pts : List Vec}
    (h : shaftSketch q cfg = .ok pts) :
    (∀ p ∈ pts, p.z = 0 ∧ ¬ DeepInShaft cfg p ∧ (p.y < KnobCfg.flatY cfg - 1e-6 → axisSq p ≤ (cfg.shaftDiameter / 2) ^ 2)) ∧
    ∃ raw, pts = collapsed raw (1 / 1000) ∧ (⟨0, -(cfg.shaftDiameter / 2), 0⟩ : Vec) ∈ raw ∧
      (∃ p ∈ raw, 0 ≤ p.x ∧ p.y < KnobCfg.flatY cfg + cfg.prongDiameter / 2 * (1 - Real.cos (15 * Real.pi / 180)) + 1e-6) ∧
      ∃ p ∈ raw, p.x ≤ 0 ∧ p.y < KnobCfg.flatY cfg + cfg.prongDiameter / 2 * (1 - Real.cos (15 * Real.pi / 180)) + 1e-6 := by
  obtain ⟨half, rfl, h1, h2, p, hp, h3, h4⟩ := shaft_half hs hq h
  have sx : ∀ v : Vec, (0 < v.x → 0 ≤ v.snapped.x) ∧ (v.x < 0 → v.snapped.x ≤ 0) := by
    intro v
    unfold Vec.snapped
    dsimp only
    split_ifs <;> constructor <;> intro h <;> linarith
  have hmem : ∀ v ∈ half, v.snapped ∈ edgeSnapped (half ++ (half.map Vec.mirroredX).reverse) :=
    fun v hv => List.mem_map_of_mem (List.mem_append_left _ hv)
  refine ⟨?_, _, rfl, ?_, ⟨_, hmem p hp, (sx p).1 h3, ?_⟩, p.mirroredX.snapped, ?_, (sx _).2 (by simpa [Vec.mirroredX] using h3), ?_⟩
  · intro p hp
    replace hp := (C35_subsequence _ _).1.subset hp
    obtain ⟨v, hv, rfl⟩ := List.mem_map.mp hp
    have hb : v.z = 0 ∧ (axisSq v = (cfg.shaftDiameter / 2) ^ 2 ∨ KnobCfg.flatY cfg ≤ v.y) := by
      rcases List.mem_append.mp hv with hv | hv
      · exact h1 v hv
      · rw [List.mem_reverse] at hv
        obtain ⟨w, hw, rfl⟩ := List.mem_map.mp hv
        have := h1 w hw
        simpa [axisSq, Vec.mirroredX] using this
    obtain ⟨s1, s2, s3, s4, s5, s6, s7⟩ := snapped_near v
    rw [abs_lt] at s2
    simp only [axisSq, DeepInShaft, not_and, not_lt] at hb ⊢
    refine ⟨s7 hb.1, ?_, ?_⟩
    · intro hd
      rcases hb.2 with hb | hb
      · exfalso
        norm_num at s5 s6 hd
        linarith
      · linarith [s2.1]
    · intro hd
      rcases hb.2 with hb | hb
      · linarith
      · linarith [s2.1]
  · have := hmem _ h2
    convert this using 1
    have o1 := hs.shaft
    unfold Vec.snapped
    dsimp only
    have e : ¬ isZero (-(cfg.shaftDiameter / 2)) := by
      rw [isZero_iff, abs_neg, abs_of_nonneg (by linarith)]; norm_num; linarith
    rw [if_neg e]
    simp
  · have := (snapped_near p).2.1
    rw [abs_lt] at this
    linarith
  · apply List.mem_map_of_mem
    apply List.mem_append_right
    rw [List.mem_reverse]
    exact List.mem_map_of_mem hp
  · have := (snapped_near p.mirroredX).2.1
    rw [abs_lt] at this
    have e : p.mirroredX.y = p.y := rfl
    linarith

end Chrumm.Part
