import Verif.Props.FloorMake

/-! C85: the bumpers in the corners. -/

namespace Chrumm.Part
open Geo Geo.Spec Spec Classical

/-- What is known about the position of a bumper in a corner: it is on the bisector `m`, at the distance `k`. -/
structure CornerData (R inset : ℝ) (a b c pos : Vec) where
  u : Vec
  w : Vec
  m : Vec
  s : ℝ
  co : ℝ
  k : ℝ
  hu : UnitOf u (a - b).xy
  hw : UnitOf w (c - b).xy
  uz : u.z = 0
  wz : w.z = 0
  s_pos : 0 < s
  co_pos : 0 < co
  sc : s ^ 2 + co ^ 2 = 1
  m_unit : m.x ^ 2 + m.y ^ 2 = 1
  sum : u.x + w.x = 2 * co * m.x ∧ u.y + w.y = 2 * co * m.y
  mu : m.x * u.x + m.y * u.y = co
  mw : m.x * w.x + m.y * w.y = co
  pos_x : pos.x = b.x + m.x * k
  pos_y : pos.y = b.y + m.y * k
  k_eq : k = inset / s + max 0 ((R / s - R) - (inset / s - inset))

theorem cornerBumper_data {R inset : ℝ} {a b c pos : Vec} (h : cornerBumperPos R a b c inset = .ok pos) :
    Nonempty (CornerData R inset a b c pos) := by
  unfold cornerBumperPos at h
  obtain ⟨u, h1, h⟩ := bind_ok h
  obtain ⟨w, h2, h⟩ := bind_ok h
  obtain ⟨γ, h3, h⟩ := bind_ok h
  obtain ⟨D, h4, h⟩ := bind_ok h
  obtain ⟨E, h5, h⟩ := bind_ok h
  dsimp only at h
  obtain ⟨m, h6, h⟩ := bind_ok h
  obtain rfl := Except.ok.inj h
  obtain ⟨ha, hau, hu, huz⟩ := normalized2D_ok h1
  obtain ⟨hc, hcw, hw, hwz⟩ := normalized2D_ok h2
  obtain ⟨hm, hme, mu, mz⟩ := normalized2D_ok h6
  have hγ : γ = Real.arccos (u.dot w) := by
    unfold pyAcos at h3
    split_ifs at h3
    exact (Except.ok.inj h3).symm
  have hdot : u.dot w = u.x * w.x + u.y * w.y := by simp [Vec.dot, huz]
  have hd1 : u.x * w.x + u.y * w.y ≤ 1 := by nlinarith [sq_nonneg (u.x - w.x), sq_nonneg (u.y - w.y)]
  have hd2 : -1 ≤ u.x * w.x + u.y * w.y := by nlinarith [sq_nonneg (u.x + w.x), sq_nonneg (u.y + w.y)]
  have hcos : Real.cos γ = u.x * w.x + u.y * w.y := by
    rw [hγ, hdot, Real.cos_arccos hd2 hd1]
  have hγ0 : 0 ≤ γ := by rw [hγ]; exact Real.arccos_nonneg _
  have hγ1 : γ ≤ Real.pi := by rw [hγ]; exact Real.arccos_le_pi _
  obtain ⟨hsn, rfl⟩ := pyDiv_val h4
  obtain ⟨-, rfl⟩ := pyDiv_val h5
  have hpi := Real.pi_pos
  have s0 : 0 ≤ Real.sin (γ / 2) := Real.sin_nonneg_of_nonneg_of_le_pi (by linarith) (by linarith)
  have c0 : 0 ≤ Real.cos (γ / 2) := Real.cos_nonneg_of_mem_Icc ⟨by linarith, by linarith⟩
  have sc := Real.sin_sq_add_cos_sq (γ / 2)
  have hcd : Real.cos γ = 2 * Real.cos (γ / 2) ^ 2 - 1 := by
    rw [← Real.cos_two_mul]; congr 1; ring
  have hx := congrArg Vec.x hme
  have hy := congrArg Vec.y hme
  simp only [Vec.xy, Vec.add_x, Vec.add_y, Vec.mul_x, Vec.mul_y] at hx hy
  generalize (u + w).magnitude2D = K at *
  generalize Real.sin (γ / 2) = s at *
  generalize Real.cos (γ / 2) = co at *
  have hK2 : K ^ 2 = (2 * co) ^ 2 := by
    have e1 : K ^ 2 = (m.x * K) ^ 2 + (m.y * K) ^ 2 := by
      have : (m.x * K) ^ 2 + (m.y * K) ^ 2 = (m.x ^ 2 + m.y ^ 2) * K ^ 2 := by ring
      rw [this, mu, one_mul]
    rw [e1, ← hx, ← hy]
    nlinarith
  have hK : K = 2 * co := (sq_eq_sq₀ hm.le (by linarith)).mp hK2
  subst hK
  have cpos : 0 < co := by linarith
  have unit : ∀ {v d : Vec} {l : ℝ}, 0 < l → d.xy = v * l → v.x ^ 2 + v.y ^ 2 = 1 → v.z = 0 → UnitOf v d.xy := by
    intro v d l hl e h1 hz
    refine ⟨?_, l, hl, e⟩
    simp only [Vec.dot, hz]
    linarith
  refine ⟨⟨u, w, m, s, co, _, unit ha hau hu huz, unit hc hcw hw hwz, huz, hwz, lt_of_le_of_ne s0 (Ne.symm hsn), cpos, sc, mu,
    ⟨by linarith, by linarith⟩, ?_, ?_, ?_, ?_, rfl⟩⟩
  · have : 2 * co * (m.x * u.x + m.y * u.y) = 2 * co * co := by
      have e : 2 * co * (m.x * u.x + m.y * u.y) = (m.x * (2 * co)) * u.x + (m.y * (2 * co)) * u.y := by ring
      rw [e, ← hx, ← hy]
      linarith
    exact mul_left_cancel₀ (by positivity) this
  · have : 2 * co * (m.x * w.x + m.y * w.y) = 2 * co * co := by
      have e : 2 * co * (m.x * w.x + m.y * w.y) = (m.x * (2 * co)) * w.x + (m.y * (2 * co)) * w.y := by ring
      rw [e, ← hx, ← hy]
      linarith
    exact mul_left_cancel₀ (by positivity) this
  · simp
  · simp

theorem CornerData.k_s {R inset : ℝ} {a b c pos : Vec} (d : CornerData R inset a b c pos) : inset ≤ d.k * d.s := by
  have h1 : inset / d.s ≤ d.k := by rw [d.k_eq]; linarith [le_max_left 0 ((R / d.s - R) - (inset / d.s - inset))]
  have h2 := mul_le_mul_of_nonneg_right h1 d.s_pos.le
  rwa [div_mul_cancel₀ _ d.s_pos.ne'] at h2

theorem CornerData.k_R {R inset : ℝ} {a b c pos : Vec} (d : CornerData R inset a b c pos) : R / d.s - R + inset ≤ d.k := by
  rw [d.k_eq]; linarith [le_max_right 0 ((R / d.s - R) - (inset / d.s - inset))]

/-- The distance of a point on the bisector from a side. -/
theorem side_far {b m u : Vec} {k co s inset x : ℝ} {pos p : Vec} (hx : pos.x = b.x + m.x * k) (hy : pos.y = b.y + m.y * k)
    (hm : m.x ^ 2 + m.y ^ 2 = 1) (hu : u.x ^ 2 + u.y ^ 2 = 1) (mu : m.x * u.x + m.y * u.y = co) (sc : s ^ 2 + co ^ 2 = 1)
    (hi : 0 ≤ inset) (hk : inset ≤ k * s) (px : p.x = b.x + u.x * x) (py : p.y = b.y + u.y * x) :
    inset ^ 2 ≤ distSq2D pos p := by
  have e : distSq2D pos p = (k * s) ^ 2 + (x - k * co) ^ 2 := by
    unfold distSq2D
    rw [hx, hy, px, py]
    have : (b.x + m.x * k - (b.x + u.x * x)) ^ 2 + (b.y + m.y * k - (b.y + u.y * x)) ^ 2 =
        k ^ 2 * (m.x ^ 2 + m.y ^ 2) - 2 * k * x * (m.x * u.x + m.y * u.y) + x ^ 2 * (u.x ^ 2 + u.y ^ 2) := by ring
    rw [this, hm, hu, mu]
    have : s ^ 2 = 1 - co ^ 2 := by linarith
    rw [mul_pow, this]
    ring
  rw [e]
  have : inset ^ 2 ≤ (k * s) ^ 2 := pow_le_pow_left₀ hi hk 2
  nlinarith [sq_nonneg (x - k * co)]

theorem unit_xy {u v : Vec} (h : UnitOf u v.xy) (hz : u.z = 0) :
    u.x ^ 2 + u.y ^ 2 = 1 ∧ ∃ l > 0, v.x = u.x * l ∧ v.y = u.y * l := by
  obtain ⟨h1, l, hl, e⟩ := h
  simp only [Vec.dot, hz] at h1
  refine ⟨by linarith, l, hl, ?_, ?_⟩
  · exact congrArg Vec.x e
  · exact congrArg Vec.y e

/-- **C85** A bumper in a corner keeps its distance from both walls, along their whole lines. -/
theorem C85_walls {R inset : ℝ} {a b c pos : Vec} (hi : 0 ≤ inset) (h : cornerBumperPos R a b c inset = .ok pos) (t : ℝ) :
    inset ^ 2 ≤ distSq2D pos (between2D b a t) ∧ inset ^ 2 ≤ distSq2D pos (between2D b c t) := by
  obtain ⟨d⟩ := cornerBumper_data h
  obtain ⟨u1, l, -, ux, uy⟩ := unit_xy d.hu d.uz
  obtain ⟨w1, l', -, wx, wy⟩ := unit_xy d.hw d.wz
  simp only [Vec.sub_x, Vec.sub_y] at ux uy wx wy
  constructor
  · refine side_far (x := t * l) d.pos_x d.pos_y d.m_unit u1 d.mu d.sc hi d.k_s ?_ ?_
    · simp only [between2D]; rw [ux]; ring
    · simp only [between2D]; rw [uy]; ring
  · refine side_far (x := t * l') d.pos_x d.pos_y d.m_unit w1 d.mw d.sc hi d.k_s ?_ ?_
    · simp only [between2D]; rw [wx]; ring
    · simp only [between2D]; rw [wy]; ring

theorem unitOf_unique {u v w : Vec} (h1 : UnitOf u w) (h2 : UnitOf v w) : u = v := by
  obtain ⟨a1, k, hk, e1⟩ := h1
  obtain ⟨a2, l, hl, e2⟩ := h2
  have e : u * k = v * l := by rw [← e1, ← e2]
  have ex := congrArg Vec.x e
  have ey := congrArg Vec.y e
  have ez := congrArg Vec.z e
  simp only [Vec.mul_x, Vec.mul_y, Vec.mul_z, Vec.dot] at ex ey ez a1 a2
  have hkl : k = l := by
    have : k ^ 2 = l ^ 2 := by
      have e1 : k ^ 2 = (u.x * k) ^ 2 + (u.y * k) ^ 2 + (u.z * k) ^ 2 := by
        have : (u.x * k) ^ 2 + (u.y * k) ^ 2 + (u.z * k) ^ 2 = (u.x * u.x + u.y * u.y + u.z * u.z) * k ^ 2 := by ring
        rw [this, a1, one_mul]
      have e2 : l ^ 2 = (v.x * l) ^ 2 + (v.y * l) ^ 2 + (v.z * l) ^ 2 := by
        have : (v.x * l) ^ 2 + (v.y * l) ^ 2 + (v.z * l) ^ 2 = (v.x * v.x + v.y * v.y + v.z * v.z) * l ^ 2 := by ring
        rw [this, a2, one_mul]
      rw [e1, e2, ex, ey, ez]
    exact (sq_eq_sq₀ hk.le hl.le).mp this
  subst hkl
  ext
  · exact mul_right_cancel₀ hk.ne' ex
  · exact mul_right_cancel₀ hk.ne' ey
  · exact mul_right_cancel₀ hk.ne' ez

/-- The geometry of a rounded corner, seen from the bisector. -/
theorem arc_far {u w m C P : Vec} {s co D R k inset : ℝ} (s0 : 0 < s) (c0 : 0 < co) (sc : s ^ 2 + co ^ 2 = 1)
    (hm : m.x ^ 2 + m.y ^ 2 = 1) (hu : u.x ^ 2 + u.y ^ 2 = 1) (hw : w.x ^ 2 + w.y ^ 2 = 1)
    (sum : u.x + w.x = 2 * co * m.x ∧ u.y + w.y = 2 * co * m.y)
    (mu : m.x * u.x + m.y * u.y = co) (mw : m.x * w.x + m.y * w.y = co) (D0 : 0 < D) (R0 : 0 < R)
    (hCu : C.x * u.x + C.y * u.y = D) (hCw : C.x * w.x + C.y * w.y = D)
    (hR : (D * u.x - C.x) ^ 2 + (D * u.y - C.y) ^ 2 = R ^ 2) (hP : (P.x - C.x) ^ 2 + (P.y - C.y) ^ 2 = R ^ 2)
    (hPD : P.x ^ 2 + P.y ^ 2 ≤ D ^ 2) (hi : 0 ≤ inset) (k1 : inset ≤ k * s) (k2 : R / s - R + inset ≤ k) :
    C.x = m.x * (R / s) ∧ C.y = m.y * (R / s) ∧ inset ^ 2 ≤ (m.x * k - P.x) ^ 2 + (m.y * k - P.y) ^ 2 := by
  -- the centre is on the bisector
  have Cm : C.x * m.x + C.y * m.y = D / co := by
    have : 2 * co * (C.x * m.x + C.y * m.y) = 2 * D := by
      have : 2 * co * (C.x * m.x + C.y * m.y) = C.x * (2 * co * m.x) + C.y * (2 * co * m.y) := by ring
      rw [this, ← sum.1, ← sum.2]
      linarith
    rw [eq_div_iff c0.ne']
    linarith
  have y0 : C.y * m.x - C.x * m.y = 0 := by
    -- u and w are mirrored at m
    have cr : (m.x * u.y - m.y * u.x) ^ 2 = s ^ 2 := by
      have : (m.x * u.y - m.y * u.x) ^ 2 = (m.x ^ 2 + m.y ^ 2) * (u.x ^ 2 + u.y ^ 2) - (m.x * u.x + m.y * u.y) ^ 2 := by ring
      rw [this, hm, hu, mu]
      linarith
    have e : C.x * u.x + C.y * u.y = (C.x * m.x + C.y * m.y) * (m.x * u.x + m.y * u.y) +
        (C.y * m.x - C.x * m.y) * (m.x * u.y - m.y * u.x) := by
      have : (C.x * m.x + C.y * m.y) * (m.x * u.x + m.y * u.y) + (C.y * m.x - C.x * m.y) * (m.x * u.y - m.y * u.x) =
        (m.x ^ 2 + m.y ^ 2) * (C.x * u.x + C.y * u.y) := by ring
      rw [this, hm, one_mul]
    rw [hCu, Cm, mu, div_mul_cancel₀ _ c0.ne'] at e
    have : (C.y * m.x - C.x * m.y) * (m.x * u.y - m.y * u.x) = 0 := by linarith
    rcases mul_eq_zero.mp this with h | h
    · exact h
    · rw [h] at cr
      nlinarith
  have Cx : C.x = m.x * (D / co) := by
    have : C.x * (m.x ^ 2 + m.y ^ 2) = m.x * (C.x * m.x + C.y * m.y) - m.y * (C.y * m.x - C.x * m.y) := by ring
    rw [hm, Cm, y0] at this
    linarith
  have Cy : C.y = m.y * (D / co) := by
    have : C.y * (m.x ^ 2 + m.y ^ 2) = m.y * (C.x * m.x + C.y * m.y) + m.x * (C.y * m.x - C.x * m.y) := by ring
    rw [hm, Cm, y0] at this
    linarith
  obtain ⟨L, hL⟩ : ∃ L, L = D / co := ⟨_, rfl⟩
  have hD : D = L * co := by rw [hL, div_mul_cancel₀ _ c0.ne']
  have L0 : 0 < L := by rw [hL]; positivity
  rw [← hL] at Cx Cy Cm
  have hLR : L * s = R := by
    have : (L * s) ^ 2 = R ^ 2 := by
      rw [← hR, Cx, Cy]
      have : (D * u.x - m.x * L) ^ 2 + (D * u.y - m.y * L) ^ 2 =
        D ^ 2 * (u.x ^ 2 + u.y ^ 2) - 2 * D * L * (m.x * u.x + m.y * u.y) + L ^ 2 * (m.x ^ 2 + m.y ^ 2) := by ring
      rw [this, hu, hm, mu, hD, mul_pow, show s ^ 2 = 1 - co ^ 2 by linarith]
      ring
    exact (sq_eq_sq₀ (by positivity) R0.le).mp this
  have hLs : R / s = L := by rw [← hLR, mul_div_cancel_right₀ _ s0.ne']
  rw [hLs] at k2 ⊢
  refine ⟨Cx, Cy, ?_⟩
  clear hR Cm y0 hCu hCw sum mw hw hu mu
  -- the point as a function of its distance from the corner
  obtain ⟨X, hX⟩ : ∃ X, X = P.x ^ 2 + P.y ^ 2 := ⟨_, rfl⟩
  have hPm : 2 * L * (P.x * m.x + P.y * m.y) = X + D ^ 2 := by
    rw [Cx, Cy] at hP
    have e : (P.x - m.x * L) ^ 2 + (P.y - m.y * L) ^ 2 = X - 2 * L * (P.x * m.x + P.y * m.y) + L ^ 2 * (m.x ^ 2 + m.y ^ 2) := by
      rw [hX]; ring
    rw [e, hm] at hP
    have : R ^ 2 = L ^ 2 - D ^ 2 := by
      rw [← hLR, hD, mul_pow, mul_pow, show s ^ 2 = 1 - co ^ 2 by linarith]; ring
    linarith
  have hf : (m.x * k - P.x) ^ 2 + (m.y * k - P.y) ^ 2 = X - k / L * (X + D ^ 2) + k ^ 2 := by
    have e : (m.x * k - P.x) ^ 2 + (m.y * k - P.y) ^ 2 = X - k * (2 * (P.x * m.x + P.y * m.y)) + k ^ 2 * (m.x ^ 2 + m.y ^ 2) := by
      rw [hX]; ring
    rw [e, hm, ← hPm]
    field_simp
  have hX1 : X ≤ D ^ 2 := by rw [hX]; exact hPD
  have hs1 : s ≤ 1 := (sq_le_one_iff₀ s0.le).mp (by linarith [sq_nonneg co])
  have hLR' : 0 ≤ L - R := by
    have : L - R = L * (1 - s) := by rw [← hLR]; ring
    rw [this]
    exact mul_nonneg L0.le (by linarith)
  have hX0 : (L - R) ^ 2 ≤ X := by
    have cs : (P.x * m.x + P.y * m.y) ^ 2 ≤ X := by
      rw [hX]
      have : (P.x * m.x + P.y * m.y) ^ 2 + (P.x * m.y - P.y * m.x) ^ 2 = (P.x ^ 2 + P.y ^ 2) * (m.x ^ 2 + m.y ^ 2) := by ring
      rw [hm, mul_one] at this
      linarith [sq_nonneg (P.x * m.y - P.y * m.x)]
    have hD2 : D ^ 2 = L ^ 2 - R ^ 2 := by
      rw [← hLR, hD, mul_pow, mul_pow, show s ^ 2 = 1 - co ^ 2 by linarith]; ring
    have h4 : (X + D ^ 2) ^ 2 ≤ 4 * L ^ 2 * X := by
      have := mul_le_mul_of_nonneg_left cs (by positivity : 0 ≤ 4 * L ^ 2)
      have e : (2 * L * (P.x * m.x + P.y * m.y)) ^ 2 = 4 * L ^ 2 * (P.x * m.x + P.y * m.y) ^ 2 := by ring
      rw [← hPm, e]
      exact this
    by_contra hcon
    push Not at hcon
    -- (X - (L-R)^2) (X - (L+R)^2) = (X + D^2)^2 - 4 L^2 X
    have e : (X - (L - R) ^ 2) * (X - (L + R) ^ 2) = (X + D ^ 2) ^ 2 - 4 * L ^ 2 * X := by rw [hD2]; ring
    have : 0 < (X - (L - R) ^ 2) * (X - (L + R) ^ 2) := mul_pos_of_neg_of_neg (by linarith) (by
      have : (L - R) ^ 2 + 4 * L * R = (L + R) ^ 2 := by ring
      have : 0 < L * R := mul_pos L0 R0
      linarith)
    linarith
  rw [hf]
  have f1 : inset ^ 2 ≤ D ^ 2 - k / L * (D ^ 2 + D ^ 2) + k ^ 2 := by
    have e : D ^ 2 - k / L * (D ^ 2 + D ^ 2) + k ^ 2 = (D - k * co) ^ 2 + (k * s) ^ 2 := by
      rw [mul_pow, show s ^ 2 = 1 - co ^ 2 by linarith, hD]
      field_simp
      ring
    rw [e]
    have : inset ^ 2 ≤ (k * s) ^ 2 := pow_le_pow_left₀ hi k1 2
    linarith [sq_nonneg (D - k * co)]
  have f0 : inset ^ 2 ≤ (L - R) ^ 2 - k / L * ((L - R) ^ 2 + D ^ 2) + k ^ 2 := by
    have e : (L - R) ^ 2 - k / L * ((L - R) ^ 2 + D ^ 2) + k ^ 2 = (k - (L - R)) ^ 2 := by
      have hD2 : D ^ 2 = L ^ 2 - R ^ 2 := by
        rw [← hLR, hD, mul_pow, mul_pow, show s ^ 2 = 1 - co ^ 2 by linarith]; ring
      rw [hD2]
      field_simp
      ring
    rw [e]
    exact pow_le_pow_left₀ hi (by linarith) 2
  rcases le_total 0 (1 - k / L) with h | h
  · have := mul_le_mul_of_nonneg_left hX0 h
    linarith
  · have := mul_le_mul_of_nonpos_left hX1 h
    linarith

/-- The same with the data of a corner arc. -/
theorem corner_far {R inset : ℝ} {a b c pos : Vec} (d : CornerData R inset a b c pos) (hi : 0 ≤ inset) {q : Quality}
    {a' c' : Vec} {pts : List Vec} (hr : 1 / 1000000 ≤ R) (hq : 0 < q.maxChordAngle) (h : cornerArc2D q R a' b c' = .ok pts)
    (hd : (SameWay b a a' ∧ SameWay b c c') ∨ (SameWay b c a' ∧ SameWay b a c')) :
    ∀ p ∈ pts, inset ^ 2 ≤ distSq2D pos p := by
  obtain ⟨u', w', C, D, D0, hu', hw', h1, h2, h3, h4, h5⟩ := C54_tangent hr hq h
  intro p hp
  obtain ⟨⟨-, hpC⟩, hpD⟩ := h5 p hp
  have head := (h5 _ (List.mem_of_mem_head? h1)).1.2
  have flat : ∀ {x : Vec} {e : Vec}, UnitOf e x.xy → e.z = 0 := by
    rintro x e ⟨-, k, hk, e1⟩
    have := congrArg Vec.z e1
    simp only [Vec.xy, Vec.mul_z] at this
    exact (mul_eq_zero.mp this.symm).resolve_right hk.ne'
  have same : ∀ {x x' e e' : Vec}, SameWay b x x' → UnitOf e (x - b).xy → UnitOf e' (x' - b).xy → e' = e := by
    rintro x x' e e' ⟨k, hk, e1⟩ g1 g2
    refine unitOf_unique g2 ⟨g1.1, ?_⟩
    obtain ⟨l, hl, e2⟩ := g1.2
    exact ⟨l * k, by positivity, by rw [e1, e2]; ext <;> simp [mul_assoc]⟩
  have uz := flat hu'
  have wz := flat hw'
  simp only [Vec.dot, Vec.sub_x, Vec.sub_y, Vec.sub_z, Vec.add_x, Vec.add_y, Vec.add_z, Vec.mul_x, Vec.mul_y, Vec.mul_z, Vec.xy,
    uz, wz] at h3 h4
  unfold distSq2D at hpC hpD head
  simp only [Vec.add_x, Vec.add_y, Vec.mul_x, Vec.mul_y, Vec.xy] at head
  obtain ⟨u1, -⟩ := unit_xy d.hu d.uz
  obtain ⟨w1, -⟩ := unit_xy d.hw d.wz
  have goal : ∀ {u w : Vec}, u' = u → w' = w → u.x ^ 2 + u.y ^ 2 = 1 → w.x ^ 2 + w.y ^ 2 = 1 →
      (u.x + w.x = 2 * d.co * d.m.x ∧ u.y + w.y = 2 * d.co * d.m.y) → d.m.x * u.x + d.m.y * u.y = d.co →
      d.m.x * w.x + d.m.y * w.y = d.co → inset ^ 2 ≤ distSq2D pos p := by
    rintro u w rfl rfl u1 w1 sm m1 m2
    have := (arc_far (u := u') (w := w') (m := d.m) (C := C - b) (P := p - b) (D := D) (R := R) (k := d.k) (inset := inset)
      d.s_pos d.co_pos d.sc d.m_unit u1 w1 sm m1 m2 D0 (by linarith)
      (by simp only [Vec.sub_x, Vec.sub_y]; linear_combination -h3 + D * u1) (by simp only [Vec.sub_x, Vec.sub_y]; linear_combination -h4 + D * w1)
      (by simp only [Vec.sub_x, Vec.sub_y]; linarith) (by simp only [Vec.sub_x, Vec.sub_y]; linarith)
      (by simp only [Vec.sub_x, Vec.sub_y]; linarith) hi d.k_s d.k_R).2.2
    unfold distSq2D
    rw [d.pos_x, d.pos_y]
    simp only [Vec.sub_x, Vec.sub_y] at this
    linarith
  rcases hd with ⟨g1, g2⟩ | ⟨g1, g2⟩
  · exact goal (same g1 d.hu hu') (same g2 d.hw hw') u1 w1 d.sum d.mu d.mw
  · exact goal (same g1 d.hw hu') (same g2 d.hu hw') w1 u1 ⟨by linarith [d.sum.1], by linarith [d.sum.2]⟩ d.mw d.mu

/-- **C85** A bumper in a rounded corner keeps its distance from all points of the corner arc, whatever the radius of the
corner is, and in whichever direction the arc leads. -/
theorem C85_arc {R inset : ℝ} {a b c pos : Vec} (hi : 0 ≤ inset) (h : cornerBumperPos R a b c inset = .ok pos) {q : Quality}
    {a' c' : Vec} {pts : List Vec} (hr : 1 / 1000000 ≤ R) (hq : 0 < q.maxChordAngle) (ha : cornerArc2D q R a' b c' = .ok pts)
    (hd : (SameWay b a a' ∧ SameWay b c c') ∨ (SameWay b c a' ∧ SameWay b a c')) :
    ∀ p ∈ pts, inset ^ 2 ≤ distSq2D pos p := by
  obtain ⟨d⟩ := cornerBumper_data h
  exact corner_far d hi hr hq ha hd

/-- **C85** The bumper is as far in the corner as possible: either the corner radius is not larger than the inset, and the bumper
touches both walls; or it touches the circle of the corner at its middle, between the bumper and the corner. -/
theorem C85_snug {R inset : ℝ} {a b c pos : Vec} (hi : 0 ≤ inset) (h : cornerBumperPos R a b c inset = .ok pos) (hR : 0 < R) :
    if R ≤ inset then (∃ t ≥ 0, distSq2D pos (between2D b a t) = inset ^ 2) ∧ ∃ t ≥ 0, distSq2D pos (between2D b c t) = inset ^ 2
    else ∃ center p : Vec, (∃ t ≥ 0, distSq2D center (between2D b a t) = R ^ 2) ∧ (∃ t ≥ 0, distSq2D center (between2D b c t) = R ^ 2) ∧
      (∀ t, R ^ 2 ≤ distSq2D center (between2D b a t)) ∧ (∀ t, R ^ 2 ≤ distSq2D center (between2D b c t)) ∧
      distSq2D center p = R ^ 2 ∧ distSq2D pos p = inset ^ 2 ∧ ∃ x y, 0 ≤ x ∧ x ≤ y ∧ y ≤ 1 ∧
        p.xy = between2D b center x ∧ pos.xy = between2D b center y := by
  obtain ⟨d⟩ := cornerBumper_data h
  have s0 := d.s_pos
  have c0 := d.co_pos
  have s1 : d.s ≤ 1 := (sq_le_one_iff₀ s0.le).mp (by linarith [sq_nonneg d.co, d.sc])
  obtain ⟨u1, l, hl, ux, uy⟩ := unit_xy d.hu d.uz
  obtain ⟨w1, l', hl', wx, wy⟩ := unit_xy d.hw d.wz
  simp only [Vec.sub_x, Vec.sub_y] at ux uy wx wy
  -- the foot of a point of the bisector
  have foot : ∀ {e v o : Vec} {l k : ℝ}, 0 < l → 0 ≤ k → v.x - b.x = e.x * l → v.y - b.y = e.y * l → e.x ^ 2 + e.y ^ 2 = 1 →
      d.m.x * e.x + d.m.y * e.y = d.co → o.x = b.x + d.m.x * k → o.y = b.y + d.m.y * k →
      (∃ t ≥ 0, distSq2D o (between2D b v t) = (k * d.s) ^ 2) ∧ ∀ t, (k * d.s) ^ 2 ≤ distSq2D o (between2D b v t) := by
    intro e v o l k hl hk vx vy e1 me ox oy
    have key : ∀ t, distSq2D o (between2D b v t) = (k * d.s) ^ 2 + (t * l - k * d.co) ^ 2 := by
      intro t
      unfold distSq2D between2D
      dsimp only
      rw [ox, oy, vx, vy]
      have : (b.x + d.m.x * k - (b.x + t * (e.x * l))) ^ 2 + (b.y + d.m.y * k - (b.y + t * (e.y * l))) ^ 2 =
        k ^ 2 * (d.m.x ^ 2 + d.m.y ^ 2) - 2 * k * (t * l) * (d.m.x * e.x + d.m.y * e.y) + (t * l) ^ 2 * (e.x ^ 2 + e.y ^ 2) := by ring
      rw [this, d.m_unit, me, e1, mul_pow k d.s, show d.s ^ 2 = 1 - d.co ^ 2 by linarith [d.sc]]
      ring
    refine ⟨⟨k * d.co / l, by positivity, ?_⟩, fun t => ?_⟩
    · rw [key, div_mul_cancel₀ _ hl.ne']
      ring
    · rw [key]
      linarith [sq_nonneg (t * l - k * d.co)]
  have kf : ∀ x : ℝ, (R / d.s - R) - (x / d.s - x) = (R - x) * (1 / d.s - 1) := by intro x; field_simp
  have inv : 0 ≤ 1 / d.s - 1 := by
    rw [sub_nonneg, le_div_iff₀ s0]
    linarith
  split_ifs with hc
  · have hk : d.k = inset / d.s := by
      rw [d.k_eq, kf, max_eq_left, add_zero]
      exact mul_nonpos_of_nonpos_of_nonneg (by linarith) inv
    have ks : d.k * d.s = inset := by rw [hk, div_mul_cancel₀ _ s0.ne']
    have k0 : 0 ≤ d.k := by rw [hk]; positivity
    rw [← ks]
    exact ⟨(foot hl k0 ux uy u1 d.mu d.pos_x d.pos_y).1, (foot hl' k0 wx wy w1 d.mw d.pos_x d.pos_y).1⟩
  · push Not at hc
    have hk : d.k = R / d.s - R + inset := by
      rw [d.k_eq, max_eq_right]
      · ring
      · rw [kf]
        exact mul_nonneg (by linarith) inv
    have Rs : R / d.s * d.s = R := div_mul_cancel₀ _ s0.ne'
    have RR : R ≤ R / d.s := by rw [le_div_iff₀ s0]; nlinarith
    have R0 : 0 < R / d.s := by positivity
    obtain ⟨o, ho⟩ : ∃ o : Vec, o = ⟨b.x + d.m.x * (R / d.s), b.y + d.m.y * (R / d.s), 0⟩ := ⟨_, rfl⟩
    have f1 := foot (o := o) hl R0.le ux uy u1 d.mu (by rw [ho]) (by rw [ho])
    have f2 := foot (o := o) hl' R0.le wx wy w1 d.mw (by rw [ho]) (by rw [ho])
    rw [Rs] at f1 f2
    refine ⟨o, ⟨b.x + d.m.x * (R / d.s - R), b.y + d.m.y * (R / d.s - R), 0⟩, f1.1, f2.1, f1.2, f2.2, ?_, ?_,
      (R / d.s - R) / (R / d.s), d.k / (R / d.s), ?_, ?_, ?_, ?_, ?_⟩
    · rw [ho]
      unfold distSq2D
      dsimp only
      have : (b.x + d.m.x * (R / d.s) - (b.x + d.m.x * (R / d.s - R))) ^ 2 + (b.y + d.m.y * (R / d.s) - (b.y + d.m.y * (R / d.s - R))) ^ 2 =
        R ^ 2 * (d.m.x ^ 2 + d.m.y ^ 2) := by ring
      rw [this, d.m_unit, mul_one]
    · unfold distSq2D
      rw [d.pos_x, d.pos_y, hk]
      dsimp only
      have : (b.x + d.m.x * (R / d.s - R + inset) - (b.x + d.m.x * (R / d.s - R))) ^ 2 + (b.y + d.m.y * (R / d.s - R + inset) - (b.y + d.m.y * (R / d.s - R))) ^ 2 =
        inset ^ 2 * (d.m.x ^ 2 + d.m.y ^ 2) := by ring
      rw [this, d.m_unit, mul_one]
    · exact div_nonneg (by linarith) R0.le
    · exact div_le_div_of_nonneg_right (by rw [hk]; linarith) R0.le
    · rw [div_le_one R0, hk]; linarith
    · rw [ho]
      ext
      · simp only [Vec.xy, between2D, add_sub_cancel_left]; field_simp
      · simp only [Vec.xy, between2D, add_sub_cancel_left]; field_simp
      · rfl
    · rw [ho]
      ext
      · simp only [Vec.xy, between2D, add_sub_cancel_left, d.pos_x]; field_simp
      · simp only [Vec.xy, between2D, add_sub_cancel_left, d.pos_y]; field_simp
      · rfl

/-- A point on a circle around `pos` keeps the rest of the distance. -/
theorem margin_of {pos p x : Vec} {r margin : ℝ} (hr : 0 ≤ r) (hm : 0 ≤ margin) (hp : distSq2D pos p = r ^ 2)
    (hx : (margin + r) ^ 2 ≤ distSq2D pos x) : margin ^ 2 ≤ distSq2D p x := by
  unfold distSq2D at *
  by_contra hcon
  push Not at hcon
  -- with u = p - pos and v = x - p: |u + v| ≥ margin + r, |u| = r, |v| < margin
  have e : (pos.x - x.x) ^ 2 + (pos.y - x.y) ^ 2 = ((pos.x - p.x) ^ 2 + (pos.y - p.y) ^ 2) + ((p.x - x.x) ^ 2 + (p.y - x.y) ^ 2) +
    2 * ((pos.x - p.x) * (p.x - x.x) + (pos.y - p.y) * (p.y - x.y)) := by ring
  have cs : ((pos.x - p.x) * (p.x - x.x) + (pos.y - p.y) * (p.y - x.y)) ^ 2 ≤
    ((pos.x - p.x) ^ 2 + (pos.y - p.y) ^ 2) * ((p.x - x.x) ^ 2 + (p.y - x.y) ^ 2) := by
    have : ((pos.x - p.x) ^ 2 + (pos.y - p.y) ^ 2) * ((p.x - x.x) ^ 2 + (p.y - x.y) ^ 2) =
      ((pos.x - p.x) * (p.x - x.x) + (pos.y - p.y) * (p.y - x.y)) ^ 2 + ((pos.x - p.x) * (p.y - x.y) - (pos.y - p.y) * (p.x - x.x)) ^ 2 := by ring
    rw [this]
    linarith [sq_nonneg ((pos.x - p.x) * (p.y - x.y) - (pos.y - p.y) * (p.x - x.x))]
  rw [hp] at cs e
  generalize (p.x - x.x) ^ 2 + (p.y - x.y) ^ 2 = v at *
  generalize (pos.x - p.x) * (p.x - x.x) + (pos.y - p.y) * (p.y - x.y) = d at *
  have h1 : r * margin < d := by nlinarith
  have h2 : (r * margin) ^ 2 < d ^ 2 := pow_lt_pow_left₀ h1 (by positivity) two_ne_zero
  have h3 : r ^ 2 * v ≤ r ^ 2 * margin ^ 2 := mul_le_mul_of_nonneg_left hcon.le (by positivity)
  nlinarith

/-- **C85** The whole bumper keeps the margin of the configuration from both walls, and from the rounded corner. -/
theorem C85_margin {cfg : KeyboardCfg} {bc : BumperCfg} {a b c a' c' : Vec} {bumper : Bumper} {pts : List Vec}
    (hq : SaneQuality cfg.quality) (hd : 1 ≤ bc.diameter) (hh : 1 / 1000 ≤ |bc.height|) (hm : 0 ≤ bc.margin)
    (hr : 1 / 1000000 ≤ cfg.outerCornerRadius)
    (h : cornerBumper cfg bc a b c (bc.margin + bc.diameter / 2) = .ok bumper)
    (ha : cornerArc2D cfg.quality cfg.outerCornerRadius a' b c' = .ok pts)
    (hw : (SameWay b a a' ∧ SameWay b c c') ∨ (SameWay b c a' ∧ SameWay b a c')) :
    ∀ p ∈ bumper.floorEdge, (∀ x ∈ pts, bc.margin ^ 2 ≤ distSq2D p x) ∧
      ∀ t, bc.margin ^ 2 ≤ distSq2D p (between2D b a t) ∧ bc.margin ^ 2 ≤ distSq2D p (between2D b c t) := by
  unfold cornerBumper at h
  obtain ⟨pos, h1, h2⟩ := bind_ok h
  obtain ⟨-, -, h3, -⟩ := C59_full _ _ _ _ _ hq hd hh h2
  intro p hp
  have hp' := (h3 p hp).1
  have r0 : 0 ≤ bc.diameter / 2 := by linarith
  have i0 : 0 ≤ bc.margin + bc.diameter / 2 := by linarith
  exact ⟨fun x hx => margin_of r0 hm hp' (C85_arc i0 h1 hr (by linarith [hq.angle]) ha hw x hx),
    fun t => ⟨margin_of r0 hm hp' (C85_walls i0 h1 t).1, margin_of r0 hm hp' (C85_walls i0 h1 t).2⟩⟩

/-- **C85** Both outer bumpers of a floor keep the margin of the configuration from the rounded corners of the floor's outline,
and from the lines of the walls. -/
theorem C85_floor {cfg : KeyboardCfg} {fp : FullPlan} {body : Body} {floor : Floor} {bc : BumperCfg} {b : FloorBumpers}
    (hb : Body.make cfg fp = .ok body) (hf : Floor.make cfg fp body = .ok floor) (hs : SaneFloor cfg)
    (hr : 1 / 1000000 ≤ cfg.outerCornerRadius) (hc : cfg.bumper = some bc) (hm : 0 ≤ bc.margin) (hB : floor.bumpers = some b)
    (w1 : SameWay fp.plan.points.pinkyORB fp.plan.points.alnumOLB fp.plan.points.alnumORB)
    (w2 : SameWay fp.plan.points.pinkyORF fp.plan.points.thumbORF fp.plan.points.thumbOLF) :
    (∀ p ∈ b.rf.floorEdge, (∀ x ∈ body.corners.ORBG, bc.margin ^ 2 ≤ distSq2D p x) ∧
      ∀ t, bc.margin ^ 2 ≤ distSq2D p (between2D fp.plan.points.pinkyORB fp.plan.points.alnumOLB t) ∧
        bc.margin ^ 2 ≤ distSq2D p (between2D fp.plan.points.pinkyORB fp.plan.points.pinkyORF t)) ∧
    (∀ p ∈ b.rb.floorEdge, (∀ x ∈ body.corners.ORFG, bc.margin ^ 2 ≤ distSq2D p x) ∧
      ∀ t, bc.margin ^ 2 ≤ distSq2D p (between2D fp.plan.points.pinkyORF fp.plan.points.pinkyORB t) ∧
        bc.margin ^ 2 ≤ distSq2D p (between2D fp.plan.points.pinkyORF fp.plan.points.thumbORF t)) := by
  have hbump := hs.bumper bc (by rw [hc]; rfl)
  have ⟨arcF, arcB⟩ : cornerArc2D cfg.quality cfg.outerCornerRadius fp.plan.points.thumbOLF fp.plan.points.pinkyORF fp.plan.points.pinkyORB =
      .ok body.corners.ORFG ∧ cornerArc2D cfg.quality cfg.outerCornerRadius fp.plan.points.pinkyORF fp.plan.points.pinkyORB
        fp.plan.points.alnumORB = .ok body.corners.ORBG := by
    unfold Body.make at hb
    obtain ⟨_, -, hb⟩ := bind_ok hb
    obtain ⟨_, -, hb⟩ := bind_ok hb
    obtain ⟨cs, hcs, hb⟩ := bind_ok hb
    obtain ⟨_, -, hb⟩ := bind_ok hb
    obtain ⟨_, -, hb⟩ := bind_ok hb
    obtain ⟨_, -, hb⟩ := bind_ok hb
    obtain ⟨_, -, hb⟩ := bind_ok hb
    obtain ⟨_, -, hb⟩ := bind_ok hb
    obtain ⟨_, -, hb⟩ := bind_ok hb
    obtain ⟨_, -, hb⟩ := bind_ok hb
    obtain rfl := Except.ok.inj hb
    clear hb hf hB
    dsimp only
    unfold bodyCorners at hcs
    obtain ⟨_, -, hcs⟩ := bind_ok hcs
    obtain ⟨_, -, hcs⟩ := bind_ok hcs
    obtain ⟨_, -, hcs⟩ := bind_ok hcs
    obtain ⟨_, -, hcs⟩ := bind_ok hcs
    obtain ⟨F, hF, hcs⟩ := bind_ok hcs
    obtain ⟨B, hB, hcs⟩ := bind_ok hcs
    repeat obtain ⟨_, -, hcs⟩ := bind_ok hcs
    obtain rfl := Except.ok.inj hcs
    exact ⟨hF, hB⟩
  have hfb : ∃ p0, floorBumpers cfg fp.plan.points p0 (some bc) = .ok (some b) := by
    unfold Floor.make at hf
    obtain ⟨_, -, hf⟩ := bind_ok hf
    obtain ⟨j, -, hf⟩ := bind_ok hf
    obtain ⟨⟨_, _⟩, -, hf⟩ := bind_ok hf
    obtain ⟨bs, hbs, hf⟩ := bind_ok hf
    repeat obtain ⟨_, -, hf⟩ := bind_ok hf
    obtain rfl := Except.ok.inj hf
    rw [hc] at hbs
    dsimp only at hB
    exact ⟨_, hB ▸ hbs⟩
  obtain ⟨p0, hfb⟩ := hfb
  unfold floorBumpers at hfb
  obtain ⟨rf, h1, hfb⟩ := bind_ok hfb
  obtain ⟨rb, h2, hfb⟩ := bind_ok hfb
  repeat obtain ⟨_, -, hfb⟩ := bind_ok hfb
  obtain rfl := Option.some.inj (Except.ok.inj hfb)
  dsimp only
  have same : ∀ x y : Vec, SameWay x y y := fun x y => ⟨1, one_pos, by ext <;> simp⟩
  exact ⟨C85_margin hs.quality hbump.1 hbump.2 hm hr h1 arcB (.inr ⟨same _ _, w1⟩),
    C85_margin hs.quality hbump.1 hbump.2 hm hr h2 arcF (.inr ⟨w2, same _ _⟩)⟩

/-- **C85** Any proper corner has a place for a bumper. -/
theorem C85_succeeds (R inset : ℝ) {a b c : Vec} (hl : left b a c ≠ 0) : ∃ pos, cornerBumperPos R a b c inset = .ok pos := by
  obtain ⟨u, w, e, h1, h2, h3, hs, h4⟩ := corner_dirs hl
  unfold cornerBumperPos pyDiv
  rw [h1]
  simp only [bind, Except.bind, h2, h3, hs, if_false, h4]
  exact ⟨_, rfl⟩

/-- A right angle with a corner radius of 10 and a bumper of 8.4 with a margin of 1: the hypotheses are met, and the
bumper moves inwards along the bisector. -/
example : (∃ pos, cornerBumperPos 10 ⟨20, 0, 0⟩ 0 ⟨0, 30, 0⟩ (1 + 84 / 10 / 2) = .ok pos) ∧
    SaneQuality ⟨1 / 100, Real.pi / 6⟩ ∧ (∃ pts, cornerArc2D ⟨1 / 100, Real.pi / 6⟩ 10 ⟨0, 50, 0⟩ 0 ⟨40, 0, 0⟩ = .ok pts) ∧
    SameWay 0 ⟨0, 30, 0⟩ ⟨0, 50, 0⟩ ∧ SameWay 0 ⟨20, 0, 0⟩ ⟨40, 0, 0⟩ := by
  have hpi := Real.pi_pos
  have hpi2 := Real.two_le_pi
  refine ⟨C85_succeeds _ _ ?_, ⟨by norm_num, by dsimp only; linarith, by dsimp only; linarith⟩, C54_succeeds _ _ _ _ _ (by dsimp only; linarith) (by norm_num) (by norm_num)
    (by norm_num) ?_, ⟨5 / 3, by norm_num, ?_⟩, ⟨2, by norm_num, ?_⟩⟩
  · norm_num [left]
  · norm_num [left]
  · ext <;> norm_num [Vec.xy]
  · ext <;> norm_num [Vec.xy]

end Chrumm.Part
