import Verif.Geo.Flat
import Verif.Props.Align

/-! C25-C30: lines, planes, segments, circles. -/

namespace Chrumm.Geo
open Spec Classical

theorem sqrt_eq_of_sq {a b : ℝ} (hb : 0 ≤ b) (h : a = b ^ 2) : Real.sqrt a = b := by
  rw [h, Real.sqrt_sq hb]

theorem normalized_unit {v u : Vec} (h : v.normalized = .ok u) : UnitOf u v := by
  by_cases hv : v = 0
  · rw [hv, Vec.normalized_zero] at h; cases h
  · obtain ⟨n, e1, e2, e3, e4⟩ := v.normalized_ok hv
    rw [e1] at h; cases h
    exact ⟨e3, _, e4, e2⟩

theorem line_make {p d : Vec} {l : Line} (h : Line.make p d = .ok l) :
    l.pos = p ∧ UnitOf l.dir d := by
  unfold Line.make at h
  rcases hn : d.normalized with e | n
  · rw [hn] at h; simp [bind, Except.bind] at h
  · rw [hn] at h
    simp only [bind, Except.bind, pure, Except.pure] at h
    cases h
    exact ⟨rfl, normalized_unit hn⟩

/-- A line direction can be replaced by its unit vector. -/
theorem onLine_unit {p d u x : Vec} (h : UnitOf u d) : OnLine p d x ↔ OnLine p u x := by
  obtain ⟨-, k, hk, rfl⟩ := h
  constructor
  · rintro ⟨t, rfl⟩; exact ⟨k * t, by ext <;> simp <;> ring⟩
  · rintro ⟨t, rfl⟩; exact ⟨t / k, by ext <;> simp <;> field_simp⟩

/-! ### C25 -/

theorem intersect_eq {l m : Line} (h1 : l.dir.dot l.dir = 1) (h2 : m.dir.dot m.dir = 1) :
    let d := 1 - (m.dir.dot l.dir) ^ 2
    let muA := ((l.pos - m.pos).dot m.dir * m.dir.dot l.dir - (l.pos - m.pos).dot l.dir) / d
    let muB := (l.pos - m.pos).dot m.dir + muA * m.dir.dot l.dir
    l.intersect m = if isZero d then .error .zeroDivision else
      .ok ((l.pos + l.dir * muA + (m.pos + m.dir * muB)) * (1 / 2 : ℝ)) := by
  dsimp only
  unfold Line.intersect
  simp only [h1, h2, mul_one]
  have e : (1 : ℝ) - m.dir.dot l.dir * m.dir.dot l.dir = 1 - m.dir.dot l.dir ^ 2 := by ring
  rw [e]
  by_cases hz : isZero (1 - m.dir.dot l.dir ^ 2)
  · rw [if_pos hz, if_pos hz]
  · rw [if_neg hz, if_neg hz]
    have hne : 1 - m.dir.dot l.dir ^ 2 ≠ 0 := by
      intro h0; apply hz; rw [h0]; simp [isZero]
    simp only [pyDiv, if_neg hne, bind, Except.bind, one_ne_zero, if_false, div_one, Vec.div,
      two_ne_zero]
    congr 1
    ext <;> simp <;> ring

private theorem cross_sq {a b : Vec} (ha : a.dot a = 1) (hb : b.dot b = 1) :
    (a.cross b).dot (a.cross b) = 1 - (b.dot a) ^ 2 := by
  simp only [Vec.dot, Vec.cross] at *
  linear_combination (b.x*b.x + b.y*b.y + b.z*b.z) * ha + hb

/-- **C25** `intersect` returns the midpoint of a shortest connection between the lines. -/
theorem C25_midpoint (p1 d1 p2 d2 : Vec) (l m : Line) (r : Vec) (h1 : Line.make p1 d1 = .ok l)
    (h2 : Line.make p2 d2 = .ok m) (h : l.intersect m = .ok r) :
    ∃ A B, OnLine p1 d1 A ∧ OnLine p2 d2 B ∧ r = (A + B) * (1 / 2 : ℝ) ∧
      ∀ P Q, OnLine p1 d1 P → OnLine p2 d2 Q → distSq A B ≤ distSq P Q := by
  obtain ⟨rfl, u1⟩ := line_make h1
  obtain ⟨rfl, u2⟩ := line_make h2
  have e := intersect_eq u1.1 u2.1
  dsimp only at e
  rw [h] at e
  by_cases hz : isZero (1 - m.dir.dot l.dir ^ 2)
  · rw [if_pos hz] at e; cases e
  rw [if_neg hz] at e
  have hne : 1 - m.dir.dot l.dir ^ 2 ≠ 0 := by
    intro h0; apply hz; rw [h0]; simp [isZero]
  have hmu : ((l.pos - m.pos).dot m.dir * m.dir.dot l.dir - (l.pos - m.pos).dot l.dir) /
      (1 - m.dir.dot l.dir ^ 2) * (1 - m.dir.dot l.dir ^ 2) =
      (l.pos - m.pos).dot m.dir * m.dir.dot l.dir - (l.pos - m.pos).dot l.dir := by
    field_simp
  generalize ((l.pos - m.pos).dot m.dir * m.dir.dot l.dir - (l.pos - m.pos).dot l.dir) /
      (1 - m.dir.dot l.dir ^ 2) = muA at *
  have hmB : ∃ muB, muB = (l.pos - m.pos).dot m.dir + muA * m.dir.dot l.dir := ⟨_, rfl⟩
  obtain ⟨muB, hmB⟩ := hmB
  rw [← hmB] at e
  refine ⟨l.pos + l.dir * muA, m.pos + m.dir * muB, (onLine_unit u1).mpr ⟨_, rfl⟩,
    (onLine_unit u2).mpr ⟨_, rfl⟩, Except.ok.inj e, ?_⟩
  intro P Q hP hQ
  rw [onLine_unit u1] at hP
  rw [onLine_unit u2] at hQ
  obtain ⟨s, rfl⟩ := hP
  obtain ⟨t, rfl⟩ := hQ
  have a1 := u1.1
  have a2 := u2.1
  simp only [Vec.dot, Vec.sub_x, Vec.sub_y, Vec.sub_z] at a1 a2 hmu hmB
  simp only [distSq, Vec.add_x, Vec.add_y, Vec.add_z, Vec.mul_x, Vec.mul_y, Vec.mul_z]
  -- the connection w is orthogonal to both directions
  obtain ⟨wx, hwx⟩ : ∃ w, w = l.pos.x + l.dir.x * muA - (m.pos.x + m.dir.x * muB) := ⟨_, rfl⟩
  obtain ⟨wy, hwy⟩ : ∃ w, w = l.pos.y + l.dir.y * muA - (m.pos.y + m.dir.y * muB) := ⟨_, rfl⟩
  obtain ⟨wz, hwz⟩ : ∃ w, w = l.pos.z + l.dir.z * muA - (m.pos.z + m.dir.z * muB) := ⟨_, rfl⟩
  have o2 : wx * m.dir.x + wy * m.dir.y + wz * m.dir.z = 0 := by
    rw [hwx, hwy, hwz]; linear_combination -hmB - muB * a2
  have o1 : wx * l.dir.x + wy * l.dir.y + wz * l.dir.z = 0 := by
    rw [hwx, hwy, hwz]
    linear_combination -(m.dir.x * l.dir.x + m.dir.y * l.dir.y + m.dir.z * l.dir.z) * hmB + hmu + muA * a1
  rw [← hwx, ← hwy, ← hwz]
  have ex : l.pos.x + l.dir.x * s - (m.pos.x + m.dir.x * t) =
    wx + (l.dir.x * (s - muA) - m.dir.x * (t - muB)) := by rw [hwx]; ring
  have ey : l.pos.y + l.dir.y * s - (m.pos.y + m.dir.y * t) =
    wy + (l.dir.y * (s - muA) - m.dir.y * (t - muB)) := by rw [hwy]; ring
  have ez : l.pos.z + l.dir.z * s - (m.pos.z + m.dir.z * t) =
    wz + (l.dir.z * (s - muA) - m.dir.z * (t - muB)) := by rw [hwz]; ring
  rw [ex, ey, ez]
  have key : (wx + (l.dir.x * (s - muA) - m.dir.x * (t - muB))) ^ 2 +
      (wy + (l.dir.y * (s - muA) - m.dir.y * (t - muB))) ^ 2 +
      (wz + (l.dir.z * (s - muA) - m.dir.z * (t - muB))) ^ 2 = wx ^ 2 + wy ^ 2 + wz ^ 2 +
      ((l.dir.x * (s - muA) - m.dir.x * (t - muB)) ^ 2 +
       (l.dir.y * (s - muA) - m.dir.y * (t - muB)) ^ 2 +
       (l.dir.z * (s - muA) - m.dir.z * (t - muB)) ^ 2) := by
    linear_combination 2 * (s - muA) * o1 - 2 * (t - muB) * o2
  rw [key]
  have := sq_nonneg (l.dir.x * (s - muA) - m.dir.x * (t - muB))
  have := sq_nonneg (l.dir.y * (s - muA) - m.dir.y * (t - muB))
  have := sq_nonneg (l.dir.z * (s - muA) - m.dir.z * (t - muB))
  linarith

/-- **C25** It raises exactly when the cross product of the unit directions is (nearly) zero: its
squared length, the squared sine of the angle, is below 1e-6. -/
theorem C25_raises_iff (p1 d1 p2 d2 : Vec) (l m : Line) (h1 : Line.make p1 d1 = .ok l)
    (h2 : Line.make p2 d2 = .ok m) (e : Exn) :
    l.intersect m = .error e ↔
      (∀ a b, UnitOf a d1 → UnitOf b d2 → (a.cross b).dot (a.cross b) < 1e-6) ∧ e = .zeroDivision := by
  obtain ⟨rfl, u1⟩ := line_make h1
  obtain ⟨rfl, u2⟩ := line_make h2
  have hi := intersect_eq u1.1 u2.1
  dsimp only at hi
  have hc := cross_sq u1.1 u2.1
  have hnn : 0 ≤ 1 - m.dir.dot l.dir ^ 2 := by
    rw [← hc]; exact Vec.magSquared_nonneg _
  have hz : isZero (1 - m.dir.dot l.dir ^ 2) ↔
      ∀ a b, UnitOf a d1 → UnitOf b d2 → (a.cross b).dot (a.cross b) < 1e-6 := by
    unfold isZero
    rw [abs_of_nonneg hnn, ← hc]
    constructor
    · intro h a b ha hb
      rw [ha.unique u1, hb.unique u2]; norm_num at h ⊢; exact h
    · intro h
      have := h _ _ u1 u2
      norm_num at this ⊢; exact this
  rw [hi, ← hz]
  by_cases hzz : isZero (1 - m.dir.dot l.dir ^ 2)
  · simp [hzz, eq_comm]
  · simp [hzz]

/-- **C25** When the lines meet, the result is the common point. -/
theorem C25_common_point (p1 d1 p2 d2 : Vec) (l m : Line) (r x : Vec) (h1 : Line.make p1 d1 = .ok l)
    (h2 : Line.make p2 d2 = .ok m) (h : l.intersect m = .ok r) (hx1 : OnLine p1 d1 x)
    (hx2 : OnLine p2 d2 x) : r = x := by
  obtain ⟨A, B, hA, hB, hr, hmin⟩ := C25_midpoint p1 d1 p2 d2 l m r h1 h2 h
  have h0 := hmin x x hx1 hx2
  have hx0 : distSq x x = 0 := by simp [distSq]
  rw [hx0] at h0
  have hAB : A = B := by
    simp only [distSq] at h0
    have := sq_nonneg (A.x - B.x)
    have := sq_nonneg (A.y - B.y)
    have := sq_nonneg (A.z - B.z)
    ext
    · have : (A.x - B.x) ^ 2 = 0 := by linarith
      have := pow_eq_zero_iff (two_ne_zero) |>.mp this; linarith
    · have : (A.y - B.y) ^ 2 = 0 := by linarith
      have := pow_eq_zero_iff (two_ne_zero) |>.mp this; linarith
    · have : (A.z - B.z) ^ 2 = 0 := by linarith
      have := pow_eq_zero_iff (two_ne_zero) |>.mp this; linarith
  subst hAB
  have hrA : r = A := by rw [hr]; ext <;> simp <;> ring
  rw [hrA]
  -- two common points would make the lines parallel
  obtain ⟨hp1, u1⟩ := line_make h1
  obtain ⟨hp2, u2⟩ := line_make h2
  by_contra hne
  have hno : ¬ ∀ a b, UnitOf a d1 → UnitOf b d2 → (a.cross b).dot (a.cross b) < 1e-6 := by
    intro hall
    have := (C25_raises_iff p1 d1 p2 d2 l m h1 h2 .zeroDivision).mpr ⟨hall, rfl⟩
    rw [h] at this; cases this
  apply hno
  intro a b ha hb
  rw [onLine_unit ha] at hA hx1
  rw [onLine_unit hb] at hB hx2
  obtain ⟨s, hs⟩ := hA
  obtain ⟨s', hs'⟩ := hx1
  obtain ⟨t, ht⟩ := hB
  obtain ⟨t', ht'⟩ := hx2
  have hss : s - s' ≠ 0 := by
    intro e0; apply hne
    have : s = s' := by linarith
    rw [hs, hs', this]
  have ex : a.x * (s - s') = b.x * (t - t') := by
    have e1 := congrArg Vec.x (hs.symm.trans ht); have e2 := congrArg Vec.x (hs'.symm.trans ht')
    simp only [Vec.add_x, Vec.mul_x] at e1 e2; linarith
  have ey : a.y * (s - s') = b.y * (t - t') := by
    have e1 := congrArg Vec.y (hs.symm.trans ht); have e2 := congrArg Vec.y (hs'.symm.trans ht')
    simp only [Vec.add_y, Vec.mul_y] at e1 e2; linarith
  have ez : a.z * (s - s') = b.z * (t - t') := by
    have e1 := congrArg Vec.z (hs.symm.trans ht); have e2 := congrArg Vec.z (hs'.symm.trans ht')
    simp only [Vec.add_z, Vec.mul_z] at e1 e2; linarith
  have c1 : (a.cross b).x = 0 := by
    apply mul_left_cancel₀ hss; simp only [Vec.cross]; linear_combination b.z * ey - b.y * ez
  have c2 : (a.cross b).y = 0 := by
    apply mul_left_cancel₀ hss; simp only [Vec.cross]; linear_combination b.x * ez - b.z * ex
  have c3 : (a.cross b).z = 0 := by
    apply mul_left_cancel₀ hss; simp only [Vec.cross]; linear_combination b.y * ex - b.x * ey
  simp only [Vec.dot, c1, c2, c3]
  norm_num

/-- The x axis and the vertical line through (1, 2, 0). -/
example : ∃ l m r, Line.make ⟨0,0,0⟩ ⟨2,0,0⟩ = .ok l ∧ Line.make ⟨1,2,0⟩ ⟨0,3,0⟩ = .ok m ∧
    l.intersect m = .ok r ∧ r = ⟨1, 0, 0⟩ := by
  have e1 : Line.make ⟨0,0,0⟩ ⟨2,0,0⟩ = .ok ⟨⟨0,0,0⟩, ⟨1,0,0⟩⟩ := by
    have u : UnitOf ⟨1,0,0⟩ ⟨2,0,0⟩ := ⟨by norm_num [Vec.dot], 2, two_pos, by ext <;> simp⟩
    simp [Line.make, u.normalized, bind, Except.bind, pure, Except.pure]
  have e2 : Line.make ⟨1,2,0⟩ ⟨0,3,0⟩ = .ok ⟨⟨1,2,0⟩, ⟨0,1,0⟩⟩ := by
    have u : UnitOf ⟨0,1,0⟩ ⟨0,3,0⟩ := ⟨by norm_num [Vec.dot], 3, by norm_num, by ext <;> simp⟩
    simp [Line.make, u.normalized, bind, Except.bind, pure, Except.pure]
  refine ⟨_, _, _, e1, e2, ?_, rfl⟩
  have := intersect_eq (l := ⟨⟨0,0,0⟩, ⟨1,0,0⟩⟩) (m := ⟨⟨1,2,0⟩, ⟨0,1,0⟩⟩)
    (by norm_num [Vec.dot]) (by norm_num [Vec.dot])
  dsimp only at this
  rw [this, if_neg (by norm_num [isZero, Vec.dot])]
  congr 1
  ext <;> norm_num [Vec.dot]

/-! ### C26 -/

/-- **C26** `distance` is the minimum distance to the points of the line. -/
theorem C26_distance (p d : Vec) (l : Line) (v : Vec) (h : Line.make p d = .ok l) :
    (∀ x, OnLine p d x → l.distance v ≤ Real.sqrt (distSq x v)) ∧
      ∃ x, OnLine p d x ∧ l.distance v = Real.sqrt (distSq x v) := by
  obtain ⟨rfl, u⟩ := line_make h
  have e : ∀ x : Vec, (x - v).magnitude = Real.sqrt (distSq x v) := by
    intro x; unfold Vec.magnitude distSq; congr 1; simp only [Vec.sub_x, Vec.sub_y, Vec.sub_z]; ring
  have hd : l.distance v = Real.sqrt (distSq (l.pos + l.dir * l.dir.dot (v - l.pos)) v) := e _
  refine ⟨?_, _, (onLine_unit u).mpr ⟨_, rfl⟩, hd⟩
  intro x hx
  rw [hd]
  apply Real.sqrt_le_sqrt
  rw [onLine_unit u] at hx
  obtain ⟨t, rfl⟩ := hx
  have hu := u.1
  simp only [Vec.dot] at hu
  have key : distSq (l.pos + l.dir * t) v = distSq (l.pos + l.dir * l.dir.dot (v - l.pos)) v +
      (t - l.dir.dot (v - l.pos)) ^ 2 := by
    simp only [distSq, Vec.dot, Vec.add_x, Vec.add_y, Vec.add_z, Vec.mul_x, Vec.mul_y, Vec.mul_z,
      Vec.sub_x, Vec.sub_y, Vec.sub_z]
    generalize hg : l.dir.x * (v.x - l.pos.x) + l.dir.y * (v.y - l.pos.y) + l.dir.z * (v.z - l.pos.z) = g
    linear_combination (t ^ 2 - g ^ 2) * hu - 2 * (t - g) * hg
  rw [key]
  nlinarith [sq_nonneg (t - l.dir.dot (v - l.pos))]

theorem normalized2D_ok {d u : Vec} (h : d.normalized2D = .ok u) :
    0 < d.magnitude2D ∧ u.x * d.magnitude2D = d.x ∧ u.y * d.magnitude2D = d.y ∧ u.z = 0 ∧
      u.x ^ 2 + u.y ^ 2 = 1 := by
  unfold Vec.normalized2D at h
  split at h
  · cases h
  · rename_i hne
    have hp : 0 < d.magnitude2D := lt_of_le_of_ne (Real.sqrt_nonneg _) (Ne.symm hne)
    have hsq : d.magnitude2D * d.magnitude2D = d.x * d.x + d.y * d.y :=
      Real.mul_self_sqrt (by nlinarith [mul_self_nonneg d.x, mul_self_nonneg d.y])
    cases h
    refine ⟨hp, ?_, ?_, rfl, ?_⟩
    · field_simp
    · field_simp
    · field_simp; linarith

/-- **C26** `distance2D` is positive exactly on the right hand (clockwise) side of the line, negative
on the left, and its absolute value is the minimum distance in the xy plane; it raises exactly for a
line parallel to the z axis. -/
theorem C26_distance2D (p d : Vec) (l : Line) (v : Vec) (h : Line.make p d = .ok l) :
    (∀ e, l.distance2D v = .error e ↔ (d.x = 0 ∧ d.y = 0) ∧ e = .zeroDivision) ∧
    ∀ r, l.distance2D v = .ok r →
      (0 < r ↔ d.x * (v.y - p.y) - d.y * (v.x - p.x) < 0) ∧
      (r < 0 ↔ 0 < d.x * (v.y - p.y) - d.y * (v.x - p.x)) ∧
      (∀ x, OnLine p d x → |r| ≤ Real.sqrt (distSq2D x v)) ∧
      ∃ x, OnLine p d x ∧ |r| = Real.sqrt (distSq2D x v) := by
  obtain ⟨rfl, u⟩ := line_make h
  obtain ⟨k, hk, hkd⟩ := u.2
  have dx : d.x = l.dir.x * k := by rw [hkd]; rfl
  have dy : d.y = l.dir.y * k := by rw [hkd]; rfl
  have hm0 : l.dir.magnitude2D = 0 ↔ d.x = 0 ∧ d.y = 0 := by
    unfold Vec.magnitude2D
    rw [Real.sqrt_eq_zero (by nlinarith [mul_self_nonneg l.dir.x, mul_self_nonneg l.dir.y]), dx, dy]
    constructor
    · intro h0
      have hx : l.dir.x = 0 := by nlinarith [mul_self_nonneg l.dir.x, mul_self_nonneg l.dir.y]
      have hy : l.dir.y = 0 := by nlinarith [mul_self_nonneg l.dir.x, mul_self_nonneg l.dir.y]
      simp [hx, hy]
    · rintro ⟨hx, hy⟩
      have hx := (mul_eq_zero.mp hx).resolve_right hk.ne'
      have hy := (mul_eq_zero.mp hy).resolve_right hk.ne'
      simp [hx, hy]
  refine ⟨?_, ?_⟩
  · intro e
    unfold Line.distance2D Vec.normalized2D
    by_cases h0 : l.dir.magnitude2D = 0
    · rw [if_pos h0]; simp [bind, Except.bind, hm0.mp h0, eq_comm]
    · rw [if_neg h0]
      simp only [bind, Except.bind, pure, Except.pure, reduceCtorEq, false_iff, not_and]
      intro h'; exact absurd (hm0.mpr h') h0
  · intro r hr
    unfold Line.distance2D at hr
    rcases hn : l.dir.normalized2D with e | w
    · rw [hn] at hr; simp [bind, Except.bind] at hr
    rw [hn] at hr
    simp only [bind, Except.bind, pure, Except.pure] at hr
    obtain ⟨hp, wx, wy, -, w1⟩ := normalized2D_ok hn
    generalize l.dir.magnitude2D = g at *
    have hr : r = w.x * (l.pos.y - v.y) - w.y * (l.pos.x - v.x) := (Except.ok.inj hr).symm
    have hgk : 0 < g * k := mul_pos hp hk
    have hside : d.x * (v.y - l.pos.y) - d.y * (v.x - l.pos.x) = -(r * (g * k)) := by
      rw [dx, dy, ← wx, ← wy, hr]; ring
    refine ⟨?_, ?_, ?_, ?_⟩
    · rw [hside, neg_lt_zero, mul_pos_iff_of_pos_right hgk]
    · rw [hside, neg_pos]
      constructor
      · intro h; exact mul_neg_of_neg_of_pos h hgk
      · intro h; by_contra hc; push Not at hc; nlinarith [mul_nonneg hc hgk.le]
    · intro x hx
      rw [← Real.sqrt_sq_eq_abs]
      apply Real.sqrt_le_sqrt
      obtain ⟨t, rfl⟩ := hx
      have key : distSq2D (l.pos + d * t) v = r ^ 2 +
          (w.x * (l.pos.x - v.x) + w.y * (l.pos.y - v.y) + t * (g * k)) ^ 2 := by
        simp only [distSq2D, Vec.add_x, Vec.add_y, Vec.mul_x, Vec.mul_y]
        rw [dx, dy, ← wx, ← wy, hr]
        linear_combination (-(l.pos.x - v.x) ^ 2 - (l.pos.y - v.y) ^ 2 -
          2 * t * (g * k) * (w.x * (l.pos.x - v.x) + w.y * (l.pos.y - v.y)) * 0) * w1 +
          (t * (g * k)) ^ 2 * w1
      rw [key]
      nlinarith [sq_nonneg (w.x * (l.pos.x - v.x) + w.y * (l.pos.y - v.y) + t * (g * k))]
    · refine ⟨l.pos + d * (-(w.x * (l.pos.x - v.x) + w.y * (l.pos.y - v.y)) / (g * k)), ⟨_, rfl⟩, ?_⟩
      rw [← Real.sqrt_sq_eq_abs]
      congr 1
      simp only [distSq2D, Vec.add_x, Vec.add_y, Vec.mul_x, Vec.mul_y]
      rw [dx, dy, ← wx, ← wy]
      have e1 : ∀ q : ℝ, w.x * g * k * (-(w.x * (l.pos.x - v.x) + w.y * (l.pos.y - v.y)) / (g * k)) =
          -w.x * (w.x * (l.pos.x - v.x) + w.y * (l.pos.y - v.y)) := by intro _; field_simp
      have e2 : ∀ q : ℝ, w.y * g * k * (-(w.x * (l.pos.x - v.x) + w.y * (l.pos.y - v.y)) / (g * k)) =
          -w.y * (w.x * (l.pos.x - v.x) + w.y * (l.pos.y - v.y)) := by intro _; field_simp
      rw [e1 0, e2 0, hr]
      linear_combination ((l.pos.x - v.x) ^ 2 + (l.pos.y - v.y) ^ 2 -
        (w.x * (l.pos.x - v.x) + w.y * (l.pos.y - v.y)) ^ 2) * w1

end Chrumm.Geo
