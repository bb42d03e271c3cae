import Verif.Props.Flat

/-! C27-C30: planes, segments, circles. -/

namespace Chrumm.Geo
open Spec Classical

theorem plane_make {p n : Vec} {l : Plane} (h : Plane.make p n = .ok l) :
    l.pos = p ∧ UnitOf l.normal n := by
  unfold Plane.make at h
  rcases hn : n.normalized with e | u
  · rw [hn] at h; simp [bind, Except.bind] at h
  · rw [hn] at h
    simp only [bind, Except.bind, pure, Except.pure] at h
    cases h
    exact ⟨rfl, normalized_unit hn⟩

theorem onPlane_unit {p n u x : Vec} (h : UnitOf u n) : OnPlane p n x ↔ OnPlane p u x := by
  obtain ⟨-, k, hk, rfl⟩ := h
  unfold OnPlane
  have : (x - p).dot (u * k) = (x - p).dot u * k := by simp only [Vec.dot, Vec.mul_x, Vec.mul_y, Vec.mul_z]; ring
  rw [this, mul_eq_zero]
  exact ⟨fun h => h.resolve_right hk.ne', Or.inl⟩

theorem isZero_iff (r : ℝ) : isZero r ↔ |r| < 1e-6 := by
  unfold isZero; norm_num

theorem ne_of_not_isZero {r : ℝ} (h : ¬ isZero r) : r ≠ 0 := by
  rintro rfl; apply h; simp [isZero]

/-! ### C27 -/

/-- **C27** The intersection of three planes lies on each of them and is their only common point; it
raises exactly when the unit normals are nearly dependent. -/
theorem C27_three_planes (p1 n1 p2 n2 p3 n3 : Vec) (a b c : Plane) (h1 : Plane.make p1 n1 = .ok a)
    (h2 : Plane.make p2 n2 = .ok b) (h3 : Plane.make p3 n3 = .ok c) :
    (∀ e, a.intersectPlanes b c = .error e ↔
      (∀ u v w, UnitOf u n1 → UnitOf v n2 → UnitOf w n3 → |det3 u v w| < 1e-6) ∧ e = .zeroDivision) ∧
    ∀ r, a.intersectPlanes b c = .ok r →
      ∀ x, (OnPlane p1 n1 x ∧ OnPlane p2 n2 x ∧ OnPlane p3 n3 x) ↔ x = r := by
  obtain ⟨rfl, u1⟩ := plane_make h1
  obtain ⟨rfl, u2⟩ := plane_make h2
  obtain ⟨rfl, u3⟩ := plane_make h3
  have hd : b.normal.dot (c.normal.cross a.normal) = det3 a.normal b.normal c.normal := by
    simp only [det3, Vec.dot, Vec.cross]; ring
  have hz : isZero (b.normal.dot (c.normal.cross a.normal)) ↔
      ∀ u v w, UnitOf u n1 → UnitOf v n2 → UnitOf w n3 → |det3 u v w| < 1e-6 := by
    rw [isZero_iff, hd]
    constructor
    · intro h u v w hu hv hw
      rw [hu.unique u1, hv.unique u2, hw.unique u3]; exact h
    · intro h; exact h _ _ _ u1 u2 u3
  unfold Plane.intersectPlanes
  dsimp only
  refine ⟨?_, ?_⟩
  · intro e
    rw [← hz]
    by_cases hzz : isZero (b.normal.dot (c.normal.cross a.normal))
    · simp [hzz, eq_comm]
    · simp [hzz, Vec.div, ne_of_not_isZero hzz]
  · intro r hr x
    by_cases hzz : isZero (b.normal.dot (c.normal.cross a.normal))
    · simp [hzz] at hr
    have hne := ne_of_not_isZero hzz
    rw [if_neg hzz, Vec.div, if_neg hne] at hr
    cases hr
    rw [onPlane_unit u1, onPlane_unit u2, onPlane_unit u3]
    generalize hD : b.normal.dot (c.normal.cross a.normal) = D at *
    simp only [OnPlane, Vec.dot, Vec.cross, Vec.sub_x, Vec.sub_y, Vec.sub_z, Vec.add_x, Vec.add_y,
      Vec.add_z, Vec.mul_x, Vec.mul_y, Vec.mul_z] at *
    constructor
    · rintro ⟨e1, e2, e3⟩
      ext
      · rw [eq_div_iff hne, ← hD]
        linear_combination (b.normal.y * c.normal.z - b.normal.z * c.normal.y) * e1 +
          (c.normal.y * a.normal.z - c.normal.z * a.normal.y) * e2 +
          (a.normal.y * b.normal.z - a.normal.z * b.normal.y) * e3
      · rw [eq_div_iff hne, ← hD]
        linear_combination (b.normal.z * c.normal.x - b.normal.x * c.normal.z) * e1 +
          (c.normal.z * a.normal.x - c.normal.x * a.normal.z) * e2 +
          (a.normal.z * b.normal.x - a.normal.x * b.normal.z) * e3
      · rw [eq_div_iff hne, ← hD]
        linear_combination (b.normal.x * c.normal.y - b.normal.y * c.normal.x) * e1 +
          (c.normal.x * a.normal.y - c.normal.y * a.normal.x) * e2 +
          (a.normal.x * b.normal.y - a.normal.y * b.normal.x) * e3
    · intro hx
      have hx1 := congrArg Vec.x hx
      have hx2 := congrArg Vec.y hx
      have hx3 := congrArg Vec.z hx
      dsimp only at hx1 hx2 hx3
      rw [eq_div_iff hne] at hx1 hx2 hx3
      refine ⟨?_, ?_, ?_⟩ <;> apply mul_right_cancel₀ hne <;> rw [zero_mul]
      · linear_combination a.normal.x * hx1 + a.normal.y * hx2 + a.normal.z * hx3 +
          (a.pos.x * a.normal.x + a.pos.y * a.normal.y + a.pos.z * a.normal.z) * hD
      · linear_combination b.normal.x * hx1 + b.normal.y * hx2 + b.normal.z * hx3 +
          (b.pos.x * b.normal.x + b.pos.y * b.normal.y + b.pos.z * b.normal.z) * hD
      · linear_combination c.normal.x * hx1 + c.normal.y * hx2 + c.normal.z * hx3 +
          (c.pos.x * c.normal.x + c.pos.y * c.normal.y + c.pos.z * c.normal.z) * hD

private theorem intersectLine_on {p : Plane} {l : Line} (hne : p.normal.dot l.dir ≠ 0) (x : Vec) :
    (OnLine l.pos l.dir x ∧ OnPlane p.pos p.normal x) ↔
      x = l.pos + l.dir * (p.normal.dot (p.pos - l.pos) / p.normal.dot l.dir) := by
  constructor
  · rintro ⟨⟨t, rfl⟩, h⟩
    have : t = p.normal.dot (p.pos - l.pos) / p.normal.dot l.dir := by
      rw [eq_div_iff hne]
      simp only [OnPlane, Vec.dot, Vec.sub_x, Vec.sub_y, Vec.sub_z, Vec.add_x, Vec.add_y, Vec.add_z,
        Vec.mul_x, Vec.mul_y, Vec.mul_z] at h ⊢
      linear_combination h
    rw [this]
  · rintro rfl
    refine ⟨⟨_, rfl⟩, ?_⟩
    have h : p.normal.dot (p.pos - l.pos) / p.normal.dot l.dir * p.normal.dot l.dir =
      p.normal.dot (p.pos - l.pos) := by field_simp
    generalize p.normal.dot (p.pos - l.pos) / p.normal.dot l.dir = k at *
    simp only [OnPlane, Vec.dot, Vec.sub_x, Vec.sub_y, Vec.sub_z, Vec.add_x, Vec.add_y, Vec.add_z,
        Vec.mul_x, Vec.mul_y, Vec.mul_z] at h ⊢
    linear_combination h

/-- **C27** The intersection of a plane and a line is their only common point; it raises exactly when
the sine of the angle between them is nearly zero. -/
theorem C27_plane_line (p1 n1 p2 d2 : Vec) (a : Plane) (l : Line) (h1 : Plane.make p1 n1 = .ok a)
    (h2 : Line.make p2 d2 = .ok l) :
    (∀ e, a.intersectLine l = .error e ↔
      (∀ u v, UnitOf u n1 → UnitOf v d2 → |u.dot v| < 1e-6) ∧ e = .zeroDivision) ∧
    ∀ r, a.intersectLine l = .ok r → ∀ x, (OnPlane p1 n1 x ∧ OnLine p2 d2 x) ↔ x = r := by
  obtain ⟨rfl, u1⟩ := plane_make h1
  obtain ⟨rfl, u2⟩ := line_make h2
  have hz : isZero (a.normal.dot l.dir) ↔
      ∀ u v, UnitOf u n1 → UnitOf v d2 → |u.dot v| < 1e-6 := by
    rw [isZero_iff]
    constructor
    · intro h u v hu hv; rw [hu.unique u1, hv.unique u2]; exact h
    · intro h; exact h _ _ u1 u2
  unfold Plane.intersectLine
  dsimp only
  refine ⟨?_, ?_⟩
  · intro e
    rw [← hz]
    by_cases hzz : isZero (a.normal.dot l.dir)
    · simp [hzz, eq_comm]
    · simp [hzz, pyDiv, ne_of_not_isZero hzz, bind, Except.bind, pure, Except.pure]
  · intro r hr x
    by_cases hzz : isZero (a.normal.dot l.dir)
    · simp [hzz] at hr
    have hne := ne_of_not_isZero hzz
    simp only [if_neg hzz, pyDiv, if_neg hne, bind, Except.bind, pure, Except.pure] at hr
    rw [onPlane_unit u1, onLine_unit u2, and_comm, intersectLine_on hne, ← Except.ok.inj hr]

/-- **C27** Projection along the normal always succeeds: the result is the plane point whose
connection to the given point is parallel to the normal. -/
theorem C27_project_normal (p n v : Vec) (a : Plane) (h : Plane.make p n = .ok a) :
    ∃ r, a.projectNormal v = .ok r ∧ ∀ x, (OnPlane p n x ∧ OnLine v n x) ↔ x = r := by
  obtain ⟨rfl, u⟩ := plane_make h
  have hu : UnitOf a.normal a.normal := ⟨u.1, 1, one_pos, by ext <;> simp⟩
  have hl : Line.make v a.normal = .ok ⟨v, a.normal⟩ := by
    simp [Line.make, hu.normalized, bind, Except.bind, pure, Except.pure]
  have hone : a.normal.dot a.normal = 1 := u.1
  refine ⟨v + a.normal * (a.normal.dot (a.pos - v) / a.normal.dot a.normal), ?_, ?_⟩
  · unfold Plane.projectNormal
    rw [hl]
    simp only [bind, Except.bind, Plane.intersectLine, hone, pyDiv, one_ne_zero, if_false, pure,
      Except.pure]
    rw [if_neg (by norm_num [isZero])]
  · intro x
    have := intersectLine_on (p := a) (l := ⟨v, a.normal⟩) (by dsimp only; rw [hone]; exact one_ne_zero) x
    rw [onPlane_unit u, onLine_unit u, and_comm]
    exact this

/-- Projection along one coordinate axis. -/
noncomputable def Plane.projectAxis (p : Plane) : Axis → Vec → Py Vec
  | .X => p.projectX
  | .Y => p.projectY
  | .Z => p.projectZ

/-- The coordinate along the axis. -/
def Spec.coord : Axis → Vec → ℝ
  | .X, v => v.x
  | .Y, v => v.y
  | .Z, v => v.z

/-- `v` and `w` agree except along the axis. -/
def Spec.AgreeBut (k : Axis) (v w : Vec) : Prop := ∀ j, j ≠ k → coord j v = coord j w

/-- **C27** Projection along an axis changes only that coordinate and lands on the plane (the result
is the only such point); it raises exactly when the plane is nearly parallel to the axis. -/
theorem C27_project_axis (k : Axis) (p n v : Vec) (a : Plane) (h : Plane.make p n = .ok a) :
    (∀ e, a.projectAxis k v = .error e ↔ (∀ u, UnitOf u n → |coord k u| < 1e-6) ∧ e = .zeroDivision) ∧
    ∀ r, a.projectAxis k v = .ok r → ∀ x, (OnPlane p n x ∧ AgreeBut k x v) ↔ x = r := by
  obtain ⟨rfl, u⟩ := plane_make h
  have hz : isZero (coord k a.normal) ↔ ∀ u, UnitOf u n → |coord k u| < 1e-6 := by
    rw [isZero_iff]
    constructor
    · intro h w hw; rw [hw.unique u]; exact h
    · intro h; exact h _ u
  refine ⟨?_, ?_⟩
  · intro e
    rw [← hz]
    by_cases hzz : isZero (coord k a.normal)
    · cases k <;> simp only [coord] at hzz <;>
        simp [Plane.projectAxis, Plane.projectX, Plane.projectY, Plane.projectZ, coord, hzz, eq_comm]
    · have := ne_of_not_isZero hzz
      cases k <;> simp only [coord] at hzz this <;>
        simp [Plane.projectAxis, Plane.projectX, Plane.projectY, Plane.projectZ, coord, hzz, pyDiv, this,
          bind, Except.bind, pure, Except.pure]
  · intro r hr x
    by_cases hzz : isZero (coord k a.normal)
    · cases k <;> simp only [coord] at hzz <;>
        simp [Plane.projectAxis, Plane.projectX, Plane.projectY, Plane.projectZ, hzz] at hr
    have hne := ne_of_not_isZero hzz
    rw [onPlane_unit u]
    cases k
    · simp only [coord] at hzz hne
      simp only [Plane.projectAxis, Plane.projectX, if_neg hzz, pyDiv, if_neg hne, bind, Except.bind, pure,
        Except.pure] at hr
      have hr := (Except.ok.inj hr).symm
      have hk : a.normal.dot (a.pos - v) / a.normal.x * a.normal.x = a.normal.dot (a.pos - v) := by
        field_simp
      generalize a.normal.dot (a.pos - v) / a.normal.x = d at *
      simp only [OnPlane, Vec.dot, Vec.sub_x, Vec.sub_y, Vec.sub_z] at hk ⊢
      constructor
      · rintro ⟨e1, e2⟩
        have hy : x.y = v.y := e2 .Y (by nofun)
        have hzz' : x.z = v.z := e2 .Z (by nofun)
        rw [hr]
        ext
        · apply mul_right_cancel₀ hne; rw [hy, hzz'] at e1; dsimp only; linear_combination e1 - hk
        · exact hy
        · exact hzz'
      · intro hx
        rw [hx, hr]
        refine ⟨by dsimp only; linear_combination hk, ?_⟩
        intro j hj; cases j <;> simp [coord] at hj ⊢
    · simp only [coord] at hzz hne
      simp only [Plane.projectAxis, Plane.projectY, if_neg hzz, pyDiv, if_neg hne, bind, Except.bind, pure,
        Except.pure] at hr
      have hr := (Except.ok.inj hr).symm
      have hk : a.normal.dot (a.pos - v) / a.normal.y * a.normal.y = a.normal.dot (a.pos - v) := by
        field_simp
      generalize a.normal.dot (a.pos - v) / a.normal.y = d at *
      simp only [OnPlane, Vec.dot, Vec.sub_x, Vec.sub_y, Vec.sub_z] at hk ⊢
      constructor
      · rintro ⟨e1, e2⟩
        have hy : x.x = v.x := e2 .X (by nofun)
        have hzz' : x.z = v.z := e2 .Z (by nofun)
        rw [hr]
        ext
        · exact hy
        · apply mul_right_cancel₀ hne; rw [hy, hzz'] at e1; dsimp only; linear_combination e1 - hk
        · exact hzz'
      · intro hx
        rw [hx, hr]
        refine ⟨by dsimp only; linear_combination hk, ?_⟩
        intro j hj; cases j <;> simp [coord] at hj ⊢
    · simp only [coord] at hzz hne
      simp only [Plane.projectAxis, Plane.projectZ, if_neg hzz, pyDiv, if_neg hne, bind, Except.bind, pure,
        Except.pure] at hr
      have hr := (Except.ok.inj hr).symm
      have hk : a.normal.dot (a.pos - v) / a.normal.z * a.normal.z = a.normal.dot (a.pos - v) := by
        field_simp
      generalize a.normal.dot (a.pos - v) / a.normal.z = d at *
      simp only [OnPlane, Vec.dot, Vec.sub_x, Vec.sub_y, Vec.sub_z] at hk ⊢
      constructor
      · rintro ⟨e1, e2⟩
        have hy : x.x = v.x := e2 .X (by nofun)
        have hzz' : x.y = v.y := e2 .Y (by nofun)
        rw [hr]
        ext
        · exact hy
        · exact hzz'
        · apply mul_right_cancel₀ hne; rw [hy, hzz'] at e1; dsimp only; linear_combination e1 - hk
      · intro hx
        rw [hx, hr]
        refine ⟨by dsimp only; linear_combination hk, ?_⟩
        intro j hj; cases j <;> simp [coord] at hj ⊢

/-- Three planes in general position, through (1, 2, 3). -/
example : ∃ a b c, Plane.make ⟨1,0,0⟩ ⟨2,0,0⟩ = .ok a ∧ Plane.make ⟨0,2,0⟩ ⟨0,1,0⟩ = .ok b ∧
    Plane.make ⟨0,0,3⟩ ⟨0,0,5⟩ = .ok c ∧ a.intersectPlanes b c = .ok ⟨1,2,3⟩ := by
  have e1 : Plane.make ⟨1,0,0⟩ ⟨2,0,0⟩ = .ok ⟨⟨1,0,0⟩, ⟨1,0,0⟩⟩ := by
    have u : UnitOf ⟨1,0,0⟩ ⟨2,0,0⟩ := ⟨by norm_num [Vec.dot], 2, two_pos, by ext <;> simp⟩
    simp [Plane.make, u.normalized, bind, Except.bind, pure, Except.pure]
  have e2 : Plane.make ⟨0,2,0⟩ ⟨0,1,0⟩ = .ok ⟨⟨0,2,0⟩, ⟨0,1,0⟩⟩ := by
    have u : UnitOf ⟨0,1,0⟩ ⟨0,1,0⟩ := ⟨by norm_num [Vec.dot], 1, one_pos, by ext <;> simp⟩
    simp [Plane.make, u.normalized, bind, Except.bind, pure, Except.pure]
  have e3 : Plane.make ⟨0,0,3⟩ ⟨0,0,5⟩ = .ok ⟨⟨0,0,3⟩, ⟨0,0,1⟩⟩ := by
    have u : UnitOf ⟨0,0,1⟩ ⟨0,0,5⟩ := ⟨by norm_num [Vec.dot], 5, by norm_num, by ext <;> simp⟩
    simp [Plane.make, u.normalized, bind, Except.bind, pure, Except.pure]
  refine ⟨_, _, _, e1, e2, e3, ?_⟩
  norm_num [Plane.intersectPlanes, Vec.dot, Vec.cross, Vec.div, isZero]

/-! ### C28 -/

/-- **C28** `distance2D` is the minimum distance to the points of the segment, in the xy plane; the
end points may coincide. -/
theorem C28_segment_distance (s : Segment) (v : Vec) :
    (∀ t, 0 ≤ t → t ≤ 1 → s.distance2D v ≤ Real.sqrt (distSq2D (between2D s.a s.b t) v)) ∧
      ∃ t, 0 ≤ t ∧ t ≤ 1 ∧ s.distance2D v = Real.sqrt (distSq2D (between2D s.a s.b t) v) := by
  unfold Segment.distance2D
  dsimp only
  generalize hn : (v.x - s.a.x) * (s.b.x - s.a.x) + (v.y - s.a.y) * (s.b.y - s.a.y) = n
  generalize hd : (s.b.x - s.a.x) ^ 2 + (s.b.y - s.a.y) ^ 2 = d
  generalize hu : (if d ≠ 0 then max 0 (min (n / d) 1) else 0) = u
  have hd0 : 0 ≤ d := by rw [← hd]; positivity
  have hu0 : 0 ≤ u := by
    rw [← hu]; split
    · exact le_max_left _ _
    · exact le_refl _
  have hu1 : u ≤ 1 := by
    rw [← hu]; split
    · exact max_le zero_le_one (min_le_right _ _)
    · exact zero_le_one
  refine ⟨?_, u, hu0, hu1, rfl⟩
  intro t t0 t1
  apply Real.sqrt_le_sqrt
  have key : distSq2D (between2D s.a s.b t) v =
      (s.a.x + u * (s.b.x - s.a.x) - v.x) ^ 2 + (s.a.y + u * (s.b.y - s.a.y) - v.y) ^ 2 +
      (t - u) * (d * (t + u) - 2 * n) := by
    simp only [distSq2D, between2D]
    rw [← hn, ← hd]; ring
  rw [key]
  have : 0 ≤ (t - u) * (d * (t + u) - 2 * n) := by
    by_cases hz : d = 0
    · have hx : s.b.x - s.a.x = 0 := by
        have := sq_nonneg (s.b.x - s.a.x); have := sq_nonneg (s.b.y - s.a.y)
        have : (s.b.x - s.a.x) ^ 2 = 0 := by linarith
        exact pow_eq_zero_iff two_ne_zero |>.mp this
      have hy : s.b.y - s.a.y = 0 := by
        have := sq_nonneg (s.b.x - s.a.x); have := sq_nonneg (s.b.y - s.a.y)
        have : (s.b.y - s.a.y) ^ 2 = 0 := by linarith
        exact pow_eq_zero_iff two_ne_zero |>.mp this
      have hn0 : n = 0 := by rw [← hn, hx, hy]; ring
      rw [hz, hn0]; simp
    · have hdp : 0 < d := lt_of_le_of_ne hd0 (Ne.symm hz)
      rw [if_pos hz] at hu
      have hnd : n = n / d * d := by field_simp
      generalize n / d = q at *
      rw [hnd]
      rcases le_total q 0 with h | h
      · have : u = 0 := by rw [← hu, min_eq_left (by linarith), max_eq_left h]
        subst this
        have := mul_nonneg t0 (mul_nonneg hd0 t0)
        have := mul_nonneg t0 (mul_nonneg hd0 (neg_nonneg.mpr h))
        nlinarith
      · rcases le_total q 1 with h' | h'
        · have : u = q := by rw [← hu, min_eq_left h', max_eq_right h]
          subst this
          nlinarith [mul_nonneg hd0 (sq_nonneg (t - u))]
        · have : u = 1 := by rw [← hu, min_eq_right h', max_eq_right zero_le_one]
          subst this
          have h1 : 0 ≤ 1 - t := by linarith
          have := mul_nonneg h1 (mul_nonneg hd0 h1)
          have := mul_nonneg h1 (mul_nonneg hd0 (sub_nonneg.mpr h'))
          nlinarith
  linarith

/-- A corner case: the nearest point is the end point. -/
example : (Segment.mk ⟨0,0,0⟩ ⟨1,0,0⟩).distance2D ⟨2,0,5⟩ = 1 := by
  norm_num [Segment.distance2D]

/-! ### C29 -/

/-- **C29** `intersect2D` raises exactly for an unknown mode; otherwise it finds exactly the point
that lies on both lines, within the segments where these are not treated as lines, and finds none if
there is no such point or the segments' directions are nearly parallel. -/
theorem C29_intersection (s o : Segment) (m : ℤ) (x : Vec) :
    s.intersect2D o m = .ok (some x) ↔
      (0 ≤ m ∧ m ≤ 2) ∧
      1e-6 ≤ |(s.b.x - s.a.x) * (o.b.y - o.a.y) - (s.b.y - s.a.y) * (o.b.x - o.a.x)| ∧
      ∃ t u, x = between2D s.a s.b t ∧ x = between2D o.a o.b u ∧
        (m = 0 ∨ m = 1 → 0 ≤ t ∧ t ≤ 1) ∧ (m = 0 → 0 ≤ u ∧ u ≤ 1) := by
  have hden : (s.b.x - s.a.x) * (o.b.y - o.a.y) - (s.b.y - s.a.y) * (o.b.x - o.a.x) =
    (o.b.y - o.a.y) * (s.b.x - s.a.x) - (o.b.x - o.a.x) * (s.b.y - s.a.y) := by ring
  rw [hden]
  unfold Segment.intersect2D
  dsimp only
  generalize hD : (o.b.y - o.a.y) * (s.b.x - s.a.x) - (o.b.x - o.a.x) * (s.b.y - s.a.y) = D
  by_cases hm : 0 ≤ m ∧ m ≤ 2
  · by_cases hz : isZero D
    · have : ¬ (1e-6 ≤ |D|) := by rw [isZero_iff] at hz; exact not_le.mpr hz
      simp [hm, hz, this]
    · have hz' : 1e-6 ≤ |D| := by rw [isZero_iff] at hz; exact not_lt.mp hz
      have hne := ne_of_not_isZero hz
      have ht : ((o.b.x - o.a.x) * (s.a.y - o.a.y) - (o.b.y - o.a.y) * (s.a.x - o.a.x)) / D * D =
        (o.b.x - o.a.x) * (s.a.y - o.a.y) - (o.b.y - o.a.y) * (s.a.x - o.a.x) := by field_simp
      have hu : ((s.b.x - s.a.x) * (s.a.y - o.a.y) - (s.b.y - s.a.y) * (s.a.x - o.a.x)) / D * D =
        (s.b.x - s.a.x) * (s.a.y - o.a.y) - (s.b.y - s.a.y) * (s.a.x - o.a.x) := by field_simp
      generalize ((o.b.x - o.a.x) * (s.a.y - o.a.y) - (o.b.y - o.a.y) * (s.a.x - o.a.x)) / D = t at *
      generalize ((s.b.x - s.a.x) * (s.a.y - o.a.y) - (s.b.y - s.a.y) * (s.a.x - o.a.x)) / D = u at *
      have hpt : (⟨s.a.x + (s.b.x - s.a.x) * t, s.a.y + (s.b.y - s.a.y) * t, 0⟩ : Vec) =
          between2D s.a s.b t := by simp only [between2D]; ext <;> dsimp only <;> ring
      have hpu : between2D s.a s.b t = between2D o.a o.b u := by
        simp only [between2D]
        ext
        · dsimp only
          apply mul_right_cancel₀ hne
          linear_combination (s.b.x - s.a.x) * ht - (o.b.x - o.a.x) * hu + (s.a.x - o.a.x) * (-hD)
        · dsimp only
          apply mul_right_cancel₀ hne
          linear_combination (s.b.y - s.a.y) * ht - (o.b.y - o.a.y) * hu + (s.a.y - o.a.y) * (-hD)
        · rfl
      have huniq : ∀ t' u', between2D s.a s.b t' = between2D o.a o.b u' → t' = t ∧ u' = u := by
        intro t' u' h
        have hx := congrArg Vec.x h
        have hy := congrArg Vec.y h
        simp only [between2D] at hx hy
        constructor
        · apply mul_right_cancel₀ hne
          rw [ht, ← hD]
          linear_combination (o.b.y - o.a.y) * hx - (o.b.x - o.a.x) * hy
        · apply mul_right_cancel₀ hne
          rw [hu, ← hD]
          linear_combination (s.b.y - s.a.y) * hx - (s.b.x - s.a.x) * hy
      rw [if_neg (not_not.mpr hm), if_pos hz, hpt]
      have hm3 : m = 0 ∨ m = 1 ∨ m = 2 := by omega
      constructor
      · intro h
        split at h
        · rename_i c1
          split at h
          · rename_i c2
            have h := Option.some.inj (Except.ok.inj h)
            refine ⟨hm, hz', t, u, h.symm, h.symm.trans hpu, ?_, ?_⟩
            · intro hm'; exact c1.resolve_left (by omega)
            · intro hm'; exact c2.resolve_left (by omega)
          · cases h
        · cases h
      · rintro ⟨-, -, t', u', e1, e2, e3, e4⟩
        obtain ⟨rfl, rfl⟩ := huniq t' u' (e1.symm.trans e2)
        have c1 : m = 2 ∨ (0 ≤ t' ∧ t' ≤ 1) := by
          rcases hm3 with h | h | h
          · exact .inr (e3 (.inl h))
          · exact .inr (e3 (.inr h))
          · exact .inl h
        have c2 : m ≥ 1 ∨ (0 ≤ u' ∧ u' ≤ 1) := by
          rcases hm3 with h | h | h
          · exact .inr (e4 h)
          · exact .inl (by omega)
          · exact .inl (by omega)
        rw [if_pos c1, if_pos c2, e1]
  · simp [hm]

/-- **C29** The only exception is the assertion for an unknown mode. -/
theorem C29_raises_iff (s o : Segment) (m : ℤ) (e : Exn) :
    s.intersect2D o m = .error e ↔ ¬ (0 ≤ m ∧ m ≤ 2) ∧ e = .assertion := by
  unfold Segment.intersect2D
  dsimp only
  by_cases hm : 0 ≤ m ∧ m ≤ 2
  · rw [if_neg (not_not.mpr hm)]
    simp only [hm, and_self, not_true, false_and, iff_false]
    split
    · split
      · split <;> simp
      · simp
    · simp
  · rw [if_pos hm]; simp [hm, eq_comm]

example : (Segment.mk ⟨0,0,0⟩ ⟨2,2,0⟩).intersect2D ⟨⟨0,2,0⟩, ⟨2,0,0⟩⟩ = .ok (some ⟨1,1,0⟩) := by
  rw [C29_intersection]
  refine ⟨by norm_num, by norm_num, 1/2, 1/2, ?_, ?_, ?_, ?_⟩ <;> norm_num [between2D]

/-! ### C30 -/

private theorem normalized2D_error {d : Vec} {e : Exn} :
    d.normalized2D = .error e ↔ (d.x = 0 ∧ d.y = 0) ∧ e = .zeroDivision := by
  have hm0 : d.magnitude2D = 0 ↔ d.x = 0 ∧ d.y = 0 := by
    unfold Vec.magnitude2D
    rw [Real.sqrt_eq_zero (by nlinarith [mul_self_nonneg d.x, mul_self_nonneg d.y])]
    constructor
    · intro h0
      exact ⟨by nlinarith [mul_self_nonneg d.x, mul_self_nonneg d.y],
        by nlinarith [mul_self_nonneg d.x, mul_self_nonneg d.y]⟩
    · rintro ⟨hx, hy⟩; simp [hx, hy]
  unfold Vec.normalized2D
  by_cases h : d.magnitude2D = 0
  · simp [h, hm0.mp h, eq_comm]
  · rw [if_neg h]
    simp only [reduceCtorEq, false_iff, not_and]
    intro h'; exact absurd (hm0.mpr h') h

/-- **C30** Intersecting a circle and a line (that is not vertical) gives
* two different points, exactly the common points of the line and the circle, or
* no point, if there is no common point, or
* one point of the line, if the line touches the circle within the tolerance: the point's squared
  distance differs from the squared radius by less than 2.5e-7, and any common point is closer than
  5e-4 to it. -/
theorem C30_circle_line (c : Vec) (r : ℝ) (p d : Vec) (l : Line) (h : Line.make p d = .ok l) :
    (∀ e, (Circle.mk c r).intersectLine2D l = .error e ↔ (d.x = 0 ∧ d.y = 0) ∧ e = .zeroDivision) ∧
    ∀ xs, (Circle.mk c r).intersectLine2D l = .ok xs →
      (∃ x y, xs = [x, y] ∧ x ≠ y ∧ ∀ v, (OnLine2D p d v ∧ OnCircle2D c r v) ↔ v = x ∨ v = y) ∨
      (xs = [] ∧ ∀ v, OnLine2D p d v → ¬ OnCircle2D c r v) ∨
      ∃ x, xs = [x] ∧ OnLine2D p d x ∧ |distSq2D c x - r ^ 2| < 2.5e-7 ∧
        ∀ v, OnLine2D p d v → OnCircle2D c r v → distSq2D v x < 5e-4 ^ 2 := by
  obtain ⟨rfl, u⟩ := line_make h
  obtain ⟨k, hk, hkd⟩ := u.2
  have dx : d.x = l.dir.x * k := by rw [hkd]; rfl
  have dy : d.y = l.dir.y * k := by rw [hkd]; rfl
  have d0 : (l.dir.x = 0 ∧ l.dir.y = 0) ↔ d.x = 0 ∧ d.y = 0 := by
    rw [dx, dy, mul_eq_zero, mul_eq_zero]; simp [hk.ne']
  unfold Circle.intersectLine2D
  rcases hn : l.dir.normalized2D with e' | w
  · refine ⟨?_, by simp [bind, Except.bind]⟩
    intro e
    obtain ⟨h1, h2⟩ := normalized2D_error.mp hn
    simp [bind, Except.bind, d0.mp h1, h2, eq_comm]
  obtain ⟨hp, wx, wy, wz, w1⟩ := normalized2D_ok hn
  generalize l.dir.magnitude2D = g at *
  have hgk : 0 < g * k := mul_pos hp hk
  have hline : ∀ v, OnLine2D l.pos d v ↔ ∃ t : ℝ, v = l.pos.xy + w * t := by
    intro v
    constructor
    · rintro ⟨vz, t, vx, vy⟩
      refine ⟨g * k * t, ?_⟩
      ext
      · rw [vx, dx, ← wx]; simp [Vec.xy]; ring
      · rw [vy, dy, ← wy]; simp [Vec.xy]; ring
      · rw [vz]; simp [Vec.xy, wz]
    · rintro ⟨t, rfl⟩
      refine ⟨by simp [Vec.xy, wz], t / (g * k), ?_, ?_⟩
      · rw [dx, ← wx]; simp [Vec.xy]; field_simp
      · rw [dy, ← wy]; simp [Vec.xy]; field_simp
  simp only [bind, Except.bind, pure, Except.pure]
  generalize hb : 2 * w.dot (l.pos.xy - c.xy) = b
  generalize hc : c.xy.magSquared2D + l.pos.xy.magSquared2D - 2 * c.xy.dot l.pos.xy - r ^ 2 = q
  generalize hE : b ^ 2 - 4 * q = E
  have hdist : ∀ t : ℝ, distSq2D c (l.pos.xy + w * t) - r ^ 2 = (t + b / 2) ^ 2 - E / 4 := by
    intro t
    rw [← hE, ← hb, ← hc]
    simp only [distSq2D, Vec.xy, Vec.dot, Vec.magSquared2D, Vec.add_x, Vec.add_y, Vec.mul_x, Vec.mul_y,
      Vec.sub_x, Vec.sub_y, Vec.sub_z, wz]
    linear_combination (t ^ 2) * w1
  have hinj : ∀ t t' : ℝ, l.pos.xy + w * t = l.pos.xy + w * t' → t = t' := by
    intro t t' he
    have ex := congrArg Vec.x he
    have ey := congrArg Vec.y he
    simp only [Vec.add_x, Vec.add_y, Vec.mul_x, Vec.mul_y] at ex ey
    linear_combination w.x * ex + w.y * ey - (t - t') * w1
  refine ⟨?_, ?_⟩
  · intro e
    have : ¬ (d.x = 0 ∧ d.y = 0) := by
      intro hd0
      have := normalized2D_error.mpr ⟨d0.mpr hd0, rfl⟩
      rw [hn] at this; cases this
    simp only [this, false_and, iff_false]
    split
    · simp
    · split
      · simp
      · rename_i h0
        simp [pySqrt, h0]
  · intro xs hxs
    by_cases hz : isZero E
    · rw [if_pos hz] at hxs
      cases hxs
      right; right
      have hz' : |E| < 1e-6 := (isZero_iff E).mp hz
      refine ⟨_, rfl, (hline _).mpr ⟨_, rfl⟩, ?_, ?_⟩
      · rw [hdist, show (-b / 2 + b / 2) ^ 2 - E / 4 = -(E / 4) by ring, abs_neg, abs_div]
        norm_num at hz' ⊢; linarith
      · intro v hv hvc
        obtain ⟨t, rfl⟩ := (hline v).mp hv
        have h1 := hdist t
        rw [hvc.2, sub_self] at h1
        have h2 : distSq2D (l.pos.xy + w * t) (l.pos.xy + w * (-b / 2)) = (t + b / 2) ^ 2 := by
          simp only [distSq2D, Vec.add_x, Vec.add_y, Vec.mul_x, Vec.mul_y]
          linear_combination (t + b / 2) ^ 2 * w1
        rw [h2]
        have := (abs_lt.mp hz').2
        norm_num at this ⊢
        linarith
    · rw [if_neg hz] at hxs
      by_cases hneg : E < 0
      · rw [if_pos hneg] at hxs
        cases hxs
        right; left
        refine ⟨rfl, ?_⟩
        intro v hv hvc
        obtain ⟨t, rfl⟩ := (hline v).mp hv
        have h1 := hdist t
        rw [hvc.2, sub_self] at h1
        nlinarith [sq_nonneg (t + b / 2)]
      · rw [if_neg hneg] at hxs
        simp only [pySqrt, if_neg hneg] at hxs
        cases hxs
        left
        have hE0 : 0 < E := lt_of_le_of_ne (not_lt.mp hneg) (Ne.symm (ne_of_not_isZero hz))
        have hs : 0 < Real.sqrt E := Real.sqrt_pos.mpr hE0
        have hs2 : Real.sqrt E ^ 2 = E := Real.sq_sqrt hE0.le
        refine ⟨_, _, rfl, ?_, ?_⟩
        · intro he
          have := hinj _ _ he
          linarith
        · intro v
          constructor
          · rintro ⟨hv, hvc⟩
            obtain ⟨t, rfl⟩ := (hline v).mp hv
            have h1 := hdist t
            rw [hvc.2, sub_self, ← hs2] at h1
            have h2 : (t + b / 2 - Real.sqrt E / 2) * (t + b / 2 + Real.sqrt E / 2) = 0 := by
              linear_combination -h1
            rcases mul_eq_zero.mp h2 with h3 | h3
            · right; rw [show t = (-b + Real.sqrt E) / 2 by linarith]
            · left; rw [show t = (-b - Real.sqrt E) / 2 by linarith]
          · rintro (rfl | rfl)
            · refine ⟨(hline _).mpr ⟨_, rfl⟩, by simp [Vec.xy, wz], ?_⟩
              have h1 := hdist ((-b - Real.sqrt E) / 2)
              linear_combination h1 + hs2 / 4
            · refine ⟨(hline _).mpr ⟨_, rfl⟩, by simp [Vec.xy, wz], ?_⟩
              have h1 := hdist ((-b + Real.sqrt E) / 2)
              linear_combination h1 + hs2 / 4

/-- Two points of the circle with radius 5 at height 3. -/
example : ∃ l, Line.make ⟨0,3,7⟩ ⟨2,0,0⟩ = .ok l ∧
    (Circle.mk 0 5).intersectLine2D l = .ok [⟨-4,3,0⟩, ⟨4,3,0⟩] := by
  have u : UnitOf ⟨1,0,0⟩ ⟨2,0,0⟩ := ⟨by norm_num [Vec.dot], 2, two_pos, by ext <;> simp⟩
  have u2 : (⟨1,0,0⟩ : Vec).normalized2D = .ok ⟨1,0,0⟩ := by simp [Vec.normalized2D, Vec.magnitude2D]
  have s64 : Real.sqrt 64 = 8 := sqrt_eq_of_sq (by norm_num) (by norm_num)
  refine ⟨⟨⟨0,3,7⟩, ⟨1,0,0⟩⟩, by simp [Line.make, u.normalized, bind, Except.bind, pure, Except.pure], ?_⟩
  norm_num [Circle.intersectLine2D, u2, bind, Except.bind, pure, Except.pure, Vec.xy, Vec.dot,
    Vec.magSquared2D, isZero, pySqrt, s64]
  constructor <;> ext <;> norm_num

/-- **C30** Intersecting two circles never raises (the square root's argument is never negative).
It gives two different points, exactly the common points of both circles; or no point, if there is
no common point (or the centres nearly coincide, or a radius is negative); or one point, if the circles touch:
its squared distances differ from the squared radii by less than 1e-12, and any common point is
closer than 1e-6 to it. -/
theorem C30_circle_circle (c1 c2 : Vec) (r1 r2 : ℝ) :
    ∃ xs, (Circle.mk c1 r1).intersectCircle2D ⟨c2, r2⟩ = .ok xs ∧
      ((∃ x y, xs = [x, y] ∧ x ≠ y ∧ ∀ v, (OnCircle2D c1 r1 v ∧ OnCircle2D c2 r2 v) ↔ v = x ∨ v = y) ∨
      (xs = [] ∧ (1e-6 ≤ Real.sqrt (distSq2D c1 c2) → 0 ≤ r1 → 0 ≤ r2 →
        ∀ v, OnCircle2D c1 r1 v → ¬ OnCircle2D c2 r2 v)) ∨
      ∃ x, xs = [x] ∧ x.z = 0 ∧ |distSq2D c1 x - r1 ^ 2| < 1e-6 ^ 2 ∧
        |distSq2D c2 x - r2 ^ 2| < 1e-6 ^ 2 ∧
        ∀ v, OnCircle2D c1 r1 v → OnCircle2D c2 r2 v → distSq2D v x < 1e-6 ^ 2) := by
  unfold Circle.intersectCircle2D
  dsimp only
  have hpitch : (c2.xy - c1.xy).magnitude2D = Real.sqrt (distSq2D c1 c2) := by
    unfold Vec.magnitude2D distSq2D; congr 1; simp only [Vec.xy, Vec.sub_x, Vec.sub_y]; ring
  have hpp : Real.sqrt (distSq2D c1 c2) ^ 2 = distSq2D c1 c2 :=
    Real.sq_sqrt (by unfold distSq2D; positivity)
  have hp0 : 0 ≤ Real.sqrt (distSq2D c1 c2) := Real.sqrt_nonneg _
  have hmag : (c2.xy - c1.xy).magnitude = Real.sqrt (distSq2D c1 c2) := by
    rw [← hpitch]; unfold Vec.magnitude2D Vec.magnitude; congr 1
    simp only [Vec.xy, Vec.sub_x, Vec.sub_y, Vec.sub_z]; ring
  rw [hpitch]
  generalize hP : Real.sqrt (distSq2D c1 c2) = P at *
  simp only [distSq2D] at hpp
  by_cases hcond : isZero P ∨ P > r1 + r2 ∨ P < |r1 - r2|
  · rw [if_pos hcond]
    refine ⟨[], rfl, .inr (.inl ⟨rfl, ?_⟩)⟩
    intro hPe hr1 hr2 v hv1 hv2
    have hnz : ¬ isZero P := by rw [isZero_iff, not_lt]; exact le_trans hPe (le_abs_self _)
    have e1 := hv1.2
    have e2 := hv2.2
    simp only [distSq2D] at e1 e2
    -- Cauchy-Schwarz for the two radius vectors
    have cs : ((c1.x - v.x) * (c2.x - v.x) + (c1.y - v.y) * (c2.y - v.y)) ^ 2 ≤ (r1 * r2) ^ 2 := by
      have : (r1 * r2) ^ 2 = ((c1.x - v.x) ^ 2 + (c1.y - v.y) ^ 2) * ((c2.x - v.x) ^ 2 + (c2.y - v.y) ^ 2) := by
        rw [e1, e2]; ring
      rw [this]
      nlinarith [sq_nonneg ((c1.x - v.x) * (c2.y - v.y) - (c1.y - v.y) * (c2.x - v.x))]
    have hab := abs_le_of_sq_le_sq cs (mul_nonneg hr1 hr2)
    have hPd : P ^ 2 = r1 ^ 2 + r2 ^ 2 -
        2 * ((c1.x - v.x) * (c2.x - v.x) + (c1.y - v.y) * (c2.y - v.y)) := by
      rw [hpp, ← e1, ← e2]; ring
    rcases hcond with hc | hc | hc
    · exact hnz hc
    · nlinarith [(abs_le.mp hab).1]
    · have : P ^ 2 < |r1 - r2| ^ 2 := by
        apply pow_lt_pow_left₀ hc hp0; norm_num
      rw [sq_abs] at this
      nlinarith [(abs_le.mp hab).2]
  · rw [if_neg hcond]
    push Not at hcond
    obtain ⟨hz, hs1, hs2⟩ := hcond
    have hPne := ne_of_not_isZero hz
    have hPp : 0 < P := lt_of_le_of_ne hp0 (Ne.symm hPne)
    have hv0 : c2.xy - c1.xy ≠ 0 := by
      intro h0; rw [h0] at hmag; apply hPne; rw [← hmag]; exact (Vec.magnitude_eq_zero 0).mpr rfl
    obtain ⟨n, hn, hnv, hn1, -⟩ := (c2.xy - c1.xy).normalized_ok hv0
    rw [hmag] at hnv
    have nx : n.x * P = c2.x - c1.x := by have := congrArg Vec.x hnv; simpa [Vec.xy] using this.symm
    have ny : n.y * P = c2.y - c1.y := by have := congrArg Vec.y hnv; simpa [Vec.xy] using this.symm
    have nz : n.z = 0 := by
      have := congrArg Vec.z hnv
      simp only [Vec.sub_z, Vec.xy, Vec.mul_z, sub_zero] at this
      exact (mul_eq_zero.mp this.symm).resolve_right hPne
    rw [hn]
    have h2P : (2 * P) ≠ 0 := mul_ne_zero two_ne_zero hPne
    simp only [bind, Except.bind, pyDiv, if_neg h2P, pure, Except.pure]
    have hM : (r1 ^ 2 - r2 ^ 2 + P ^ 2) / (2 * P) * (2 * P) = r1 ^ 2 - r2 ^ 2 + P ^ 2 := by field_simp
    generalize (r1 ^ 2 - r2 ^ 2 + P ^ 2) / (2 * P) = M at *
    simp only [Vec.dot, nz] at hn1
    have ab := abs_le.mp hs2
    have hnn : 0 ≤ r1 ^ 2 - M ^ 2 := by
      have h4 : (r1 ^ 2 - M ^ 2) * (2 * P) ^ 2 =
          (r1 + P - r2) * (r1 + P + r2) * ((r2 - r1 + P) * (r1 + r2 - P)) := by
        linear_combination (-(M * (2 * P)) - (r1 ^ 2 - r2 ^ 2 + P ^ 2)) * hM
      have h5 : 0 ≤ (r1 ^ 2 - M ^ 2) * (2 * P) ^ 2 := by
        rw [h4]
        apply mul_nonneg
        · apply mul_nonneg <;> linarith
        · apply mul_nonneg <;> linarith
      by_contra hc
      push Not at hc
      have : 0 < (2 * P) ^ 2 := by positivity
      nlinarith
    simp only [pySqrt, if_neg (not_lt.mpr hnn)]
    -- points in the frame (n, ortho n) around c1
    have hd1 : ∀ a b : ℝ, distSq2D c1 (c1.xy + n * a + n.ortho2D * b) = a ^ 2 + b ^ 2 := by
      intro a b
      simp only [distSq2D, Vec.xy, Vec.ortho2D, Vec.add_x, Vec.add_y, Vec.mul_x, Vec.mul_y]
      linear_combination (a ^ 2 + b ^ 2) * hn1
    have hd2 : ∀ a b : ℝ, distSq2D c2 (c1.xy + n * a + n.ortho2D * b) = (a - P) ^ 2 + b ^ 2 := by
      intro a b
      have x2 : c2.x = c1.x + n.x * P := by linarith
      have y2 : c2.y = c1.y + n.y * P := by linarith
      simp only [distSq2D, Vec.xy, Vec.ortho2D, Vec.add_x, Vec.add_y, Vec.mul_x, Vec.mul_y, x2, y2]
      linear_combination ((a - P) ^ 2 + b ^ 2) * hn1
    have hframe : ∀ v : Vec, v.z = 0 → ∃ a b : ℝ, v = c1.xy + n * a + n.ortho2D * b := by
      intro v vz
      refine ⟨(v.x - c1.x) * n.x + (v.y - c1.y) * n.y, (v.y - c1.y) * n.x - (v.x - c1.x) * n.y, ?_⟩
      ext
      · simp only [Vec.xy, Vec.ortho2D, Vec.add_x, Vec.mul_x]
        linear_combination -(v.x - c1.x) * hn1
      · simp only [Vec.xy, Vec.ortho2D, Vec.add_y, Vec.mul_y]
        linear_combination -(v.y - c1.y) * hn1
      · simp [Vec.xy, Vec.ortho2D, nz, vz]
    have hzero : ∀ a b : ℝ, (c1.xy + n * a + n.ortho2D * b).z = 0 := by
      intro a b; simp [Vec.xy, Vec.ortho2D, nz]
    -- common points
    have hcommon : ∀ a b : ℝ, (a ^ 2 + b ^ 2 = r1 ^ 2 ∧ (a - P) ^ 2 + b ^ 2 = r2 ^ 2) ↔
        a = M ∧ b ^ 2 = r1 ^ 2 - M ^ 2 := by
      intro a b
      constructor
      · rintro ⟨e1, e2⟩
        have : a = M := by
          apply mul_right_cancel₀ h2P
          rw [hM, ← e1, ← e2]; ring
        subst this
        exact ⟨rfl, by linarith⟩
      · rintro ⟨rfl, hb⟩
        refine ⟨by linarith, ?_⟩
        linear_combination hb - hM
    generalize hq : Real.sqrt (r1 ^ 2 - M ^ 2) = q
    have hq2 : q ^ 2 = r1 ^ 2 - M ^ 2 := by rw [← hq]; exact Real.sq_sqrt hnn
    have hq0 : 0 ≤ q := by rw [← hq]; exact Real.sqrt_nonneg _
    have hmid : c1.xy + n * M = c1.xy + n * M + n.ortho2D * (0 : ℝ) := by ext <;> simp
    by_cases hzq : isZero q
    · rw [if_pos hzq]
      refine ⟨_, rfl, .inr (.inr ⟨_, rfl, ?_, ?_, ?_, ?_⟩)⟩
      · rw [hmid]; exact hzero _ _
      · rw [hmid, hd1, show M ^ 2 + 0 ^ 2 - r1 ^ 2 = -q ^ 2 by linarith, abs_neg, abs_of_nonneg (by positivity)]
        have := (isZero_iff q).mp hzq
        rw [abs_of_nonneg hq0] at this
        apply pow_lt_pow_left₀ this hq0; norm_num
      · have e2 := ((hcommon M q).mpr ⟨rfl, hq2⟩).2
        rw [hmid, hd2, show (M - P) ^ 2 + 0 ^ 2 - r2 ^ 2 = -q ^ 2 by linarith, abs_neg,
          abs_of_nonneg (by positivity)]
        have := (isZero_iff q).mp hzq
        rw [abs_of_nonneg hq0] at this
        apply pow_lt_pow_left₀ this hq0; norm_num
      · intro v h1 h2
        obtain ⟨a, b, rfl⟩ := hframe v h1.1
        have e1 := h1.2
        have e2 := h2.2
        rw [hd1] at e1
        rw [hd2] at e2
        obtain ⟨rfl, hb⟩ := (hcommon a b).mp ⟨e1, e2⟩
        have : distSq2D (c1.xy + n * a + n.ortho2D * b) (c1.xy + n * a) = b ^ 2 := by
          simp only [distSq2D, Vec.xy, Vec.ortho2D, Vec.add_x, Vec.add_y, Vec.mul_x, Vec.mul_y]
          linear_combination b ^ 2 * hn1
        rw [this, hb, ← hq2]
        have := (isZero_iff q).mp hzq
        rw [abs_of_nonneg hq0] at this
        apply pow_lt_pow_left₀ this hq0; norm_num
    · rw [if_neg hzq]
      have hneg : c1.xy + n * M - n.ortho2D * q = c1.xy + n * M + n.ortho2D * (-q) := by
        ext <;> simp <;> ring
      rw [hneg]
      have hqne := ne_of_not_isZero hzq
      refine ⟨_, rfl, .inl ⟨_, _, rfl, ?_, ?_⟩⟩
      · intro he
        have h1 := congrArg Vec.x he
        have h2 := congrArg Vec.y he
        simp only [Vec.xy, Vec.ortho2D, Vec.add_x, Vec.add_y, Vec.mul_x, Vec.mul_y] at h1 h2
        apply hqne
        linear_combination (-n.y * h1 + n.x * h2) / 2 - q * hn1
      · intro v
        constructor
        · rintro ⟨h1, h2⟩
          obtain ⟨a, b, rfl⟩ := hframe v h1.1
          have e1 := h1.2
          have e2 := h2.2
          rw [hd1] at e1
          rw [hd2] at e2
          obtain ⟨rfl, hb⟩ := (hcommon a b).mp ⟨e1, e2⟩
          have hbq : (b - q) * (b + q) = 0 := by linear_combination hb - hq2
          rcases mul_eq_zero.mp hbq with h | h
          · left; rw [show b = q by linarith]
          · right; rw [show b = -q by linarith]
        · rintro (rfl | rfl)
          · obtain ⟨e1, e2⟩ := (hcommon M q).mpr ⟨rfl, hq2⟩
            exact ⟨⟨hzero _ _, (hd1 _ _).trans e1⟩, ⟨hzero _ _, (hd2 _ _).trans e2⟩⟩
          · obtain ⟨e1, e2⟩ := (hcommon M (-q)).mpr ⟨rfl, by rw [neg_sq]; exact hq2⟩
            exact ⟨⟨hzero _ _, (hd1 _ _).trans e1⟩, ⟨hzero _ _, (hd2 _ _).trans e2⟩⟩

end Chrumm.Geo
