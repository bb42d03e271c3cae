import Verif.Props.PlanThumb
import Verif.Props.BodyWhole
import Verif.Spec.Corner

/-! C95: walls keep their thickness at the rounded corners. -/

namespace Chrumm.Part
open Geo Geo.Spec
open Part.Spec

theorem ortho_basis {n e : Vec} (un : n.x ^ 2 + n.y ^ 2 = 1) (ue : e.x * e.x + e.y * e.y = 1) (h : n.x * e.x + n.y * e.y = 0) :
    ∃ s : ℝ, n.x = -(s * e.y) ∧ n.y = s * e.x ∧ s * s = 1 := by
  refine ⟨n.y * e.x - n.x * e.y, ?_, ?_, ?_⟩
  · linear_combination e.x * h - n.x * ue
  · linear_combination e.y * h - n.y * ue
  · linear_combination ue + (e.x * e.x + e.y * e.y) * un - (n.x * e.x + n.y * e.y) * h

/-- A point `x, y` relative to a corner, as far along two sides, is inside of the one side if the other side is. -/
theorem corner_depth {n e f : Vec} {x y d w : ℝ} (un : n.x ^ 2 + n.y ^ 2 = 1) (ue : e.x * e.x + e.y * e.y = 1)
    (uf : f.x * f.x + f.y * f.y = 1) (pe : n.x * e.x + n.y * e.y = 0) (pf : 0 < n.x * f.x + n.y * f.y) (hd : 0 < d) (hw : 0 < w)
    (oe : x * e.x + y * e.y = d * (e.x * e.x + e.y * e.y)) (of : x * f.x + y * f.y = d * (f.x * f.x + f.y * f.y))
    (ce : (x - e.x * d) ^ 2 + (y - e.y * d) ^ 2 = w ^ 2) :
    n.x * x + n.y * y = w ∧ e.x * d = x - w * n.x ∧ e.y * d = y - w * n.y := by
  obtain ⟨s, nx, ny, ss⟩ := ortho_basis un ue pe
  rw [ue, mul_one] at oe
  rw [uf, mul_one] at of
  obtain ⟨hh, hdef⟩ : ∃ hh, hh = n.x * x + n.y * y := ⟨_, rfl⟩
  have dx : x = e.x * d + n.x * hh := by
    rw [hdef, nx, ny]
    linear_combination (-x) * ue + e.x * oe + (e.y * (x * e.y - y * e.x)) * (-ss)
  have dy : y = e.y * d + n.y * hh := by
    rw [hdef, nx, ny]
    linear_combination (-y) * ue + e.y * oe + (e.x * (x * e.y - y * e.x)) * ss
  have sq : hh ^ 2 = w ^ 2 := by
    rw [← ce]
    rw [show x - e.x * d = n.x * hh by linarith, show y - e.y * d = n.y * hh by linarith]
    linear_combination (-hh ^ 2) * un
  have pos : 0 ≤ hh := by
    by_contra hneg
    push Not at hneg
    have e0 : d = d * (e.x * f.x + e.y * f.y) + hh * (n.x * f.x + n.y * f.y) := by
      have := of
      rw [dx, dy] at this
      linarith
    have le1 : e.x * f.x + e.y * f.y ≤ 1 := by nlinarith [sq_nonneg (e.x - f.x), sq_nonneg (e.y - f.y)]
    have g1 := mul_pos (neg_pos.mpr hneg) pf
    have g2 := mul_nonneg hd.le (sub_nonneg.mpr le1)
    linarith
  have hr0 : hh = w := by
    rcases sq_eq_sq_iff_eq_or_eq_neg.mp sq with h | h
    · exact h
    · linarith
  rw [← hdef, ← hr0]
  exact ⟨rfl, by linarith, by linarith⟩

/-- The center of a corner arc is as far inside of both sides as the radius. -/
theorem arc_center_inside {q : Quality} {r : ℝ} {a b c : Vec} {pts : List Vec} (hr : 1 / 1000000 ≤ r) (hq : 0 < q.maxChordAngle)
    (h : cornerArc2D q r a b c = .ok pts) {n1 n2 : Vec} (u1 : n1.x ^ 2 + n1.y ^ 2 = 1) (u2 : n2.x ^ 2 + n2.y ^ 2 = 1)
    (p1 : n1.x * (a.x - b.x) + n1.y * (a.y - b.y) = 0) (p2 : n2.x * (c.x - b.x) + n2.y * (c.y - b.y) = 0)
    (i1 : 0 < n1.x * (c.x - b.x) + n1.y * (c.y - b.y)) (i2 : 0 < n2.x * (a.x - b.x) + n2.y * (a.y - b.y)) :
    ∃ C : Vec, n1.x * (C.x - b.x) + n1.y * (C.y - b.y) = r ∧ n2.x * (C.x - b.x) + n2.y * (C.y - b.y) = r ∧
      pts.head? = some ⟨C.x - r * n1.x, C.y - r * n1.y, 0⟩ ∧ pts.getLast? = some ⟨C.x - r * n2.x, C.y - r * n2.y, 0⟩ ∧
      ∀ p ∈ pts, OnCircle2D C r p := by
  obtain ⟨e1, e2, C, d, d0, ⟨m1, k1, k10, ek1⟩, ⟨m2, k2, k20, ek2⟩, h1, h2, o1, o2, on⟩ := C54_tangent hr hq h
  have hr0 : 0 < r := by linarith
  have x1 := congrArg Vec.x ek1
  have y1 := congrArg Vec.y ek1
  have z1 := congrArg Vec.z ek1
  have x2 := congrArg Vec.x ek2
  have y2 := congrArg Vec.y ek2
  have z2 := congrArg Vec.z ek2
  simp only [Vec.xy, Vec.sub_x, Vec.sub_y, Vec.mul_x, Vec.mul_y, Vec.mul_z] at x1 y1 z1 x2 y2 z2
  have z1 : e1.z = 0 := by
    rcases mul_eq_zero.mp z1.symm with h | h
    · exact h
    · exact absurd h k10.ne'
  have z2 : e2.z = 0 := by
    rcases mul_eq_zero.mp z2.symm with h | h
    · exact h
    · exact absurd h k20.ne'
  rw [x1, y1] at p1 i2
  rw [x2, y2] at p2 i1
  have p1 : n1.x * e1.x + n1.y * e1.y = 0 := by
    have : k1 * (n1.x * e1.x + n1.y * e1.y) = 0 := by linarith
    exact (mul_eq_zero.mp this).resolve_left k10.ne'
  have p2 : n2.x * e2.x + n2.y * e2.y = 0 := by
    have : k2 * (n2.x * e2.x + n2.y * e2.y) = 0 := by linarith
    exact (mul_eq_zero.mp this).resolve_left k20.ne'
  have i1 : 0 < n1.x * e2.x + n1.y * e2.y := by
    have : 0 < k2 * (n1.x * e2.x + n1.y * e2.y) := by linarith
    exact (pos_iff_pos_of_mul_pos this).mp k20
  have i2 : 0 < n2.x * e1.x + n2.y * e1.y := by
    have : 0 < k1 * (n2.x * e1.x + n2.y * e1.y) := by linarith
    exact (pos_iff_pos_of_mul_pos this).mp k10
  have c1 := (on _ (List.mem_of_head? h1)).1.2
  have c2 := (on _ (List.mem_of_getLast? h2)).1.2
  simp only [Vec.dot, z1, z2, Vec.xy, Vec.add_x, Vec.add_y, Vec.add_z, Vec.sub_x, Vec.sub_y, Vec.sub_z, Vec.mul_x, Vec.mul_y, Vec.mul_z,
    distSq2D] at m1 m2 o1 o2 c1 c2
  obtain ⟨g1, g2, g3⟩ := corner_depth (w := r) (d := d) u1 (by linarith) (by linarith) p1 i1 d0 hr0
    (by linarith : (C.x - b.x) * e1.x + (C.y - b.y) * e1.y = d * (e1.x * e1.x + e1.y * e1.y)) (by linarith) (by linarith)
  obtain ⟨g4, g5, g6⟩ := corner_depth (w := r) (d := d) u2 (by linarith) (by linarith) p2 i2 d0 hr0
    (by linarith : (C.x - b.x) * e2.x + (C.y - b.y) * e2.y = d * (e2.x * e2.x + e2.y * e2.y)) (by linarith) (by linarith)
  refine ⟨C, g1, g4, ?_, ?_, fun p hp => (on p hp).1⟩
  · rw [h1]
    congr 1
    ext <;> simp only [Vec.xy, Vec.add_x, Vec.add_y, Vec.add_z, Vec.mul_x, Vec.mul_y, Vec.mul_z, z1] <;> linarith
  · rw [h2]
    congr 1
    ext <;> simp only [Vec.xy, Vec.add_x, Vec.add_y, Vec.add_z, Vec.mul_x, Vec.mul_y, Vec.mul_z, z2] <;> linarith

theorem corner_concentric {q : Quality} {r t : ℝ} {a b c a' b' c' : Vec} {inner outer : List Vec} (hr : 1 / 1000000 ≤ r)
    (ht : 0 ≤ t) (hq : 0 < q.maxChordAngle) (hI : cornerArc2D q r a b c = .ok inner) (hO : cornerArc2D q (r + t) c' b' a' = .ok outer)
    {n1 n2 : Vec} (u1 : n1.x ^ 2 + n1.y ^ 2 = 1) (u2 : n2.x ^ 2 + n2.y ^ 2 = 1)
    (p1 : n1.x * (a.x - b.x) + n1.y * (a.y - b.y) = 0) (p2 : n2.x * (c.x - b.x) + n2.y * (c.y - b.y) = 0)
    (i1 : 0 < n1.x * (c.x - b.x) + n1.y * (c.y - b.y)) (i2 : 0 < n2.x * (a.x - b.x) + n2.y * (a.y - b.y))
    (p1' : n1.x * (a'.x - b'.x) + n1.y * (a'.y - b'.y) = 0) (p2' : n2.x * (c'.x - b'.x) + n2.y * (c'.y - b'.y) = 0)
    (i1' : 0 < n1.x * (c'.x - b'.x) + n1.y * (c'.y - b'.y)) (i2' : 0 < n2.x * (a'.x - b'.x) + n2.y * (a'.y - b'.y))
    (t1 : n1.x * (b.x - b'.x) + n1.y * (b.y - b'.y) = t) (t2 : n2.x * (b.x - b'.x) + n2.y * (b.y - b'.y) = t) :
    ∃ C, Concentric C r (r + t) inner outer := by
  obtain ⟨C, g1, g2, h1, h2, on⟩ := arc_center_inside hr hq hI u1 u2 p1 p2 i1 i2
  obtain ⟨C', g1', g2', h1', h2', on'⟩ := arc_center_inside (by linarith) hq hO u2 u1 p2' p1' i2' i1'
  have hdet : n1.x * n2.y - n1.y * n2.x ≠ 0 := by
    intro h0
    -- then the normals are parallel, and the side of the second wall is along the first one
    have e : (n1.x * (c.x - b.x) + n1.y * (c.y - b.y)) * (n2.x ^ 2 + n2.y ^ 2) =
        (n1.x * n2.x + n1.y * n2.y) * (n2.x * (c.x - b.x) + n2.y * (c.y - b.y)) := by
      linear_combination ((c.x - b.x) * n2.y - (c.y - b.y) * n2.x) * h0
    rw [p2, u2] at e
    linarith
  have d1 : n1.x * (C'.x - C.x) + n1.y * (C'.y - C.y) = 0 := by linarith
  have d2 : n2.x * (C'.x - C.x) + n2.y * (C'.y - C.y) = 0 := by linarith
  have ex : C'.x = C.x := by
    have : (n1.x * n2.y - n1.y * n2.x) * (C'.x - C.x) = 0 := by linear_combination n2.y * d1 - n1.y * d2
    linarith [(mul_eq_zero.mp this).resolve_left hdet]
  have ey : C'.y = C.y := by
    have : (n1.x * n2.y - n1.y * n2.x) * (C'.y - C.y) = 0 := by linear_combination n1.x * d2 - n2.x * d1
    linarith [(mul_eq_zero.mp this).resolve_left hdet]
  rw [ex, ey] at h1' h2'
  refine ⟨C, on, ?_, ⟨-n1.x, -n1.y, 0⟩, ⟨-n2.x, -n2.y, 0⟩, ?_, ?_, ?_, ?_, ?_, ?_⟩
  · intro p hp
    have := on' p hp
    simp only [OnCircle2D, distSq2D, ex, ey] at this ⊢
    exact this
  · linarith
  · linarith
  · rw [h1]; congr 2 <;> ring
  · rw [h2]; congr 2 <;> ring
  · rw [h1']; congr 2 <;> ring
  · rw [h2']; congr 2 <;> ring

theorem above_diff {p : Plane} {x y : ℝ} (h : p.normal = ⟨x, y, 0⟩) (u v : Vec) :
    x * (u.x - v.x) + y * (u.y - v.y) = above p u - above p v := by
  unfold above
  rw [h]
  ring

set_option maxHeartbeats 800000 in
/-- **C95** The outer wall has its thickness at the rounded corners, too: at each corner, the inner and the outer side are arcs
around the same center, and the radius of the outer one is larger by the wall's thickness. -/
theorem C95_corners {cfg : KeyboardCfg} {side : Side} {fp : FullPlan} {body : Body} (h : FullPlan.make cfg side = .ok fp)
    (hb : Body.make cfg fp = .ok body) (hq : 0 < cfg.quality.maxChordAngle) (ht : 0 ≤ cfg.body.wallThickness)
    (hr : 1 / 1000000 ≤ cfg.outerCornerRadius - cfg.body.wallThickness) (hx : ConvexCorners fp.plan) :
    (∃ C, Concentric C (cfg.outerCornerRadius - cfg.body.wallThickness) cfg.outerCornerRadius body.corners.ILFG body.corners.OLFG) ∧
    (∃ C, Concentric C (cfg.outerCornerRadius - cfg.body.wallThickness) cfg.outerCornerRadius body.corners.IRFG body.corners.ORFG) ∧
    (∃ C, Concentric C (cfg.outerCornerRadius - cfg.body.wallThickness) cfg.outerCornerRadius body.corners.IRBG body.corners.ORBG) := by
  obtain ⟨hp, -⟩ := fullPlan_ok h
  have hc := (body_parts hb).corners
  generalize body.corners = c at *
  unfold bodyCorners at hc
  dsimp only at hc
  obtain ⟨ILFG, a1, hc⟩ := bind_ok hc
  obtain ⟨IRFG, a2, hc⟩ := bind_ok hc
  obtain ⟨IRBG, a3, hc⟩ := bind_ok hc
  obtain ⟨OLFG, a4, hc⟩ := bind_ok hc
  obtain ⟨ORFG, a5, hc⟩ := bind_ok hc
  obtain ⟨ORBG, a6, hc⟩ := bind_ok hc
  obtain ⟨_, -, hc⟩ := bind_ok hc
  obtain ⟨_, -, hc⟩ := bind_ok hc
  obtain ⟨_, -, hc⟩ := bind_ok hc
  obtain ⟨_, -, hc⟩ := bind_ok hc
  obtain ⟨_, -, hc⟩ := bind_ok hc
  obtain ⟨_, -, hc⟩ := bind_ok hc
  obtain ⟨_, -, hc⟩ := bind_ok hc
  obtain ⟨_, -, hc⟩ := bind_ok hc
  obtain ⟨_, -, hc⟩ := bind_ok hc
  obtain ⟨_, -, hc⟩ := bind_ok hc
  obtain ⟨_, -, hc⟩ := bind_ok hc
  cases hc
  dsimp only
  have dirs := C74_directions hp
  have nIR : fp.plan.sides.pinkyIR.normal = ⟨-Real.cos cfg.body.splitAngle, -Real.sin cfg.body.splitAngle, 0⟩ := by
    rw [dirs.2.2.2.1]
    simp [oriented, KeyboardCfg.plan]
  have nOR : fp.plan.sides.pinkyOR.normal = ⟨-Real.cos cfg.body.splitAngle, -Real.sin cfg.body.splitAngle, 0⟩ := by
    rw [dirs.2.2.2.2.1]
    simp [oriented, KeyboardCfg.plan]
  obtain ⟨B, hB⟩ : ∃ B, B = cfg.body.alnumBackAngle + cfg.body.splitAngle := ⟨_, rfl⟩
  obtain ⟨F, hF⟩ : ∃ F, F = cfg.body.thumbFrontAngle + cfg.body.splitAngle := ⟨_, rfl⟩
  have nIB : fp.plan.walls.alnumIB.normal = ⟨Real.sin B, -Real.cos B, 0⟩ := by
    rw [hB]; exact dirs.2.2.2.2.2.2.2.1 _ (by simp)
  have nOB : fp.plan.walls.alnumOB.normal = ⟨Real.sin B, -Real.cos B, 0⟩ := by
    rw [hB]; exact dirs.2.2.2.2.2.2.2.1 _ (by simp)
  have nIF : fp.plan.walls.pinkyIF.normal = ⟨-Real.sin F, Real.cos F, 0⟩ := by
    rw [hF]; exact dirs.2.2.2.2.2.2.2.2 _ (by simp)
  have nOF : fp.plan.walls.pinkyOF.normal = ⟨-Real.sin F, Real.cos F, 0⟩ := by
    rw [hF]; exact dirs.2.2.2.2.2.2.2.2 _ (by simp)
  have uB := Real.sin_sq_add_cos_sq B
  have uF := Real.sin_sq_add_cos_sq F
  have uR := Real.sin_sq_add_cos_sq cfg.body.splitAngle
  have on := fun c hc => (C70_corners hp c hc c.1).mpr rfl
  simp only [Spec.corners, List.mem_cons, List.not_mem_nil, or_false, forall_eq_or_imp, forall_eq] at on
  obtain ⟨-, -, -, ⟨-, o4, -⟩, ⟨o5, o5', -⟩, ⟨o6, o6', -⟩, ⟨o7, o7', -⟩, -, ⟨-, o9, -⟩, -, -, -, ⟨-, q4, -⟩, ⟨q5, q5', -⟩,
    ⟨q6, q6', -⟩, ⟨q7, q7', -⟩, -, -, q9, -⟩ := on
  have hins := hx.inside
  simp only [List.mem_cons, List.not_mem_nil, or_false, forall_eq_or_imp, forall_eq] at hins
  obtain ⟨j1, j2, j3, j4, j5, j6, j7, j8, j9, j10⟩ := hins
  have thick := fun v => C69_thickness hp v
  have eR : cfg.outerCornerRadius = cfg.outerCornerRadius - cfg.body.wallThickness + cfg.body.wallThickness := by ring
  have et : cfg.plan.body = cfg.body := rfl
  rw [eR] at a4 a5 a6
  refine ⟨?_, ?_, ?_⟩
  · -- the corner of the thumb keys
    obtain ⟨line, corner, tc⟩ := C70_thumb hp
    obtain ⟨n, ⟨un, k, k0, ek⟩, en⟩ := tc.plane
    have eF : fp.plan.linesF.1.dir = ⟨Real.cos F, Real.sin F, 0⟩ := by
      obtain ⟨hm⟩ := make_made hp
      rw [hm.planLinesF, hF]
      exact hm.wallsOk.pairF.2.2.trans hm.wallsOk.dirF
    have ty : fp.plan.points.thumbILF.y - fp.plan.points.thumbOLF.y = cfg.body.wallThickness := by
      rw [en] at o7 q7
      rw [eF] at ek
      have nx := congrArg Vec.x ek
      have ny := congrArg Vec.y ek
      have nz := congrArg Vec.z ek
      simp only [Vec.add_x, Vec.add_y, Vec.add_z, Vec.mul_x, Vec.mul_y, Vec.mul_z, add_zero] at nx ny nz
      have g := above_diff nOF fp.plan.points.thumbILF fp.plan.points.thumbOLF
      rw [(thick _).2.1, et, q7', o7'] at g
      have w : n.x * (fp.plan.points.thumbILF.x - fp.plan.points.thumbOLF.x) +
          n.y * (fp.plan.points.thumbILF.y - fp.plan.points.thumbOLF.y) = 0 := by linarith
      generalize fp.plan.points.thumbILF.y - fp.plan.points.thumbOLF.y = y at *
      generalize fp.plan.points.thumbILF.x - fp.plan.points.thumbOLF.x = x at *
      have w' : (Real.cos F + 1) * x + Real.sin F * y = 0 := by rw [nx, ny]; linear_combination k * w
      have hne : Real.cos F + 1 ≠ 0 := by
        intro h0
        have hs : Real.sin F = 0 := by
          have : Real.cos F = -1 := by linarith
          rw [this] at uF
          exact pow_eq_zero_iff (two_ne_zero) |>.mp (by linarith)
        rw [h0] at nx
        rw [hs] at ny
        have x0 := (mul_eq_zero.mp nx.symm).resolve_right k0.ne'
        have y0 := (mul_eq_zero.mp ny.symm).resolve_right k0.ne'
        have z0 := (mul_eq_zero.mp nz.symm).resolve_right k0.ne'
        simp [Vec.dot, x0, y0, z0] at un
      have : (Real.cos F + 1) * (y - cfg.body.wallThickness) = 0 := by
        linear_combination Real.sin F * w' + (Real.cos F + 1) * g - y * uF
      linarith [(mul_eq_zero.mp this).resolve_left hne]
    have := corner_concentric hr ht hq a1 a4 (n1 := ⟨-Real.sin F, Real.cos F, 0⟩) (n2 := ⟨0, 1, 0⟩) (by simpa using uF) (by simp)
      (by rw [above_diff nIF]; linarith) (by simp [Vec.yz]) (by rw [above_diff nIF]; linarith) (by simpa using hx.thumbI)
      (by rw [above_diff nOF]; linarith) (by simp [Vec.yz]) (by rw [above_diff nOF]; linarith) (by simpa using hx.thumbO)
      (by rw [above_diff nOF, (thick _).2.1, et]; linarith) (by simpa using ty)
    rw [eR]
    simpa only [add_sub_cancel_right] using this
  · have := corner_concentric hr ht hq a2 a5 (n1 := ⟨-Real.cos cfg.body.splitAngle, -Real.sin cfg.body.splitAngle, 0⟩)
      (n2 := ⟨-Real.sin F, Real.cos F, 0⟩) (by dsimp only; linarith) (by simpa using uF)
      (by rw [above_diff nIR]; linarith) (by rw [above_diff nIF]; linarith) (by rw [above_diff nIR]; linarith)
      (by rw [above_diff nIF]; linarith)
      (by rw [above_diff nOR]; linarith) (by rw [above_diff nOF]; linarith) (by rw [above_diff nOR]; linarith)
      (by rw [above_diff nOF]; linarith)
      (by rw [above_diff nOR, (thick _).2.2.1, et]; linarith) (by rw [above_diff nOF, (thick _).2.1, et]; linarith)
    rw [eR]
    simpa only [add_sub_cancel_right] using this
  · have := corner_concentric hr ht hq a3 a6 (n1 := ⟨Real.sin B, -Real.cos B, 0⟩)
      (n2 := ⟨-Real.cos cfg.body.splitAngle, -Real.sin cfg.body.splitAngle, 0⟩) (by simpa using uB) (by dsimp only; linarith)
      (by rw [above_diff nIB]; linarith) (by rw [above_diff nIR]; linarith) (by rw [above_diff nIB]; linarith)
      (by rw [above_diff nIR]; linarith)
      (by rw [above_diff nOB]; linarith) (by rw [above_diff nOR]; linarith) (by rw [above_diff nOB]; linarith)
      (by rw [above_diff nOR]; linarith)
      (by rw [above_diff nOB, (thick _).1, et]; linarith) (by rw [above_diff nOR, (thick _).2.2.1, et]; linarith)
    rw [eR]
    simpa only [add_sub_cancel_right] using this

theorem exConvex {H : ℝ} {side : Side} {plan : Plan} {xL x0 xR yF y1 yB zO : ℝ} (h : ExPlanned H side plan xL x0 xR yF y1 yB zO) :
    ConvexCorners plan := by
  have hx0 : 57 ≤ x0 := by linarith [h.thumb_le, h.left_eq, h.left_le]
  have hR1 := h.right_ge
  have hR2 := h.right_le
  have hy := h.pinky_le
  have hB := h.back_ge
  refine ⟨?_, ?_, ?_⟩
  · simp only [List.mem_cons, List.not_mem_nil, or_false, forall_eq_or_imp, forall_eq, above_eq, h.placed.pinkyIR, h.placed.pinkyOR,
      h.walled.alnumIB, h.walled.alnumOB, h.walled.pinkyIF, h.walled.pinkyOF, h.points, exPoints, Vec.yz]
    refine ⟨?_, ?_, ?_, ?_, ?_, ?_, ?_, ?_, ?_, ?_⟩ <;> linarith
  · rw [h.points]
    simp only [exPoints]
    linarith
  · rw [h.points]
    simp only [exPoints]
    linarith

/-- The corners of a real body. -/
example : ∃ cfg side fp body, FullPlan.make cfg side = .ok fp ∧ Body.make cfg fp = .ok body ∧ 0 < cfg.body.wallThickness ∧
    (∃ C, Concentric C (cfg.outerCornerRadius - cfg.body.wallThickness) cfg.outerCornerRadius body.corners.ILFG body.corners.OLFG) ∧
    (∃ C, Concentric C (cfg.outerCornerRadius - cfg.body.wallThickness) cfg.outerCornerRadius body.corners.IRFG body.corners.ORFG) ∧
    (∃ C, Concentric C (cfg.outerCornerRadius - cfg.body.wallThickness) cfg.outerCornerRadius body.corners.IRBG body.corners.ORBG) := by
  obtain ⟨W, H, he⟩ := exBody_made
  obtain ⟨fp, body, h1, h2, -, -, -, _, _, _, _, _, _, _, hp⟩ := he .left
  refine ⟨_, _, fp, body, h1, h2, ?_, C95_corners h1 h2 ?_ ?_ ?_ (exConvex hp)⟩ <;> norm_num [exCfg, exBody, exQuality, Real.pi_pos]

end Chrumm.Part
