import Verif.Props.PlanExample
import Verif.Props.BossSucceeds
import Verif.Props.BossWall
import Verif.Props.BodyChamfer
import Verif.Props.Strips
import Verif.Props.ArcMesh

/-! A configuration with a body. -/

namespace Chrumm.Part
open Geo Geo.Spec Spec

/-- A coarse quality, with which all arcs of a quarter circle or less have one chord. -/
noncomputable def exQuality : Quality := ⟨2, Real.pi / 2⟩

theorem exQuality_sane : SaneQuality exQuality :=
  ⟨by norm_num [exQuality], by simp only [exQuality]; linarith [Real.pi_gt_three], le_rfl⟩

theorem exQuality_angle : 0 < exQuality.maxChordAngle := by
  simp only [exQuality]; linarith [Real.pi_gt_three]

theorem arc_two {r start span : ℝ} {center : Vec} {pts : List Vec} (h1 : 1 ≤ r) (h6 : r ≤ 6) (hs : |span| ≤ Real.pi / 2)
    (h : arc2D exQuality r start span center = .ok pts) :
    pts = [circlePoint center r start, circlePoint center r (start + span)] := by
  obtain ⟨d⟩ := arc2D_data (by linarith) exQuality_angle h
  have hpi := Real.pi_gt_three
  have hc : clampSpan span = span := clampSpan_eq (by unfold tau; linarith)
  have ha : Real.pi / 4 ≤ Real.arccos (1 - exQuality.maxChordHeight / r) := by
    rw [show Real.pi / 4 = Real.arccos (Real.cos (Real.pi / 4)) from
      (Real.arccos_cos (by linarith) (by linarith)).symm]
    apply Real.arccos_le_arccos
    have h2 : (4 / 3 : ℝ) ≤ Real.sqrt 2 := Real.le_sqrt_of_sq_le (by norm_num)
    have h3 : (1 / 3 : ℝ) ≤ 2 / r := by rw [div_le_div_iff₀ (by norm_num) (by linarith)]; linarith
    rw [Real.cos_pi_div_four]
    simp only [exQuality]
    linarith
  have hm : min exQuality.maxChordAngle (Real.arccos (1 - exQuality.maxChordHeight / r) * 2) = Real.pi / 2 := by
    simp only [exQuality] at ha ⊢
    exact min_eq_left (by linarith)
  have hn := d.n_lt
  rw [hm, hc] at hn
  have : |span| / (Real.pi / 2) ≤ 1 := by rw [div_le_one (by linarith)]; exact hs
  have hn1 : d.n = 1 := by
    have : (d.n : ℝ) < 2 := by linarith
    have : d.n < 2 := by exact_mod_cast this
    have := d.n_pos
    omega
  have hp := d.pts_eq
  rw [hn1, hc, if_pos (by
    rw [gt_iff_lt, lt_abs]; right; unfold tau; linarith)] at hp
  rw [hp]
  simp [List.range_succ]

/-- The tangent angle of the fillets. -/
theorem exTangent : angle2D ⟨4, 7 / 6, 0⟩ = Real.arctan (7 / 24) ∧ Real.cos (Real.arctan (7 / 24)) = 24 / 25 ∧
    Real.sin (Real.arctan (7 / 24)) = 7 / 25 ∧ 0 ≤ Real.arctan (7 / 24) ∧ Real.arctan (7 / 24) ≤ Real.pi / 4 := by
  refine ⟨?_, ?_, ?_, (Real.arctan_pos.mpr (by norm_num)).le, ?_⟩
  · unfold angle2D
    rw [Complex.arg_of_re_nonneg (by norm_num), Real.arctan_eq_arcsin]
    congr 1
    have hn : ‖(⟨4, 7 / 6⟩ : ℂ)‖ = 25 / 6 := by
      rw [Complex.norm_def, Complex.normSq_mk, show (4 * 4 + 7 / 6 * (7 / 6) : ℝ) = (25 / 6) ^ 2 by norm_num, Real.sqrt_sq (by norm_num)]
    rw [hn, show (1 + (7 / 24 : ℝ) ^ 2) = (25 / 24) ^ 2 by norm_num, Real.sqrt_sq (by norm_num)]
    norm_num
  · have := exAngle_half.1
    rwa [show exAngle / 2 = Real.arctan (7 / 24) by unfold exAngle; ring] at this
  · have := exAngle_half.2
    rwa [show exAngle / 2 = Real.arctan (7 / 24) by unfold exAngle; ring] at this
  · rw [← Real.arctan_one]
    exact Real.arctan_strictMono.monotone (by norm_num)

theorem exTransition {e : List Vec} (h : smoothTransition exQuality 3 3 (7 / 6) 0 = .ok e) :
    e = [⟨4, 0, 0⟩, ⟨72 / 25, 21 / 25, 0⟩, ⟨0, 3, 0⟩] := by
  obtain ⟨t1, t2, t3, t4, t5⟩ := exTangent
  have hpi := Real.pi_gt_three
  unfold smoothTransition at h
  obtain ⟨⟨f, b⟩, h1, h⟩ := bind_ok h
  unfold transitionArcs at h1
  dsimp only at h1
  have ey : (3 : ℝ) - 3 + 7 / 6 = 7 / 6 := by norm_num
  have ex : Real.sqrt (max 0 ((3 + 7 / 6 : ℝ) ^ 2 - (7 / 6) ^ 2)) = 4 := by
    rw [max_eq_right (by norm_num), show ((3 + 7 / 6 : ℝ) ^ 2 - (7 / 6) ^ 2) = 4 ^ 2 by norm_num, Real.sqrt_sq (by norm_num)]
  rw [ey, ex, t1] at h1
  have et : min (max (max 0 0) (Real.arctan (7 / 24))) (89 * Real.pi / 180) = Real.arctan (7 / 24) := by
    rw [max_self, max_eq_right t4, min_eq_left (by linarith)]
  rw [et] at h1
  generalize Real.arctan (7 / 24) = t at *
  obtain ⟨fa, g1, h1⟩ := bind_ok h1
  obtain ⟨ba, g2, h1⟩ := bind_ok h1
  obtain ⟨b0, g3, h1⟩ := bind_ok h1
  obtain ⟨f1, g4, h1⟩ := bind_ok h1
  obtain ⟨ra, g5, h1⟩ := bind_ok h1
  have a1 := arc_two (by norm_num) (by norm_num) (by rw [abs_neg, abs_of_nonneg] <;> unfold tau <;> linarith) g1
  have a2 := arc_two (by norm_num) (by norm_num) (by rw [abs_of_nonneg] <;> unfold tau <;> linarith) g2
  have c1 : circlePoint ⟨4, 7 / 6, 0⟩ (7 / 6) (-tau / 4) = ⟨4, 0, 0⟩ := by
    unfold circlePoint
    rw [show -tau / 4 = -(Real.pi / 2) by unfold tau; ring, Real.cos_neg, Real.sin_neg, Real.cos_pi_div_two, Real.sin_pi_div_two]
    norm_num
  have c2 : circlePoint ⟨4, 7 / 6, 0⟩ (7 / 6) (-tau / 4 + -(tau / 4 - t)) = ⟨72 / 25, 21 / 25, 0⟩ := by
    unfold circlePoint
    rw [show -tau / 4 + -(tau / 4 - t) = t - Real.pi by unfold tau; ring, Real.cos_sub_pi, Real.sin_sub_pi, t2, t3]
    norm_num
  have c3 : circlePoint 0 3 t = ⟨72 / 25, 21 / 25, 0⟩ := by
    unfold circlePoint
    rw [t2, t3]
    norm_num
  have c4 : circlePoint 0 3 (t + (tau / 4 - t)) = ⟨0, 3, 0⟩ := by
    unfold circlePoint
    rw [show t + (tau / 4 - t) = Real.pi / 2 by unfold tau; ring, Real.cos_pi_div_two, Real.sin_pi_div_two]
    norm_num
  rw [c1, c2] at a1
  rw [c3, c4] at a2
  subst a1 a2
  rw [pyIndex_zero] at g3
  simp at g3
  rw [pyIndex_last] at g4
  simp at g4
  subst g3 g4
  rw [t2] at g5
  unfold pyDiv at g5
  rw [if_neg (by norm_num)] at g5
  obtain rfl := Except.ok.inj g5
  obtain ⟨rfl, rfl⟩ := Prod.mk.inj (Except.ok.inj h1)
  obtain rfl := Except.ok.inj h
  have e1 : edgeTranslated [⟨4, 0, 0⟩, ⟨72 / 25, 21 / 25, 0⟩] (⟨(21 / 25 - 21 / 25) / (24 / 25) * Real.sin t - (72 / 25 - 72 / 25), 0, 0⟩ : Vec) ++
      [⟨72 / 25, 21 / 25, 0⟩, ⟨0, 3, 0⟩] = [⟨4, 0, 0⟩, ⟨72 / 25, 21 / 25, 0⟩, ⟨72 / 25, 21 / 25, 0⟩, (⟨0, 3, 0⟩ : Vec)] := by
    simp [edgeTranslated]
    exact ⟨by ext <;> simp, by ext <;> simp⟩
  rw [e1, collapsed_eq_keepNe (by norm_num) _ (by simp)]
  · norm_num [keepNe]
  · intro s hs
    simp [cycPairs, pathPairs] at hs
    rcases hs with rfl | rfl | rfl | rfl
    · right; exact Real.le_sqrt_of_sq_le (by norm_num [distSq])
    · left; rfl
    · right; exact Real.le_sqrt_of_sq_le (by norm_num [distSq])
    · right; exact Real.le_sqrt_of_sq_le (by norm_num [distSq])

/-- The screws. -/
noncomputable def exBoss : BossCfg := ⟨6, 7 / 6, 1, 4, 3, 1, 3, 6, 8, 1, 1⟩

/-- A point beside a wall. -/
def beside (pos d : Vec) (s t : ℝ) : Vec := ⟨pos.x + s * d.x - t * d.y, pos.y + s * d.y + t * d.x, pos.z⟩

theorem exWallEdge {pos d : Vec} (hd : d.x ^ 2 + d.y ^ 2 = 1) {e : List Vec} (h : bossWall exQuality 4 exBoss none pos (some d) = .ok e) :
    e = [beside pos d 4 0, beside pos d (72 / 25) (21 / 25), beside pos d 0 3, beside pos d (-(72 / 25)) (21 / 25), beside pos d (-4) 0] := by
  obtain ⟨hc, hs⟩ := angle2D_unit hd
  unfold bossWall at h
  dsimp only at h
  rw [if_neg (by norm_num [exBoss])] at h
  obtain ⟨r, h1, h⟩ := bind_ok h
  obtain ⟨l, h2, h⟩ := bind_ok h
  obtain rfl := Except.ok.inj h
  have e1 : (exBoss.diameter / 2 * 2 + exBoss.outerWallMargin - 4 : ℝ) = 3 := by norm_num [exBoss]
  have e2 : exBoss.diameter / 2 = 3 := by norm_num [exBoss]
  have e3 : exBoss.innerWallFillet = 7 / 6 := rfl
  rw [e1, e2, e3] at h1 h2
  have g1 := exTransition h1
  have g2 := exTransition h2
  subst g1 g2
  have e4 : [(⟨4, 0, 0⟩ : Vec), ⟨72 / 25, 21 / 25, 0⟩, ⟨0, 3, 0⟩] ++ ([(⟨4, 0, 0⟩ : Vec), ⟨72 / 25, 21 / 25, 0⟩, ⟨0, 3, 0⟩].map Vec.mirroredX).reverse =
      [⟨4, 0, 0⟩, ⟨72 / 25, 21 / 25, 0⟩, ⟨0, 3, 0⟩, ⟨0, 3, 0⟩, ⟨-(72 / 25), 21 / 25, 0⟩, ⟨-4, 0, 0⟩] := by
    simp [Vec.mirroredX]
  have e5 : collapsed [(⟨4, 0, 0⟩ : Vec), ⟨72 / 25, 21 / 25, 0⟩, ⟨0, 3, 0⟩, ⟨0, 3, 0⟩, ⟨-(72 / 25), 21 / 25, 0⟩, ⟨-4, 0, 0⟩] (1 / 1000) =
      [⟨4, 0, 0⟩, ⟨72 / 25, 21 / 25, 0⟩, ⟨0, 3, 0⟩, ⟨-(72 / 25), 21 / 25, 0⟩, ⟨-4, 0, 0⟩] := by
    rw [collapsed_eq_keepNe (by norm_num) _ (by simp)]
    · norm_num [keepNe]
    · intro s hs
      simp [cycPairs, pathPairs] at hs
      rcases hs with rfl | rfl | rfl | rfl | rfl | rfl
      · right; exact Real.le_sqrt_of_sq_le (by norm_num [distSq])
      · right; exact Real.le_sqrt_of_sq_le (by norm_num [distSq])
      · left; rfl
      · right; exact Real.le_sqrt_of_sq_le (by norm_num [distSq])
      · right; exact Real.le_sqrt_of_sq_le (by norm_num [distSq])
      · right; exact Real.le_sqrt_of_sq_le (by norm_num [distSq])
  have tr : ∀ x y : ℝ, (⟨x, y, 0⟩ : Vec).transformed (((1 : Mat).rotatedZ (angle2D d)).translated pos) = beside pos d x y := by
    intro x y
    unfold Mat.translated Mat.rotatedZ Mat.rotateBy beside
    dsimp only
    rw [one_mul_mat, hc, hs]
    ext <;> simp [Vec.transformed, Mat.mul_def] <;> ring
  rw [e4, e5]
  simp only [edgeTransformed, List.map_cons, List.map_nil, tr]

theorem unitOf_scale {u v : Vec} {k : ℝ} (h1 : u.dot u = 1) (hk : 0 < k) (h : v = u * k) : UnitOf u v := ⟨h1, k, hk, h⟩

theorem unitOf_normalized2D {u v : Vec} (h : v.normalized2D = .ok u) : UnitOf u v.xy := by
  obtain ⟨h1, h2, h3, h4⟩ := normalized2D_ok h
  exact unitOf_scale (by simp only [Vec.dot, h4]; linarith) h1 h2

theorem unitOf_flat {u v : Vec} (h : UnitOf u v.xy) : u.z = 0 := by
  obtain ⟨-, k, hk, e⟩ := h
  have : (0 : ℝ) = u.z * k := congrArg Vec.z e
  rcases mul_eq_zero.mp this.symm with h | h
  · exact h
  · exact absurd h hk.ne'

/-- A corner of at least a right angle. -/
theorem exCorner {r : ℝ} {a b c u w : Vec} (h1 : 1 ≤ r) (h6 : r ≤ 6) (hl : left b a c ≠ 0) (hu : UnitOf u (a - b).xy) (hw : UnitOf w (c - b).xy)
    (hd : u.dot w ≤ 0) : ∃ d, 0 < d ∧ d ≤ r ∧ cornerArc2D exQuality r a b c = .ok [b.xy + u * d, b.xy + w * d] := by
  obtain ⟨pts, h⟩ := C54_succeeds exQuality r a b c exQuality_angle (by norm_num [exQuality]) (by linarith)
    (by simp only [exQuality]; linarith) hl
  obtain ⟨u', w', center, d, d0, hu', hw', hh, ht, p1, p2, hcirc⟩ := C54_tangent (by linarith) exQuality_angle h
  obtain rfl := hu.unique hu'
  obtain rfl := hw.unique hw'
  have hpts : pts = [b.xy + u * d, b.xy + w * d] := by
    unfold cornerArc2D at h
    obtain ⟨u1, g1, h⟩ := bind_ok h
    obtain ⟨w1, g2, h⟩ := bind_ok h
    obtain ⟨γ, g3, h⟩ := bind_ok h
    obtain ⟨D, g4, h⟩ := bind_ok h
    obtain ⟨e, g5, h⟩ := bind_ok h
    obtain rfl := hu.unique (unitOf_normalized2D g1)
    obtain rfl := hw.unique (unitOf_normalized2D g2)
    unfold pyAcos at g3
    split_ifs at g3
    obtain rfl := Except.ok.inj g3
    have hγ : Real.pi / 2 ≤ Real.arccos (u.dot w) := by
      rw [← Real.arccos_zero]; exact Real.arccos_le_arccos hd
    have hγ' := Real.arccos_le_pi (u.dot w)
    have := arc_two h1 h6 (by
      split_ifs
      · rw [mul_one, abs_of_nonneg] <;> linarith
      · rw [mul_neg, mul_one, abs_neg, abs_of_nonneg] <;> linarith) h
    rw [this] at hh ht ⊢
    rw [List.head?_cons, Option.some.injEq] at hh
    rw [List.getLast?_cons_cons, List.getLast?_singleton, Option.some.injEq] at ht
    rw [hh, ht]
  subst hpts
  refine ⟨d, d0, ?_, h⟩
  obtain ⟨⟨-, o1⟩, -⟩ := hcirc (b.xy + u * d) (by simp)
  have uz := unitOf_flat hu
  have wz := unitOf_flat hw
  obtain ⟨u1, -⟩ := hu
  obtain ⟨w1, -⟩ := hw
  clear hcirc hh ht h hu' hw' hl
  generalize b.xy = B at *
  simp only [distSq2D, Vec.dot, Vec.sub_x, Vec.sub_y, Vec.sub_z, Vec.add_x, Vec.add_y, Vec.add_z, Vec.mul_x, Vec.mul_y, Vec.mul_z, uz, wz] at *
  have hS : 0 ≤ (center.x - B.x - d * (u.x + w.x)) ^ 2 + (center.y - B.y - d * (u.y + w.y)) ^ 2 := by positivity
  have e : (center.x - B.x - d * (u.x + w.x)) ^ 2 + (center.y - B.y - d * (u.y + w.y)) ^ 2 =
      r ^ 2 - d ^ 2 + 2 * d ^ 2 * (u.x * w.x + u.y * w.y) := by
    linear_combination o1 + 2 * d * p2 - d ^ 2 * w1
  have hk : d ^ 2 * (u.x * w.x + u.y * w.y) ≤ 0 := mul_nonpos_of_nonneg_of_nonpos (sq_nonneg d) (by linarith)
  exact abs_le_of_sq_le_sq' (by nlinarith) (by linarith) |>.2

/-- The normal of the tent. -/
noncomputable def exNormal : Vec := ⟨336 / 625, 0, 527 / 625⟩

theorem exNormal_unit : exNormal.dot exNormal = 1 := by norm_num [exNormal, Vec.dot]

/-- The chamfer at the step. -/
theorem exChamfer {β X Y Z xL s : ℝ} (hβ : 28 ≤ β) (hL : xL = 2 * β + 1) (hX : xL + 77 ≤ X) (hX' : X ≤ xL + 92) (hs : 0 ≤ s) :
    ∃ t, -6 * s ≤ t ∧ t ≤ 0 ∧ chamferPoint ⟨xL / 2, Y - β, Z⟩ ⟨xL, Y, Z + 336 / 527 * (X - xL)⟩ ⟨X, Y, Z⟩ exNormal s =
      .ok ⟨xL + 527 / 625 * t, Y + s, Z + 336 / 527 * (X - xL) - 336 / 625 * t⟩ := by
  obtain ⟨D, hD⟩ : ∃ D, D = X - xL := ⟨_, rfl⟩
  obtain ⟨α, hα⟩ : ∃ α, α = 527 / 625 * (β + 1 / 2) - 112896 / 329375 * D := ⟨_, rfl⟩
  have c1 : exNormal.cross ((⟨xL, Y, Z + 336 / 527 * (X - xL)⟩ : Vec) - ⟨xL / 2, Y - β, Z⟩) = ⟨-(527 / 625) * β, α, 336 / 625 * β⟩ := by
    rw [hα, hD]
    ext <;> simp only [exNormal, Vec.cross, Vec.sub_x, Vec.sub_y, Vec.sub_z] <;> rw [hL] <;> ring
  have c2 : exNormal.cross ((⟨X, Y, Z⟩ : Vec) - ⟨xL, Y, Z + 336 / 527 * (X - xL)⟩) = ⟨0, 625 / 527 * D, 0⟩ := by
    rw [hD]
    ext <;> simp only [exNormal, Vec.cross, Vec.sub_x, Vec.sub_y, Vec.sub_z] <;> ring
  have hα1 : α ≤ β := by rw [hα]; linarith
  have hα2 : -32 ≤ α := by rw [hα]; linarith
  obtain ⟨q, h⟩ := C92_succeeds s exNormal_unit (a := ⟨xL / 2, Y - β, Z⟩) (b := ⟨xL, Y, Z + 336 / 527 * (X - xL)⟩) (c := ⟨X, Y, Z⟩)
    (by rw [c1]; intro e; have := (Vec.mk.inj e).1; linarith) (by rw [c2]; intro e; have := (Vec.mk.inj e).2.1; linarith)
  have hi := C92_point exNormal_unit h
  have sharp : Sharp exNormal ⟨xL / 2, Y - β, Z⟩ ⟨xL, Y, Z + 336 / 527 * (X - xL)⟩ ⟨X, Y, Z⟩ := by
    unfold Sharp
    rw [c1, c2]
    simp only [Vec.dot]
    have : α ^ 2 ≤ (3 * β) ^ 2 := by apply sq_le_sq'  <;> linarith
    have hM : 0 ≤ (625 / 527 * D) ^ 2 := sq_nonneg _
    have h3 : 1 / 1000000 * (β ^ 2 + α ^ 2) ≤ β ^ 2 := by nlinarith
    nlinarith [mul_le_mul_of_nonneg_right h3 hM]
  have f := hi.flat
  have g1 := hi.first
  have g2 := hi.sharp sharp
  unfold inward at g1 g2
  rw [c1] at g1
  rw [c2] at g2
  obtain ⟨x, y, z⟩ := q
  simp only [Vec.dot, Vec.sub_x, Vec.sub_y, Vec.sub_z, exNormal] at f g1 g2
  have hDp : 0 < 625 / 527 * D := by linarith
  rw [show (0 * 0 + 625 / 527 * D * (625 / 527 * D) + 0 * 0 : ℝ) = (625 / 527 * D) ^ 2 by ring, Real.sqrt_sq hDp.le, div_eq_iff hDp.ne'] at g2
  have hy : y = Y + s := by
    have : 625 / 527 * D * (y - Y - s) = 0 := by linarith
    rcases mul_eq_zero.mp this with h | h <;> linarith
  obtain ⟨L, hLL⟩ : ∃ L, L = Real.sqrt (β ^ 2 + α ^ 2) := ⟨_, rfl⟩
  have e : (-(527 / 625) * β * (-(527 / 625) * β) + α * α + 336 / 625 * β * (336 / 625 * β) : ℝ) = β ^ 2 + α ^ 2 := by ring
  have hLp : 0 < L := by rw [hLL]; apply Real.sqrt_pos.mpr; nlinarith
  rw [e, ← hLL, div_eq_iff hLp.ne', hy] at g1
  have hLα : α ≤ L := by rw [hLL]; apply Real.le_sqrt_of_sq_le; nlinarith
  have hLu : L ≤ 3 * β := by
    rw [hLL]; apply Real.sqrt_le_iff.mpr; constructor
    · linarith
    · have : α ^ 2 ≤ (2 * β) ^ 2 := by apply sq_le_sq' <;> linarith
      nlinarith
  refine ⟨527 / 625 * (x - xL) - 336 / 625 * (z - (Z + 336 / 527 * (X - xL))), ?_, ?_, ?_⟩
  · have : β * (527 / 625 * (x - xL) - 336 / 625 * (z - (Z + 336 / 527 * (X - xL))) + 6 * s) ≥ 0 := by
      have : β * (527 / 625 * (x - xL) - 336 / 625 * (z - (Z + 336 / 527 * (X - xL)))) = s * (α - L) := by linarith
      rw [mul_add, this]
      nlinarith
    nlinarith
  · have : β * (527 / 625 * (x - xL) - 336 / 625 * (z - (Z + 336 / 527 * (X - xL)))) = s * (α - L) := by linarith
    have : β * (527 / 625 * (x - xL) - 336 / 625 * (z - (Z + 336 / 527 * (X - xL)))) ≤ 0 := by
      rw [this]; exact mul_nonpos_of_nonneg_of_nonpos hs (by linarith)
    by_contra hc
    push Not at hc
    nlinarith
  · rw [h, hy]
    congr 2 <;> linarith

theorem plane_upward {a b c N : Vec} (hN : (b - a).cross (c - a) = N) (hz : 0 < N.z) (h : N.dot N ≤ 100 * N.z ^ 2) :
    ∃ p, Plane.fromPoints a b c = .ok p ∧ 1 / 10 ≤ p.normal.z := by
  have hne : N ≠ 0 := by intro e; rw [e] at hz; simp at hz
  unfold Plane.fromPoints
  rw [hN]
  have hm : N.magnitude = Real.sqrt (N.dot N) := rfl
  have hpos : 0 < N.dot N := by simp only [Vec.dot]; nlinarith [sq_nonneg N.x, sq_nonneg N.y]
  have hmp : 0 < N.magnitude := by rw [hm]; exact Real.sqrt_pos.mpr hpos
  refine ⟨⟨b, ⟨N.x / N.magnitude, N.y / N.magnitude, N.z / N.magnitude⟩⟩, ?_, ?_⟩
  · unfold Plane.make Vec.normalized Vec.div
    rw [if_neg hmp.ne']
    rfl
  · dsimp only
    rw [div_le_div_iff₀ (by norm_num) hmp, hm]
    have : Real.sqrt (N.dot N) ≤ 10 * N.z := Real.sqrt_le_iff.mpr ⟨by linarith, by nlinarith⟩
    linarith

theorem along_succeeds {p : Plane} (hp : 1 / 10 ≤ p.normal.z) (e : List Vec) : ∃ r, edgeAlong p ⟨0, 0, -1⟩ e = .ok r := by
  unfold edgeAlong
  refine mapM_ok_of _ fun v _ => ?_
  have h1 : Line.make v ⟨0, 0, -1⟩ = .ok ⟨v, ⟨0, 0, -1⟩⟩ := line_self (by simp [Vec.dot])
  rw [h1]
  dsimp only [bind, Except.bind]
  unfold Plane.intersectLine pyDiv
  have hz : p.normal.dot ⟨0, 0, -1⟩ = -p.normal.z := by simp [Vec.dot]
  rw [hz, if_neg (by unfold isZero; rw [abs_neg, abs_of_pos (by linarith)]; norm_num; linarith), if_neg (by linarith)]
  exact ⟨_, rfl⟩

theorem exSlope {β X Y Z xL s t : ℝ} (hβ : 28 ≤ β) (hL : xL = 2 * β + 1) (hX : xL + 77 ≤ X) (hX' : X ≤ xL + 92) (hs : 0 ≤ s) (ht : t ≤ 0) :
    ∃ p, Plane.fromPoints ⟨X, Y, Z⟩ ⟨xL + 527 / 625 * t, Y + s, Z + 336 / 527 * (X - xL) - 336 / 625 * t⟩ ⟨xL / 2, Y - β, Z⟩ = .ok p ∧
      1 / 10 ≤ p.normal.z := by
  obtain ⟨E, hE⟩ : ∃ E, E = X - xL - 527 / 625 * t := ⟨_, rfl⟩
  have hE0 : 0 < E := by linarith
  refine plane_upward (N := ⟨β * (336 / 527 * E), -(336 / 527 * E * (X - xL / 2)), β * E + s * (X - xL / 2)⟩) ?_ ?_ ?_
  · rw [hE]
    ext <;> simp only [Vec.cross, Vec.sub_x, Vec.sub_y, Vec.sub_z] <;> ring
  · dsimp only
    have : 0 < β * E := by positivity
    have : 0 ≤ s * (X - xL / 2) := mul_nonneg hs (by linarith)
    linarith
  · simp only [Vec.dot]
    have h1 : X - xL / 2 ≤ 5 * β := by linarith
    have h2 : 0 ≤ X - xL / 2 := by linarith
    have h3 : β * E ≤ β * E + s * (X - xL / 2) := by linarith [mul_nonneg hs h2]
    have h0 : 0 < β * E := by positivity
    have h4 : E * (X - xL / 2) ≤ 5 * (β * E + s * (X - xL / 2)) := by nlinarith
    have h5 : (E * (X - xL / 2)) ^ 2 ≤ (5 * (β * E + s * (X - xL / 2))) ^ 2 := by
      apply pow_le_pow_left₀ (mul_nonneg hE0.le h2) h4
    have h6 : (β * E) ^ 2 ≤ (β * E + s * (X - xL / 2)) ^ 2 := pow_le_pow_left₀ h0.le h3 2
    generalize β * E + s * (X - xL / 2) = N at *
    nlinarith

/-- The configuration of the example. -/
noncomputable def exCfg (W H : ℝ) : KeyboardCfg where
  quality := exQuality
  layout := exGrid
  switch := exSwitch
  body := exBody W H
  outerCornerRadius := 6
  outerChamfer := 1
  boss := exBoss
  support := none
  encoder := none
  bracket := none
  nutSide := .left
  cable := none
  mount := none
  floor := ⟨3, 1, 1 / 2, 1, 2, 1 / 2, none⟩
  palm := none
  bumper := none

theorem exCfg_plan (W H : ℝ) : (exCfg W H).plan = exPlan W H := rfl

/-- The gradient of the distances is the normal. -/
theorem normal_at {p : Plane} {A C D : ℝ} (h : ∀ v, p.distance v = A * v.x + C * v.z + D) : p.normal = ⟨A, 0, C⟩ := by
  have e0 := h 0
  have e1 := h ⟨1, 0, 0⟩
  have e2 := h ⟨0, 1, 0⟩
  have e3 := h ⟨0, 0, 1⟩
  simp only [Plane.distance, Vec.dot, Vec.sub_x, Vec.sub_y, Vec.sub_z, Vec.zero_x, Vec.zero_y, Vec.zero_z] at e0 e1 e2 e3
  ext <;> dsimp only <;> linarith

theorem projectZ_at {p : Plane} {A C D : ℝ} (h : ∀ v, p.distance v = A * v.x + C * v.z + D) (hC : 1 / 10 ≤ C) (v : Vec) :
    p.projectZ v = .ok ⟨v.x, v.y, -(A * v.x + D) / C⟩ := by
  have hn := normal_at h
  have hv := h v
  unfold Plane.projectZ pyDiv
  have hz : p.normal.z = C := by rw [hn]
  rw [hz, if_neg (by unfold isZero; rw [abs_of_pos (by linarith)]; norm_num; linarith), if_neg (by linarith)]
  dsimp only [bind, Except.bind, pure, Except.pure]
  have : p.normal.dot (p.pos - v) = -(A * v.x + C * v.z + D) := by
    rw [← hv]
    simp only [Plane.distance, Vec.dot, Vec.sub_x, Vec.sub_y, Vec.sub_z]; ring
  rw [this]
  congr 2
  field_simp
  ring

theorem edgeProjectZ_at {p : Plane} {A C D : ℝ} (h : ∀ v, p.distance v = A * v.x + C * v.z + D) (hC : 1 / 10 ≤ C) (e : List Vec) :
    edgeProjectZ p e = .ok (e.map fun v => ⟨v.x, v.y, -(A * v.x + D) / C⟩) := by
  unfold edgeProjectZ
  induction e with
  | nil => rfl
  | cons v e ih =>
    rw [List.mapM_cons, projectZ_at h hC, ih]
    rfl

section
variable {H : ℝ} {side : Side} {plan : Plan} {xL x0 xR yF y1 yB zO : ℝ}

theorem ExPlanned.alnumOT_at (h : ExPlanned H side plan xL x0 xR yF y1 yB zO) :
    ∀ v, plan.tent.alnumOT.distance v = 336 / 625 * v.x + 527 / 625 * v.z + (-(336 / 625 * (x0 + 79)) - 527 / 625 * zO) := by
  intro v; rw [h.placed.alnumOT]; ring

theorem ExPlanned.alnumIT_at (h : ExPlanned H side plan xL x0 xR yF y1 yB zO) :
    ∀ v, plan.tent.alnumIT.distance v = 336 / 625 * v.x + 527 / 625 * v.z + (-(336 / 625 * (x0 + 79)) - 527 / 625 * zO + 4) := by
  intro v; rw [h.placed.alnumIT]; ring

theorem ExPlanned.thumbOT_at (h : ExPlanned H side plan xL x0 xR yF y1 yB zO) :
    ∀ v, plan.tent.thumbOT.distance v = 0 * v.x + 1 * v.z + -zO := by
  intro v; rw [h.placed.thumbOT]; ring

theorem ExPlanned.thumbIT_at (h : ExPlanned H side plan xL x0 xR yF y1 yB zO) :
    ∀ v, plan.tent.thumbIT.distance v = 0 * v.x + 1 * v.z + (-zO + 4) := by
  intro v; rw [h.placed.thumbIT]; ring

theorem ExPlanned.pinkyOT_at (h : ExPlanned H side plan xL x0 xR yF y1 yB zO) :
    ∀ v, plan.tent.pinkyOT.distance v = 0 * v.x + 1 * v.z + -zO := by
  intro v; rw [h.placed.pinkyOT]; ring

theorem ExPlanned.pinkyIT_at (h : ExPlanned H side plan xL x0 xR yF y1 yB zO) :
    ∀ v, plan.tent.pinkyIT.distance v = 0 * v.x + 1 * v.z + (-zO + 4) := by
  intro v; rw [h.placed.pinkyIT]; ring

theorem exBoss_made {W H : ℝ} {pos d : Vec} {roof : Plane} (hd : d.x ^ 2 + d.y ^ 2 = 1)
    (hr : UnitNormal roof ∧ 1 / 1000000 ≤ roof.normal.z ∧ roof.distance ⟨pos.x, pos.y, 6⟩ ≤ -1) :
    ∃ b, bodyBoss (exCfg W H) pos d roof = .ok b ∧ b.pos = pos ∧
      b.wallEdge = [beside pos d 4 0, beside pos d (72 / 25) (21 / 25), beside pos d 0 3, beside pos d (-(72 / 25)) (21 / 25), beside pos d (-4) 0] := by
  obtain ⟨b, h1, h2⟩ := C78_succeeds (exCfg W H).quality (exCfg W H).body.wallThickness (exCfg W H).floor.outerHeight (exCfg W H).boss
    (exCfg W H).support pos ⟨1, 0, 0⟩ (some d) (some roof) exQuality_sane (by norm_num [exCfg, exBoss, exQuality])
    (by norm_num [exCfg, exBoss, exQuality]) (by norm_num [exCfg, exBoss, exQuality]) (by norm_num [exCfg, exBoss, exQuality]) (by simp [exCfg])
    (by
      rintro _ ⟨⟩
      exact ⟨hr.1, hr.2.1, hr.2.2, by norm_num [exCfg, exBoss]⟩)
  refine ⟨b, h1, h2, ?_⟩
  unfold Boss.make at h1
  obtain ⟨e, g1, h1⟩ := bind_ok h1
  obtain ⟨⟨c1, c2, c3⟩, -, h1⟩ := bind_ok h1
  obtain ⟨⟨t1, t2⟩, -, h1⟩ := bind_ok h1
  obtain rfl := Except.ok.inj h1
  exact exWallEdge hd g1

theorem exFull {W H : ℝ} (hH : 10 ≤ H) (hp : Plan.make (exPlan W H) side = .ok plan) (h : ExPlanned H side plan xL x0 xR yF y1 yB zO) :
    ∃ fp, FullPlan.make (exCfg W H) side = .ok fp ∧ fp.plan = plan ∧ fp.hitch = none ∧
      fp.bosses.alnumB.wallEdge = (let b := beside plan.bossPos.alnumB ⟨-1, 0, 0⟩; [b 4 0, b (72 / 25) (21 / 25), b 0 3, b (-(72 / 25)) (21 / 25), b (-4) 0]) ∧
      fp.bosses.pinkyB.wallEdge = (let b := beside plan.bossPos.pinkyB ⟨-1, 0, 0⟩; [b 4 0, b (72 / 25) (21 / 25), b 0 3, b (-(72 / 25)) (21 / 25), b (-4) 0]) ∧
      fp.bosses.pinkyF.wallEdge = (let b := beside plan.bossPos.pinkyF ⟨1519 / 1681, 720 / 1681, 0⟩; [b 4 0, b (72 / 25) (21 / 25), b 0 3, b (-(72 / 25)) (21 / 25), b (-4) 0]) ∧
      fp.bosses.thumbF.wallEdge = (let b := beside plan.bossPos.thumbF ⟨1519 / 1681, 720 / 1681, 0⟩; [b 4 0, b (72 / 25) (21 / 25), b 0 3, b (-(72 / 25)) (21 / 25), b (-4) 0]) := by
  have u1 := normal_at h.alnumOT_at
  have u2 := normal_at h.pinkyOT_at
  have u3 := normal_at h.thumbOT_at
  have hz := h.high
  have ab := abs_le.mp h.alnumB.1
  obtain ⟨b1, e1, -, w1⟩ := exBoss_made (W := W) (H := H) (pos := plan.bossPos.alnumB) (d := ⟨-1, 0, 0⟩) (roof := plan.tent.alnumOT) (by norm_num)
    ⟨by unfold UnitNormal; rw [u1]; norm_num, by rw [u1]; norm_num, by rw [h.placed.alnumOT]; dsimp only; linarith⟩
  obtain ⟨b2, e2, -, w2⟩ := exBoss_made (W := W) (H := H) (pos := plan.bossPos.pinkyB) (d := ⟨-1, 0, 0⟩) (roof := plan.tent.pinkyOT) (by norm_num)
    ⟨by unfold UnitNormal; rw [u2]; norm_num, by rw [u2]; norm_num, by rw [h.placed.pinkyOT]; dsimp only; linarith⟩
  obtain ⟨b3, e3, -, w3⟩ := exBoss_made (W := W) (H := H) (pos := plan.bossPos.pinkyF) (d := ⟨1519 / 1681, 720 / 1681, 0⟩) (roof := plan.tent.pinkyOT) (by norm_num)
    ⟨by unfold UnitNormal; rw [u2]; norm_num, by rw [u2]; norm_num, by rw [h.placed.pinkyOT]; dsimp only; linarith⟩
  obtain ⟨b4, e4, -, w4⟩ := exBoss_made (W := W) (H := H) (pos := plan.bossPos.thumbF) (d := ⟨1519 / 1681, 720 / 1681, 0⟩) (roof := plan.tent.thumbOT) (by norm_num)
    ⟨by unfold UnitNormal; rw [u3]; norm_num, by rw [u3]; norm_num, by rw [h.placed.thumbOT]; dsimp only; linarith⟩
  refine ⟨⟨plan, ⟨b1, b2, b3, b4⟩, none⟩, ?_, rfl, rfl, w1, w2, w3, w4⟩
  unfold FullPlan.make Bosses.make
  rw [exCfg_plan, hp]
  dsimp only [bind, Except.bind]
  rw [h.dirB, h.dirF, e1]
  dsimp only
  rw [e2]
  dsimp only
  rw [e3]
  dsimp only
  rw [e4]
  rfl

theorem exStep {W : ℝ} {fp : FullPlan} (hfp : fp.plan = plan) (h : ExPlanned H side plan xL x0 xR yF y1 yB zO) :
    ∃ s tI tO, bodyStep (exCfg W H) fp = .ok s ∧ -6 ≤ tI ∧ tI ≤ 0 ∧ -12 ≤ tO ∧ tO ≤ 0 ∧
      s.alnumILF = ⟨xL + 527 / 625 * tI, yF + 4 + 5 / 8, zO - 4 + 336 / 527 * (x0 + 79 - 7 / 6 - xL) - 336 / 625 * tI⟩ ∧
      s.alnumOLF = ⟨xL + 527 / 625 * tO, yF + 5 / 4, zO + 336 / 527 * (x0 + 79 - xL) - 336 / 625 * tO⟩ := by
  have hβ : 28 ≤ (yF - y1) / 2 := by linarith [h.thumb_le]
  have hL : xL = 2 * ((yF - y1) / 2) + 1 := by rw [h.left_eq]; ring
  have l1 := h.left_le
  have l2 := h.left_ge
  obtain ⟨tI, i1, i2, i3⟩ := exChamfer (X := x0 + 79 - 7 / 6) (Y := yF + 4) (Z := zO - 4) (s := 5 / 8) hβ hL (by linarith) (by linarith) (by norm_num)
  obtain ⟨tO, o1, o2, o3⟩ := exChamfer (X := x0 + 79) (Y := yF) (Z := zO) (s := 5 / 4) hβ hL (by linarith) (by linarith) (by norm_num)
  obtain ⟨pI, i4, i5⟩ := exSlope (X := x0 + 79 - 7 / 6) (Y := yF + 4) (Z := zO - 4) (s := 5 / 8) hβ hL (by linarith) (by linarith) (by norm_num) i2
  obtain ⟨pO, o4, o5⟩ := exSlope (X := x0 + 79) (Y := yF) (Z := zO) (s := 5 / 4) hβ hL (by linarith) (by linarith) (by norm_num) o2
  have hxL : 57 ≤ xL := by linarith
  obtain ⟨aI, a1⟩ := C54_succeeds exQuality 10 ⟨xL / 2, yF + 4 - (yF - y1) / 2, zO - 4⟩ ⟨xL, yF + 4, zO - 4⟩ ⟨x0 + 79 - 7 / 6, yF + 4, zO - 4⟩
    exQuality_angle (by norm_num [exQuality]) (by norm_num) (by norm_num [exQuality]) (by
      simp only [left]
      have : (0 : ℝ) < (yF - y1) / 2 * (x0 + 79 - 7 / 6 - xL) := mul_pos (by linarith) (by linarith)
      intro e; linarith)
  obtain ⟨aO, a2⟩ := C54_succeeds exQuality 6 ⟨x0 + 79, yF, zO⟩ ⟨xL, yF, zO⟩ ⟨xL / 2, yF - (yF - y1) / 2, zO⟩
    exQuality_angle (by norm_num [exQuality]) (by norm_num) (by norm_num [exQuality]) (by
      simp only [left]
      have : (0 : ℝ) < (yF - y1) / 2 * (x0 + 79 - xL) := mul_pos (by linarith) (by linarith)
      intro e; linarith)
  obtain ⟨eI, b1⟩ := along_succeeds i5 (aI.map fun v => ⟨v.x, v.y, -(0 * v.x + (-zO + 4)) / 1⟩)
  obtain ⟨eO, b2⟩ := along_succeeds o5 (aO.map fun v => ⟨v.x, v.y, -(0 * v.x + -zO) / 1⟩)
  refine ⟨⟨_, _, aI.map fun v => ⟨v.x, v.y, -(0 * v.x + (-zO + 4)) / 1⟩, eI, aO.map fun v => ⟨v.x, v.y, -(0 * v.x + -zO) / 1⟩, eO⟩, tI, tO, ?_, by linarith, i2, by linarith, o2, rfl, rfl⟩
  have dir : ((⟨xL, yF, zO⟩ : Vec) - ⟨xL, yF, zO + 336 / 527 * (x0 + 79 - xL)⟩).normalized = .ok ⟨0, 0, -1⟩ := by
    have hpos : 0 < 336 / 527 * (x0 + 79 - xL) := by linarith
    have e : ((⟨xL, yF, zO⟩ : Vec) - ⟨xL, yF, zO + 336 / 527 * (x0 + 79 - xL)⟩) = ⟨0, 0, -(336 / 527 * (x0 + 79 - xL))⟩ := by
      ext <;> simp
    rw [e]
    generalize 336 / 527 * (x0 + 79 - xL) = m at *
    have hm : (⟨0, 0, -m⟩ : Vec).magnitude = m := by
      simp only [Vec.magnitude]
      rw [show (0 * 0 + 0 * 0 + -m * -m : ℝ) = m ^ 2 by ring, Real.sqrt_sq hpos.le]
    unfold Vec.normalized Vec.div
    rw [hm, if_neg hpos.ne']
    simp [hpos.ne']
  have r1 : (⟨xL / 2, (yF + y1) / 2 + 4, zO - 4⟩ : Vec) = ⟨xL / 2, yF + 4 - (yF - y1) / 2, zO - 4⟩ := by ext <;> dsimp only; ring
  have r2 : (⟨xL / 2, (yF + y1) / 2, zO⟩ : Vec) = ⟨xL / 2, yF - (yF - y1) / 2, zO⟩ := by ext <;> dsimp only; ring
  have r3 : (⟨xL, yF + 4, zO - 2500 / 527 + 336 / 527 * (x0 + 79 - xL)⟩ : Vec) = ⟨xL, yF + 4, zO - 4 + 336 / 527 * (x0 + 79 - 7 / 6 - xL)⟩ := by
    ext <;> dsimp only; ring
  have n1 : fp.plan.tent.alnumOT.normal = exNormal := by rw [hfp, normal_at h.alnumOT_at]; rfl
  have s1 : (exCfg W H).body.innerChamfer * (125 / 100) = 5 / 8 := by show (1 / 2 : ℝ) * _ = _; norm_num
  have s2 : (exCfg W H).outerChamfer * (125 / 100) = 5 / 4 := by show (1 : ℝ) * _ = _; norm_num
  have s3 : (if (exCfg W H).outerChamfer > 0 then (exCfg W H).outerCornerRadius else 0) = 6 := by
    rw [if_pos (by show (0 : ℝ) < 1; norm_num)]; rfl
  have s4 : (if (exCfg W H).body.innerChamfer > 0 then (exCfg W H).outerCornerRadius + (exCfg W H).body.wallThickness else 0) = 10 := by
    rw [if_pos (by show (0 : ℝ) < 1 / 2; norm_num)]; show (6 : ℝ) + 4 = 10; norm_num
  unfold bodyStep
  dsimp only
  rw [n1, s1, s2, s3, s4, hfp, h.points]
  dsimp only [exPoints]
  rw [r1, r2, r3, dir]
  refine bind_ok_of rfl (bind_ok_of i3 (bind_ok_of o3 (bind_ok_of i4 (bind_ok_of o4 (bind_ok_of a1 (bind_ok_of a2 (bind_ok_of
    (edgeProjectZ_at h.thumbIT_at (by norm_num) aI) (bind_ok_of (edgeProjectZ_at h.thumbOT_at (by norm_num) aO) (bind_ok_of b1
    (bind_ok_of b2 rfl))))))))))

end

/-- The corners of the example, for arcs that start at the given distances from the corners. -/
noncomputable def exCorners (x0 xR y1 yB zO : ℝ) (b : BossPos) (d1 d2 d3 d4 d5 d6 : ℝ) : BodyCorners where
  ILFG := [⟨x0 + 1519 / 1681 * d1, y1 + 720 / 1681 * d1, 0⟩, ⟨x0 - d1, y1, 0⟩]
  IRFG := [⟨xR, y1 + 720 / 1519 * (xR - x0) + d2, 0⟩, ⟨xR - 1519 / 1681 * d2, y1 + 720 / 1519 * (xR - x0) - 720 / 1681 * d2, 0⟩]
  IRBG := [⟨xR - d3, yB, 0⟩, ⟨xR, yB - d3, 0⟩]
  OLFG := [⟨x0 + 9 / 10 - d4, y1 - 4, 0⟩, ⟨x0 + 9 / 10 + 1519 / 1681 * d4, y1 - 4 + 720 / 1681 * d4, 0⟩]
  ORFG := [⟨xR + 4 - 1519 / 1681 * d5, y1 + 720 / 1519 * (xR + 4 - x0) - 6724 / 1519 - 720 / 1681 * d5, 0⟩,
    ⟨xR + 4, y1 + 720 / 1519 * (xR + 4 - x0) - 6724 / 1519 + d5, 0⟩]
  ORBG := [⟨xR + 4, yB + 4 - d6, 0⟩, ⟨xR + 4 - d6, yB + 4, 0⟩]
  ILFT := [⟨x0 + 1519 / 1681 * d1, y1 + 720 / 1681 * d1, zO - 4⟩, ⟨x0 - d1, y1, zO - 4⟩]
  IRFT := [⟨xR, y1 + 720 / 1519 * (xR - x0) + d2, zO - 4⟩, ⟨xR - 1519 / 1681 * d2, y1 + 720 / 1519 * (xR - x0) - 720 / 1681 * d2, zO - 4⟩]
  IRBT := [⟨xR - d3, yB, zO - 4⟩, ⟨xR, yB - d3, zO - 4⟩]
  OLFT := [⟨x0 + 9 / 10 - d4, y1 - 4, zO⟩, ⟨x0 + 9 / 10 + 1519 / 1681 * d4, y1 - 4 + 720 / 1681 * d4, zO⟩]
  ORFT := [⟨xR + 4 - 1519 / 1681 * d5, y1 + 720 / 1519 * (xR + 4 - x0) - 6724 / 1519 - 720 / 1681 * d5, zO⟩,
    ⟨xR + 4, y1 + 720 / 1519 * (xR + 4 - x0) - 6724 / 1519 + d5, zO⟩]
  ORBT := [⟨xR + 4, yB + 4 - d6, zO⟩, ⟨xR + 4 - d6, yB + 4, zO⟩]
  bossLB := let e := b.alnumB; let z := fun x => zO - 2500 / 527 + 336 / 527 * (x0 + 79 - x)
    [⟨e.x - 4, e.y, z (e.x - 4)⟩, ⟨e.x - 72 / 25, e.y - 21 / 25, z (e.x - 72 / 25)⟩, ⟨e.x, e.y - 3, z e.x⟩,
      ⟨e.x + 72 / 25, e.y - 21 / 25, z (e.x + 72 / 25)⟩, ⟨e.x + 4, e.y, z (e.x + 4)⟩]
  bossRB := let e := b.pinkyB
    [⟨e.x - 4, e.y, zO - 4⟩, ⟨e.x - 72 / 25, e.y - 21 / 25, zO - 4⟩, ⟨e.x, e.y - 3, zO - 4⟩,
      ⟨e.x + 72 / 25, e.y - 21 / 25, zO - 4⟩, ⟨e.x + 4, e.y, zO - 4⟩]
  bossRF := (let p := beside b.pinkyF ⟨1519 / 1681, 720 / 1681, 0⟩; [p 4 0, p (72 / 25) (21 / 25), p 0 3, p (-(72 / 25)) (21 / 25), p (-4) 0]).map
    fun v => ⟨v.x, v.y, zO - 4⟩
  bossLF := (let p := beside b.thumbF ⟨1519 / 1681, 720 / 1681, 0⟩; [p 4 0, p (72 / 25) (21 / 25), p 0 3, p (-(72 / 25)) (21 / 25), p (-4) 0]).map
    fun v => ⟨v.x, v.y, zO - 4⟩


/-- A corner of at least a right angle, in coordinates. -/
theorem exCornerAt {r ux uy wx wy k m : ℝ} {a b c : Vec} (h1 : 1 ≤ r) (h6 : r ≤ 6) (hk : 0 < k) (hm : 0 < m) (hu : ux ^ 2 + uy ^ 2 = 1)
    (hw : wx ^ 2 + wy ^ 2 = 1) (hd : ux * wx + uy * wy ≤ 0) (hl : ux * wy - uy * wx ≠ 0) (a1 : a.x - b.x = ux * k) (a2 : a.y - b.y = uy * k)
    (c1 : c.x - b.x = wx * m) (c2 : c.y - b.y = wy * m) :
    ∃ d, 0 < d ∧ d ≤ r ∧ cornerArc2D exQuality r a b c = .ok [⟨b.x + ux * d, b.y + uy * d, 0⟩, ⟨b.x + wx * d, b.y + wy * d, 0⟩] := by
  have hl' : left b a c ≠ 0 := by
    simp only [left]
    rw [a1, a2, c1, c2]
    intro e
    apply hl
    have : (ux * wy - uy * wx) * (k * m) = 0 := by linarith
    rcases mul_eq_zero.mp this with h | h
    · exact h
    · exact absurd h (mul_pos hk hm).ne'
  obtain ⟨d, h, h', e⟩ := exCorner (a := a) (b := b) (c := c) (u := ⟨ux, uy, 0⟩) (w := ⟨wx, wy, 0⟩) h1 h6 hl'
    (unitOf_scale (k := k) (by simp only [Vec.dot]; linarith) hk (by ext <;> simp [Vec.xy, a1, a2]))
    (unitOf_scale (k := m) (by simp only [Vec.dot]; linarith) hm (by ext <;> simp [Vec.xy, c1, c2])) (by simp only [Vec.dot]; linarith)
  refine ⟨d, h, h', e.trans ?_⟩
  rw [show (⟨b.x + ux * d, b.y + uy * d, 0⟩ : Vec) = b.xy + (⟨ux, uy, 0⟩ : Vec) * d by ext <;> simp [Vec.xy],
    show (⟨b.x + wx * d, b.y + wy * d, 0⟩ : Vec) = b.xy + (⟨wx, wy, 0⟩ : Vec) * d by ext <;> simp [Vec.xy]]

section
variable {H : ℝ} {side : Side} {plan : Plan} {xL x0 xR yF y1 yB zO : ℝ}

theorem exCorners_made {W : ℝ} {fp : FullPlan} (hfp : fp.plan = plan) (h : ExPlanned H side plan xL x0 xR yF y1 yB zO)
    (w1 : fp.bosses.alnumB.wallEdge = (let b := beside plan.bossPos.alnumB ⟨-1, 0, 0⟩; [b 4 0, b (72 / 25) (21 / 25), b 0 3, b (-(72 / 25)) (21 / 25), b (-4) 0]))
    (w2 : fp.bosses.pinkyB.wallEdge = (let b := beside plan.bossPos.pinkyB ⟨-1, 0, 0⟩; [b 4 0, b (72 / 25) (21 / 25), b 0 3, b (-(72 / 25)) (21 / 25), b (-4) 0]))
    (w3 : fp.bosses.pinkyF.wallEdge = (let b := beside plan.bossPos.pinkyF ⟨1519 / 1681, 720 / 1681, 0⟩; [b 4 0, b (72 / 25) (21 / 25), b 0 3, b (-(72 / 25)) (21 / 25), b (-4) 0]))
    (w4 : fp.bosses.thumbF.wallEdge = (let b := beside plan.bossPos.thumbF ⟨1519 / 1681, 720 / 1681, 0⟩; [b 4 0, b (72 / 25) (21 / 25), b 0 3, b (-(72 / 25)) (21 / 25), b (-4) 0])) :
    ∃ d1 d2 d3 d4 d5 d6, (0 < d1 ∧ d1 ≤ 2) ∧ (0 < d2 ∧ d2 ≤ 2) ∧ (0 < d3 ∧ d3 ≤ 2) ∧ (0 < d4 ∧ d4 ≤ 6) ∧ (0 < d5 ∧ d5 ≤ 6) ∧ (0 < d6 ∧ d6 ≤ 6) ∧
      bodyCorners (exCfg W H) fp = .ok (exCorners x0 xR y1 yB zO plan.bossPos d1 d2 d3 d4 d5 d6) := by
  have hx0 : 57 ≤ x0 := by linarith [h.thumb_le, h.left_eq, h.left_le]
  have hR1 := h.right_ge
  have hR2 := h.right_le
  have hy := h.pinky_le
  have hB := h.back_ge
  obtain ⟨d1, p1, q1, e1⟩ := exCornerAt (r := 2) (ux := 1519 / 1681) (uy := 720 / 1681) (wx := -1) (wy := 0) (k := 79 * (1681 / 1519)) (m := x0)
    (a := plan.points.thumbIRF) (b := plan.points.thumbILF) (c := plan.points.thumbILF.yz) (by norm_num) (by norm_num) (by norm_num) (by linarith)
    (by norm_num) (by norm_num) (by norm_num) (by norm_num) (by rw [h.points]; dsimp only [exPoints]; ring) (by rw [h.points]; dsimp only [exPoints]; ring)
    (by rw [h.points]; dsimp only [exPoints, Vec.yz]; ring) (by rw [h.points]; dsimp only [exPoints, Vec.yz]; ring)
  obtain ⟨d2, p2, q2, e2⟩ := exCornerAt (r := 2) (ux := 0) (uy := 1) (wx := -(1519 / 1681)) (wy := -(720 / 1681))
    (k := yB - (y1 + 720 / 1519 * (xR - x0))) (m := (xR - x0) * (1681 / 1519))
    (a := plan.points.pinkyIRB) (b := plan.points.pinkyIRF) (c := plan.points.thumbILF) (by norm_num) (by norm_num) (by linarith) (by linarith)
    (by norm_num) (by norm_num) (by norm_num) (by norm_num) (by rw [h.points]; dsimp only [exPoints]; ring) (by rw [h.points]; dsimp only [exPoints]; ring)
    (by rw [h.points]; dsimp only [exPoints]; ring) (by rw [h.points]; dsimp only [exPoints]; ring)
  obtain ⟨d3, p3, q3, e3⟩ := exCornerAt (r := 2) (ux := -1) (uy := 0) (wx := 0) (wy := -1)
    (k := xR - (x0 + 79 - 7 / 6)) (m := yB - (y1 + 720 / 1519 * (xR - x0)))
    (a := plan.points.alnumIRB) (b := plan.points.pinkyIRB) (c := plan.points.pinkyIRF) (by norm_num) (by norm_num) (by linarith) (by linarith)
    (by norm_num) (by norm_num) (by norm_num) (by norm_num) (by rw [h.points]; dsimp only [exPoints]; ring) (by rw [h.points]; dsimp only [exPoints]; ring)
    (by rw [h.points]; dsimp only [exPoints]; ring) (by rw [h.points]; dsimp only [exPoints]; ring)
  obtain ⟨d4, p4, q4, e4⟩ := exCornerAt (r := 6) (ux := -1) (uy := 0) (wx := 1519 / 1681) (wy := 720 / 1681)
    (k := x0 + 9 / 10) (m := (79 - 9 / 10) * (1681 / 1519))
    (a := plan.points.thumbOLF.yz) (b := plan.points.thumbOLF) (c := plan.points.thumbORF) (by norm_num) (by norm_num) (by linarith) (by norm_num)
    (by norm_num) (by norm_num) (by norm_num) (by norm_num) (by rw [h.points]; dsimp only [exPoints, Vec.yz]; ring) (by rw [h.points]; dsimp only [exPoints, Vec.yz]; ring)
    (by rw [h.points]; dsimp only [exPoints]; ring) (by rw [h.points]; dsimp only [exPoints]; ring)
  obtain ⟨d5, p5, q5, e5⟩ := exCornerAt (r := 6) (ux := -(1519 / 1681)) (uy := -(720 / 1681)) (wx := 0) (wy := 1)
    (k := (xR + 4 - (x0 + 9 / 10)) * (1681 / 1519)) (m := yB + 4 - (y1 + 720 / 1519 * (xR + 4 - x0) - 6724 / 1519))
    (a := plan.points.thumbOLF) (b := plan.points.pinkyORF) (c := plan.points.pinkyORB) (by norm_num) (by norm_num) (by linarith) (by linarith)
    (by norm_num) (by norm_num) (by norm_num) (by norm_num) (by rw [h.points]; dsimp only [exPoints]; ring) (by rw [h.points]; dsimp only [exPoints]; ring)
    (by rw [h.points]; dsimp only [exPoints]; ring) (by rw [h.points]; dsimp only [exPoints]; ring)
  obtain ⟨d6, p6, q6, e6⟩ := exCornerAt (r := 6) (ux := 0) (uy := -1) (wx := -1) (wy := 0)
    (k := yB + 4 - (y1 + 720 / 1519 * (xR + 4 - x0) - 6724 / 1519)) (m := xR + 4 - (x0 + 79))
    (a := plan.points.pinkyORF) (b := plan.points.pinkyORB) (c := plan.points.alnumORB) (by norm_num) (by norm_num) (by linarith) (by linarith)
    (by norm_num) (by norm_num) (by norm_num) (by norm_num) (by rw [h.points]; dsimp only [exPoints]; ring) (by rw [h.points]; dsimp only [exPoints]; ring)
    (by rw [h.points]; dsimp only [exPoints]; ring) (by rw [h.points]; dsimp only [exPoints]; ring)
  refine ⟨d1, d2, d3, d4, d5, d6, ⟨p1, q1⟩, ⟨p2, q2⟩, ⟨p3, q3⟩, ⟨p4, q4⟩, ⟨p5, q5⟩, ⟨p6, q6⟩, ?_⟩
  have s1 : (exCfg W H).quality = exQuality := rfl
  have s2 : (exCfg W H).outerCornerRadius = 6 := rfl
  have s3 : (6 : ℝ) - (exCfg W H).body.wallThickness = 2 := by show (6 : ℝ) - 4 = 2; norm_num
  unfold bodyCorners
  dsimp only
  rw [hfp, s1, s2, s3]
  refine bind_ok_of e1 (bind_ok_of e2 (bind_ok_of e3 (bind_ok_of e4 (bind_ok_of e5 (bind_ok_of e6 ?_)))))
  refine bind_ok_of (edgeProjectZ_at h.thumbIT_at (by norm_num) _) (bind_ok_of (edgeProjectZ_at h.pinkyIT_at (by norm_num) _)
    (bind_ok_of (edgeProjectZ_at h.pinkyIT_at (by norm_num) _) (bind_ok_of (edgeProjectZ_at h.thumbOT_at (by norm_num) _)
    (bind_ok_of (edgeProjectZ_at h.pinkyOT_at (by norm_num) _) (bind_ok_of (edgeProjectZ_at h.pinkyOT_at (by norm_num) _)
    (bind_ok_of (edgeProjectZ_at h.alnumIT_at (by norm_num) _) (bind_ok_of (edgeProjectZ_at h.pinkyIT_at (by norm_num) _)
    (bind_ok_of (edgeProjectZ_at h.pinkyIT_at (by norm_num) _) (bind_ok_of (edgeProjectZ_at h.thumbIT_at (by norm_num) _) ?_)))))))))
  have b1 := abs_le.mp h.alnumB.1
  have b2 := abs_le.mp h.pinkyB.1
  have b3 := abs_le.mp h.pinkyF.1
  have b4 := abs_le.mp h.thumbF.1
  have key : ∀ c : BodyCorners, c = exCorners x0 xR y1 yB zO plan.bossPos d1 d2 d3 d4 d5 d6 →
      ((bossOverlap c plan.points.thumbIRF).bind fun _ => .ok c) = .ok (exCorners x0 xR y1 yB zO plan.bossPos d1 d2 d3 d4 d5 d6) := by
    rintro _ rfl
    have o : bossOverlap (exCorners x0 xR y1 yB zO plan.bossPos d1 d2 d3 d4 d5 d6) plan.points.thumbIRF = .ok () := by
      rw [h.points]
      unfold bossOverlap
      refine bind_ok_of (pyIndex_last.mpr rfl) (bind_ok_of (pyIndex_zero.mpr rfl) ?_)
      rw [if_neg (by simp only [List.getLast_cons_cons, List.getLast_singleton]; linarith)]
      refine bind_ok_of (pyIndex_last.mpr rfl) ?_
      rw [if_neg (by simp only [List.map, List.getLast_cons_cons, List.getLast_singleton, beside, exPoints]; linarith)]
      refine bind_ok_of (pyIndex_last.mpr rfl) (bind_ok_of (pyIndex_zero.mpr rfl) ?_)
      rw [if_neg (by simp only [List.map, List.getLast_cons_cons, List.getLast_singleton, beside, exPoints]; linarith)]
      rfl
    rw [o]
    rfl
  refine key _ ?_
  rw [w1, w2, w3, w4, h.points]
  unfold exCorners exPoints
  have e0 : ∀ x : ℝ, -(0 * x + (-zO + 4)) / 1 = zO - 4 := fun x => by ring
  have e0' : ∀ x : ℝ, -(0 * x + -zO) / 1 = zO := fun x => by ring
  have e0'' : ∀ x : ℝ, -(336 / 625 * x + (-(336 / 625 * (x0 + 79)) - 527 / 625 * zO + 4)) / (527 / 625) = zO - 2500 / 527 + 336 / 527 * (x0 + 79 - x) := fun x => by ring
  dsimp only [beside, List.map]
  simp only [e0, e0', e0'']
  simp only [BodyCorners.mk.injEq, List.cons.injEq, Vec.mk.injEq, and_true, true_and]
  clear * -
  repeat' (first | apply And.intro | ring)
end

theorem cross_up {k α β : ℝ} (hk : k ≠ 0) {a b : Vec} (h : α * a.x + β * a.y < α * b.x + β * b.y) : (⟨0, 0, k⟩ : Vec).cross (b - a) ≠ 0 := by
  intro e
  have e1 : 0 * (b.z - a.z) - k * (b.y - a.y) = 0 := congrArg Vec.x e
  have e2 : k * (b.x - a.x) - 0 * (b.z - a.z) = 0 := congrArg Vec.y e
  have e3 : b.y - a.y = 0 := by
    rcases mul_eq_zero.mp (by linarith : k * (b.y - a.y) = 0) with h | h
    · exact absurd h hk
    · exact h
  have e4 : b.x - a.x = 0 := by
    rcases mul_eq_zero.mp (by linarith : k * (b.x - a.x) = 0) with h | h
    · exact absurd h hk
    · exact h
  have : α * (b.x - a.x) + β * (b.y - a.y) = 0 := by rw [e3, e4]; ring
  linarith

/-- A chamfer along points that go up in one horizontal direction. -/
theorem rim_up {prev next n : Vec} {corner : List Vec} (size α β k : ℝ) (hn : n = ⟨0, 0, k⟩) (hk : k * k = 1) (hc : corner ≠ [])
    (h : (prev :: corner ++ [next]).IsChain fun a b => α * a.x + β * a.y < α * b.x + β * b.y) :
    ∃ rim, cornerChamfer prev corner next n size = .ok rim ∧ rim ≠ [] := by
  subst hn
  have hu : (⟨0, 0, k⟩ : Vec).dot ⟨0, 0, k⟩ = 1 := by simp [Vec.dot, hk]
  obtain ⟨rim, hr⟩ := cornerChamfer_succeeds (prev := prev) (next := next) (corner := corner) size hu
    (h.imp fun a b => cross_up (by rintro rfl; norm_num at hk))
  refine ⟨rim, hr, ?_⟩
  rintro rfl
  have := (C92_rim hu hr).1
  simp at this
  exact hc this

theorem parallel_succeeds {a b c u : Vec} (prev : Vec) (hu : UnitOf u (b - a)) (h0 : (c - b).dot (c - b) ≠ 0)
    (h : 1e-6 * (c - b).dot (c - b) ≤ (u.cross (c - b)).dot (u.cross (c - b))) : ∃ p, parallelChamfer a b c prev = .ok p := by
  have hv : b - a ≠ 0 := by
    rintro e
    obtain ⟨h1, k, hk, e'⟩ := hu
    rw [e] at e'
    have e1 : 0 = u.x * k := congrArg Vec.x e'
    have e2 : 0 = u.y * k := congrArg Vec.y e'
    have e3 : 0 = u.z * k := congrArg Vec.z e'
    have : k ^ 2 = (u.x * k) ^ 2 + (u.y * k) ^ 2 + (u.z * k) ^ 2 := by
      have : u.x * u.x + u.y * u.y + u.z * u.z = 1 := h1
      calc k ^ 2 = (u.x * u.x + u.y * u.y + u.z * u.z) * k ^ 2 := by rw [this]; ring
        _ = _ := by ring
    rw [← e1, ← e2, ← e3] at this
    nlinarith
  have hw : c - b ≠ 0 := by
    rintro e
    rw [e] at h0
    simp [Vec.dot] at h0
  obtain ⟨l, hl, -⟩ := line_succeeds prev hv
  obtain ⟨m, hm, -⟩ := line_succeeds b hw
  unfold parallelChamfer
  rw [hl]
  dsimp only [bind, Except.bind]
  rw [hm]
  dsimp only
  cases hi : (⟨prev, l⟩ : Line).intersect ⟨b, m⟩ with
  | ok p => exact ⟨p, rfl⟩
  | error e =>
    exfalso
    have := ((C25_raises_iff _ _ _ _ _ _ hl hm e).mp hi).1 u m hu (line_make hm).2
    obtain ⟨g1, k, hk, g2⟩ := (line_make hm).2
    rw [g2] at h
    have c1 : (u.cross (m * k)).dot (u.cross (m * k)) = k ^ 2 * (u.cross m).dot (u.cross m) := by
      simp only [Vec.cross, Vec.dot, Vec.mul_x, Vec.mul_y, Vec.mul_z]; ring
    have c2 : (m * k).dot (m * k) = k ^ 2 * m.dot m := by
      simp only [Vec.dot, Vec.mul_x, Vec.mul_y, Vec.mul_z]; ring
    rw [c1, c2, g1] at h
    have hk2 : 0 < k ^ 2 := by positivity
    have := mul_lt_mul_of_pos_left this hk2
    linarith

section
variable {H : ℝ} {side : Side} {plan : Plan} {xL x0 xR yF y1 yB zO : ℝ}

theorem exOuter {W : ℝ} {fp : FullPlan} (hfp : fp.plan = plan) (h : ExPlanned H side plan xL x0 xR yF y1 yB zO) {d1 d2 d3 d4 d5 d6 : ℝ}
    (h4 : 0 < d4 ∧ d4 ≤ 6) (h5 : 0 < d5 ∧ d5 ≤ 6) (h6 : 0 < d6 ∧ d6 ≤ 6) {s : BodyStep} {t : ℝ} (ht : -12 ≤ t ∧ t ≤ 0)
    (hs : s.alnumOLF = ⟨xL + 527 / 625 * t, yF + 5 / 4, zO + 336 / 527 * (x0 + 79 - xL) - 336 / 625 * t⟩) :
    ∃ o, outerRim (exCfg W H) fp (exCorners x0 xR y1 yB zO plan.bossPos d1 d2 d3 d4 d5 d6) s = .ok o ∧ o.OLFC ≠ [] ∧ o.OLFT ≠ [] := by
  have hx0 : 57 ≤ x0 := by linarith [h.thumb_le, h.left_eq, h.left_le]
  have hR1 := h.right_ge
  have hR2 := h.right_le
  have hy := h.pinky_le
  have hB := h.back_ge
  have hL := h.left_le
  have hF := h.front_le
  have hT := h.thumb_le
  have u2 := normal_at h.pinkyOT_at
  have u3 := normal_at h.thumbOT_at
  obtain ⟨r1, e1, n1⟩ := rim_up (prev := plan.points.thumbOLF.yz) (next := plan.points.thumbORF) (n := plan.tent.thumbOT.normal)
    (corner := (exCorners x0 xR y1 yB zO plan.bossPos d1 d2 d3 d4 d5 d6).OLFT) 1 1 0 1 u3 (by norm_num) (by simp [exCorners]) (by
      rw [h.points]
      simp only [exCorners, exPoints, Vec.yz, List.cons_append, List.nil_append, List.isChain_cons_cons, List.isChain_singleton, and_true]
      refine ⟨?_, ?_, ?_⟩ <;> linarith)
  obtain ⟨r2, e2, n2⟩ := rim_up (prev := plan.points.thumbORF) (next := plan.points.pinkyORB) (n := plan.tent.pinkyOT.normal)
    (corner := (exCorners x0 xR y1 yB zO plan.bossPos d1 d2 d3 d4 d5 d6).ORFT) 1 1 1 1 u2 (by norm_num) (by simp [exCorners]) (by
      rw [h.points]
      simp only [exCorners, exPoints, Vec.yz, List.cons_append, List.nil_append, List.isChain_cons_cons, List.isChain_singleton, and_true]
      refine ⟨?_, ?_, ?_⟩ <;> linarith)
  obtain ⟨r3, e3, n3⟩ := rim_up (prev := plan.points.pinkyORF) (next := plan.points.alnumORB) (n := plan.tent.pinkyOT.normal)
    (corner := (exCorners x0 xR y1 yB zO plan.bossPos d1 d2 d3 d4 d5 d6).ORBT) 1 (-1) 1 1 u2 (by norm_num) (by simp [exCorners]) (by
      rw [h.points]
      simp only [exCorners, exPoints, Vec.yz, List.cons_append, List.nil_append, List.isChain_cons_cons, List.isChain_singleton, and_true]
      refine ⟨?_, ?_, ?_⟩ <;> linarith)
  obtain ⟨p1, f1⟩ := parallel_succeeds (a := plan.points.pinkyORF) (b := plan.points.thumbORF) (c := plan.points.alnumORF)
    (u := ⟨-(1519 / 1681), -(720 / 1681), 0⟩) (r2.head n2)
    (unitOf_scale (k := (xR + 4 - (x0 + 79)) * (1681 / 1519)) (by simp only [Vec.dot]; norm_num) (by linarith)
      (by rw [h.points]; ext <;> simp [exPoints] <;> ring))
    (by
      rw [h.points]
      simp only [exPoints, Vec.dot, Vec.sub_x, Vec.sub_y, Vec.sub_z]
      have : 0 < yF - (y1 + 720 / 1519 * (x0 + 79 - x0) - 6724 / 1519) := by linarith
      nlinarith)
    (by
      rw [h.points]
      simp only [exPoints, Vec.dot, Vec.cross, Vec.sub_x, Vec.sub_y, Vec.sub_z]
      generalize yF - (y1 + 720 / 1519 * (x0 + 79 - x0) - 6724 / 1519) = Y
      norm_num
      nlinarith [sq_nonneg Y])
  obtain ⟨p2, f2⟩ := parallel_succeeds (a := plan.points.pinkyORB) (b := plan.points.alnumORB) (c := plan.points.alnumORF)
    (u := ⟨-1, 0, 0⟩) (r3.getLast n3)
    (unitOf_scale (k := (xR + 4 - (x0 + 79))) (by simp only [Vec.dot]; norm_num) (by linarith)
      (by rw [h.points]; ext <;> simp [exPoints]))
    (by
      rw [h.points]
      simp only [exPoints, Vec.dot, Vec.sub_x, Vec.sub_y, Vec.sub_z]
      have : 0 < yB + 4 - yF := by linarith
      nlinarith)
    (by
      rw [h.points]
      simp only [exPoints, Vec.dot, Vec.cross, Vec.sub_x, Vec.sub_y, Vec.sub_z]
      generalize yF - (yB + 4) = Y
      norm_num
      nlinarith [sq_nonneg Y])
  obtain ⟨p3, f3⟩ := parallel_succeeds (a := plan.points.alnumORB) (b := plan.points.alnumOLB) (c := s.alnumOLF)
    (u := ⟨-(527 / 625), 0, 336 / 625⟩) p2
    (unitOf_scale (k := (x0 + 79 - xL) * (625 / 527)) (by simp only [Vec.dot]; norm_num) (by linarith)
      (by rw [h.points]; ext <;> simp [exPoints] <;> ring))
    (by
      rw [h.points, hs]
      simp only [exPoints, Vec.dot, Vec.sub_x, Vec.sub_y, Vec.sub_z]
      have : 0 < yB + 4 - (yF + 5 / 4) := by linarith
      have h1 := mul_self_nonneg (xL + 527 / 625 * t - xL)
      have h2 := mul_self_nonneg (zO + 336 / 527 * (x0 + 79 - xL) - 336 / 625 * t - (zO + 336 / 527 * (x0 + 79 - xL)))
      nlinarith)
    (by
      rw [h.points, hs]
      simp only [exPoints, Vec.dot, Vec.cross, Vec.sub_x, Vec.sub_y, Vec.sub_z]
      have hY : yF + 5 / 4 - (yB + 4) ≤ -40 := by linarith
      generalize yF + 5 / 4 - (yB + 4) = Y at *
      have a1 : xL + 527 / 625 * t - xL = 527 / 625 * t := by ring
      have a2 : zO + 336 / 527 * (x0 + 79 - xL) - 336 / 625 * t - (zO + 336 / 527 * (x0 + 79 - xL)) = -(336 / 625 * t) := by ring
      rw [a1, a2]
      have : t * t ≤ 144 := by nlinarith
      have : 1600 ≤ Y * Y := by nlinarith
      norm_num
      nlinarith)
  have z1 : (exCfg W H).outerChamfer = 1 := rfl
  refine ⟨⟨edgeTranslated (exCorners x0 xR y1 yB zO plan.bossPos d1 d2 d3 d4 d5 d6).OLFT ⟨0, 0, -1⟩,
    edgeTranslated (exCorners x0 xR y1 yB zO plan.bossPos d1 d2 d3 d4 d5 d6).ORFT ⟨0, 0, -1⟩,
    edgeTranslated (exCorners x0 xR y1 yB zO plan.bossPos d1 d2 d3 d4 d5 d6).ORBT ⟨0, 0, -1⟩, plan.points.thumbORF + ⟨0, 0, -1⟩,
    plan.points.alnumORB + ⟨0, 0, -1⟩, plan.points.alnumOLB + ⟨0, 0, -1⟩, r1, r2, r3, p1, p2, p3⟩, ?_, ?_, n1⟩
  · unfold outerRim
    dsimp only
    rw [hfp, z1]
    exact bind_ok_of e1 (bind_ok_of e2 (bind_ok_of e3 (bind_ok_of (pyIndex_zero.mpr (by rw [← List.head?_eq_getElem?, List.head?_eq_some_head n2]))
      (bind_ok_of f1 (bind_ok_of (pyIndex_last.mpr (List.getLast?_eq_some_getLast n3)) (bind_ok_of f2 (bind_ok_of f3 rfl)))))))
  · simp [exCorners, edgeTranslated]

end

theorem cross_slope {a b n : Vec} (hn : n = ⟨-(336 / 625), 0, -(527 / 625)⟩) (hz : b.z - a.z = -(336 / 527) * (b.x - a.x)) (h : a.x < b.x) :
    n.cross (b - a) ≠ 0 := by
  subst hn
  intro e
  have e2 : -(527 / 625) * (b.x - a.x) - -(336 / 625) * (b.z - a.z) = 0 := congrArg Vec.y e
  rw [hz] at e2
  linarith

theorem rim_slope {prev next n : Vec} {corner : List Vec} (size : ℝ) (hn : n = ⟨-(336 / 625), 0, -(527 / 625)⟩) (hc : corner ≠ [])
    (h : (prev :: corner ++ [next]).IsChain fun a b => b.z - a.z = -(336 / 527) * (b.x - a.x) ∧ a.x < b.x) :
    ∃ rim, cornerChamfer prev corner next n size = .ok rim ∧ rim ≠ [] := by
  have hu : n.dot n = 1 := by rw [hn]; norm_num [Vec.dot]
  obtain ⟨rim, hr⟩ := cornerChamfer_succeeds (prev := prev) (next := next) (corner := corner) size hu
    (h.imp fun a b h => cross_slope hn h.1 h.2)
  refine ⟨rim, hr, ?_⟩
  rintro rfl
  have := (C92_rim hu hr).1
  simp at this
  exact hc this

section
variable {H : ℝ} {side : Side} {plan : Plan} {xL x0 xR yF y1 yB zO : ℝ}

set_option maxHeartbeats 1000000 in
theorem exInner {W : ℝ} {fp : FullPlan} (hfp : fp.plan = plan) (h : ExPlanned H side plan xL x0 xR yF y1 yB zO) {d1 d2 d3 d4 d5 d6 : ℝ}
    (h1 : 0 < d1 ∧ d1 ≤ 2) (h2 : 0 < d2 ∧ d2 ≤ 2) (h3 : 0 < d3 ∧ d3 ≤ 2) {s : BodyStep} {t : ℝ} (ht : -12 ≤ t ∧ t ≤ 0)
    (hs : s.alnumILF = ⟨xL + 527 / 625 * t, yF + 4 + 5 / 8, zO - 4 + 336 / 527 * (x0 + 79 - 7 / 6 - xL) - 336 / 625 * t⟩) :
    ∃ i, innerRim (exCfg W H) fp (exCorners x0 xR y1 yB zO plan.bossPos d1 d2 d3 d4 d5 d6) s = .ok i ∧ i.ILFC ≠ [] ∧ i.ILFT ≠ [] := by
  have hx0 : 57 ≤ x0 := by linarith [h.thumb_le, h.left_eq, h.left_le]
  have hR1 := h.right_ge
  have hR2 := h.right_le
  have hy := h.pinky_le
  have hB := h.back_ge
  have hL := h.left_le
  have hF := h.front_le
  have hT := h.thumb_le
  have b1 := abs_le.mp h.alnumB.1
  have b2 := abs_le.mp h.pinkyB.1
  have b3 := abs_le.mp h.pinkyF.1
  have b4 := abs_le.mp h.thumbF.1
  have u1 : -plan.tent.alnumOT.normal = ⟨-(336 / 625), 0, -(527 / 625)⟩ := by rw [normal_at h.alnumOT_at]; ext <;> simp
  have u2 : -plan.tent.pinkyOT.normal = ⟨0, 0, -1⟩ := by rw [normal_at h.pinkyOT_at]; ext <;> simp
  have u3 : -plan.tent.thumbOT.normal = ⟨0, 0, -1⟩ := by rw [normal_at h.thumbOT_at]; ext <;> simp
  obtain ⟨r1, e1, n1⟩ := rim_slope (prev := plan.points.alnumILB) (next := plan.points.alnumIRB) (n := -plan.tent.alnumOT.normal)
    (corner := (exCorners x0 xR y1 yB zO plan.bossPos d1 d2 d3 d4 d5 d6).bossLB) (1 / 2) u1 (by simp [exCorners]) (by
      rw [h.points]
      simp only [exCorners, exPoints, List.cons_append, List.nil_append, List.isChain_cons_cons, List.isChain_singleton, and_true]
      refine ⟨⟨?_, ?_⟩, ⟨?_, ?_⟩, ⟨?_, ?_⟩, ⟨?_, ?_⟩, ⟨?_, ?_⟩, ⟨?_, ?_⟩⟩ <;> linarith)
  obtain ⟨r2, e2, n2⟩ := rim_up (prev := plan.points.alnumIRB) (next := plan.points.pinkyIRB) (n := -plan.tent.pinkyOT.normal)
    (corner := (exCorners x0 xR y1 yB zO plan.bossPos d1 d2 d3 d4 d5 d6).bossRB) (1 / 2) (1) (0) (-1) u2 (by norm_num) (by simp [exCorners]) (by
      rw [h.points]
      simp only [exCorners, exPoints, beside, Vec.yz, List.map, List.cons_append, List.nil_append, List.isChain_cons_cons, List.isChain_singleton, and_true]
      refine ⟨?_, ?_, ?_, ?_, ?_, ?_⟩ <;> linarith)
  obtain ⟨r3, e3, n3⟩ := rim_up (prev := plan.points.pinkyIRF) (next := plan.points.thumbIRF) (n := -plan.tent.pinkyOT.normal)
    (corner := (exCorners x0 xR y1 yB zO plan.bossPos d1 d2 d3 d4 d5 d6).bossRF) (1 / 2) (-1) (0) (-1) u2 (by norm_num) (by simp [exCorners]) (by
      rw [h.points]
      simp only [exCorners, exPoints, beside, Vec.yz, List.map, List.cons_append, List.nil_append, List.isChain_cons_cons, List.isChain_singleton, and_true]
      refine ⟨?_, ?_, ?_, ?_, ?_, ?_⟩ <;> linarith)
  obtain ⟨r4, e4, n4⟩ := rim_up (prev := plan.points.thumbIRF) (next := plan.points.thumbILF) (n := -plan.tent.thumbOT.normal)
    (corner := (exCorners x0 xR y1 yB zO plan.bossPos d1 d2 d3 d4 d5 d6).bossLF) (1 / 2) (-1) (0) (-1) u3 (by norm_num) (by simp [exCorners]) (by
      rw [h.points]
      simp only [exCorners, exPoints, beside, Vec.yz, List.map, List.cons_append, List.nil_append, List.isChain_cons_cons, List.isChain_singleton, and_true]
      refine ⟨?_, ?_, ?_, ?_, ?_, ?_⟩ <;> linarith)
  obtain ⟨r5, e5, n5⟩ := rim_up (prev := plan.points.alnumIRB) (next := plan.points.pinkyIRF) (n := -plan.tent.pinkyOT.normal)
    (corner := (exCorners x0 xR y1 yB zO plan.bossPos d1 d2 d3 d4 d5 d6).IRBT) (1 / 2) (1) (-1) (-1) u2 (by norm_num) (by simp [exCorners]) (by
      rw [h.points]
      simp only [exCorners, exPoints, beside, Vec.yz, List.map, List.cons_append, List.nil_append, List.isChain_cons_cons, List.isChain_singleton, and_true]
      refine ⟨?_, ?_, ?_⟩ <;> linarith)
  obtain ⟨r6, e6, n6⟩ := rim_up (prev := plan.points.pinkyIRB) (next := plan.points.thumbIRF) (n := -plan.tent.pinkyOT.normal)
    (corner := (exCorners x0 xR y1 yB zO plan.bossPos d1 d2 d3 d4 d5 d6).IRFT) (1 / 2) (-1) (-1) (-1) u2 (by norm_num) (by simp [exCorners]) (by
      rw [h.points]
      simp only [exCorners, exPoints, beside, Vec.yz, List.map, List.cons_append, List.nil_append, List.isChain_cons_cons, List.isChain_singleton, and_true]
      refine ⟨?_, ?_, ?_⟩ <;> linarith)
  obtain ⟨r7, e7, n7⟩ := rim_up (prev := plan.points.thumbIRF) (next := plan.points.thumbILF.yz) (n := -plan.tent.thumbOT.normal)
    (corner := (exCorners x0 xR y1 yB zO plan.bossPos d1 d2 d3 d4 d5 d6).ILFT) (1 / 2) (-1) (0) (-1) u3 (by norm_num) (by simp [exCorners]) (by
      rw [h.points]
      simp only [exCorners, exPoints, beside, Vec.yz, List.map, List.cons_append, List.nil_append, List.isChain_cons_cons, List.isChain_singleton, and_true]
      refine ⟨?_, ?_, ?_⟩ <;> linarith)

  obtain ⟨p1, f1⟩ := parallel_succeeds (a := plan.points.pinkyIRB) (b := plan.points.alnumIRB) (c := plan.points.alnumIRF)
    (u := ⟨-1, 0, 0⟩) (r5.head n5)
    (unitOf_scale (k := (xR - (x0 + 79 - 7 / 6))) (by simp only [Vec.dot]; norm_num) (by linarith)
      (by rw [h.points]; ext <;> simp [exPoints]))
    (by
      rw [h.points]
      simp only [exPoints, Vec.dot, Vec.sub_x, Vec.sub_y, Vec.sub_z]
      have : 0 < yB - (yF + 4) := by linarith
      nlinarith)
    (by
      rw [h.points]
      simp only [exPoints, Vec.dot, Vec.cross, Vec.sub_x, Vec.sub_y, Vec.sub_z]
      generalize yF + 4 - yB = Y
      norm_num
      nlinarith [sq_nonneg Y])
  obtain ⟨p2, f2⟩ := parallel_succeeds (a := plan.points.alnumIRB) (b := plan.points.alnumILB) (c := s.alnumILF)
    (u := ⟨-(527 / 625), 0, 336 / 625⟩) p1
    (unitOf_scale (k := (x0 + 79 - 7 / 6 - xL) * (625 / 527)) (by simp only [Vec.dot]; norm_num) (by linarith)
      (by rw [h.points]; ext <;> simp [exPoints] <;> ring))
    (by
      rw [h.points, hs]
      simp only [exPoints, Vec.dot, Vec.sub_x, Vec.sub_y, Vec.sub_z]
      have : 0 < yB - (yF + 4 + 5 / 8) := by linarith
      have h1 := mul_self_nonneg (xL + 527 / 625 * t - xL)
      have h2 := mul_self_nonneg (zO - 4 + 336 / 527 * (x0 + 79 - 7 / 6 - xL) - 336 / 625 * t - (zO - 2500 / 527 + 336 / 527 * (x0 + 79 - xL)))
      nlinarith)
    (by
      rw [h.points, hs]
      simp only [exPoints, Vec.dot, Vec.cross, Vec.sub_x, Vec.sub_y, Vec.sub_z]
      have hY : yF + 4 + 5 / 8 - yB ≤ -36 := by linarith
      generalize yF + 4 + 5 / 8 - yB = Y at *
      have a1 : xL + 527 / 625 * t - xL = 527 / 625 * t := by ring
      have a2 : zO - 4 + 336 / 527 * (x0 + 79 - 7 / 6 - xL) - 336 / 625 * t - (zO - 2500 / 527 + 336 / 527 * (x0 + 79 - xL)) = -(336 / 625 * t) := by ring
      rw [a1, a2]
      have : t * t ≤ 144 := by nlinarith
      have : 1296 ≤ Y * Y := by nlinarith
      norm_num
      nlinarith)
  obtain ⟨p3, f3⟩ := parallel_succeeds (a := plan.points.pinkyIRF) (b := plan.points.thumbIRF) (c := plan.points.alnumIRF)
    (u := ⟨-(1519 / 1681), -(720 / 1681), 0⟩) (r6.getLast n6)
    (unitOf_scale (k := (xR - (x0 + 79)) * (1681 / 1519)) (by simp only [Vec.dot]; norm_num) (by linarith)
      (by rw [h.points]; ext <;> simp [exPoints] <;> ring))
    (by
      rw [h.points]
      simp only [exPoints, Vec.dot, Vec.sub_x, Vec.sub_y, Vec.sub_z]
      have : 0 < yF + 4 - (y1 + 720 / 1519 * (x0 + 79 - x0)) := by linarith
      have h1 := mul_self_nonneg (x0 + 79 - 7 / 6 - (x0 + 79))
      nlinarith)
    (by
      rw [h.points]
      simp only [exPoints, Vec.dot, Vec.cross, Vec.sub_x, Vec.sub_y, Vec.sub_z]
      have hY : 20 ≤ yF + 4 - (y1 + 720 / 1519 * (x0 + 79 - x0)) := by linarith
      generalize yF + 4 - (y1 + 720 / 1519 * (x0 + 79 - x0)) = Y at *
      have a1 : x0 + 79 - 7 / 6 - (x0 + 79) = -(7 / 6) := by ring
      rw [a1]
      norm_num
      nlinarith [sq_nonneg Y])
  have z1 : (exCfg W H).body.innerChamfer = 1 / 2 := rfl
  have z2 : decide ((exCfg W H).body.thumbTentAngle = (exCfg W H).body.pinkyTentAngle) = true := decide_eq_true rfl
  have q : innerEnds plan.points s.alnumILF r5 r6 true = .ok (p1, p2, p3) := by
    unfold innerEnds
    exact bind_ok_of (pyIndex_zero.mpr (by rw [← List.head?_eq_getElem?, List.head?_eq_some_head n5])) (bind_ok_of f1 (bind_ok_of f2
      (bind_ok_of (pyIndex_last.mpr (List.getLast?_eq_some_getLast n6)) (bind_ok_of f3 rfl))))
  have key : ∃ i, innerRim (exCfg W H) fp (exCorners x0 xR y1 yB zO plan.bossPos d1 d2 d3 d4 d5 d6) s = .ok i ∧
      i.ILFC = edgeTranslated (exCorners x0 xR y1 yB zO plan.bossPos d1 d2 d3 d4 d5 d6).ILFT ⟨0, 0, -(1 / 2)⟩ ∧ i.ILFT = r7 := by
    unfold innerRim
    dsimp only
    rw [hfp, z1, z2, e1]
    dsimp only [bind, Except.bind]
    rw [e2]
    dsimp only
    rw [e3]
    dsimp only
    rw [e4]
    dsimp only
    rw [e5]
    dsimp only
    rw [e6]
    dsimp only
    rw [e7]
    dsimp only
    rw [q]
    exact ⟨_, rfl, rfl, rfl⟩
  obtain ⟨i, g1, g2, g3⟩ := key
  refine ⟨i, g1, ?_, ?_⟩
  · rw [g2]
    simp [exCorners, edgeTranslated]
  · rw [g3]; exact n7

end

end Chrumm.Part
