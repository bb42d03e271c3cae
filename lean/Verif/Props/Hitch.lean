import Verif.Props.PalmOrderly
import Verif.Props.BossSucceeds

/-! C89, C90: the hitch of the palm rest. -/

namespace Chrumm.Part
open Geo Geo.Spec Spec Classical

/-- Two lines in the plane meet. -/
theorem flat_cross {P Q u e : Vec} (hP : P.z = 0) (hQ : Q.z = 0) (hu : u.dot u = 1) (he : e.dot e = 1) (uz : u.z = 0) (ez : e.z = 0)
    (hs : 1 / 1000 ≤ (u.x * e.y - u.y * e.x) ^ 2) :
    ∃ r, Line.intersect ⟨P, u⟩ ⟨Q, e⟩ = .ok r ∧ (∃ t : ℝ, r = P + u * t) ∧ ∃ t : ℝ, r = Q + e * t := by
  have hu' : u.x ^ 2 + u.y ^ 2 = 1 := by simp only [Vec.dot, uz] at hu; linarith
  have he' : e.x ^ 2 + e.y ^ 2 = 1 := by simp only [Vec.dot, ez] at he; linarith
  have hd : 1 - (e.dot u) ^ 2 = (u.x * e.y - u.y * e.x) ^ 2 := by
    simp only [Vec.dot, uz, ez]
    linear_combination (-(e.x ^ 2 + e.y ^ 2)) * hu' - he'
  have e1 := intersect_eq (l := ⟨P, u⟩) (m := ⟨Q, e⟩) hu he
  dsimp only at e1
  rw [hd, if_neg (by unfold isZero; rw [abs_of_nonneg (by positivity)]; linarith)] at e1
  set s := u.x * e.y - u.y * e.x with hs'
  have s0 : s ≠ 0 := by rintro e; rw [e] at hs; norm_num at hs
  have x1 : P + u * (((Q.x - P.x) * e.y - (Q.y - P.y) * e.x) / s) = Q + e * (((Q.x - P.x) * u.y - (Q.y - P.y) * u.x) / s) := by
    ext
    · simp only [Vec.add_x, Vec.mul_x]
      field_simp
      rw [hs']
      ring
    · simp only [Vec.add_y, Vec.mul_y]
      field_simp
      rw [hs']
      ring
    · simp only [Vec.add_z, Vec.mul_z, uz, ez, hP, hQ]
      ring
  have c := C25_common_point P u Q e ⟨P, u⟩ ⟨Q, e⟩ _ _ (line_self hu) (line_self he) e1 ⟨_, rfl⟩ ⟨_, x1⟩
  rw [c] at e1
  exact ⟨_, e1, ⟨_, rfl⟩, ⟨_, x1⟩⟩

/-- The coordinates along and from a wall, as numbers. -/
theorem wall_coords {a b : Vec} {M p q : ℝ} (hM : 0 < M) (hu : p ^ 2 + q ^ 2 = 1) (hx : a.x - b.x = M * p) (hy : a.y - b.y = M * q) :
    Real.sqrt (distSq2D a b) = M ∧ ∀ v, fromWall a b v = p * (v.y - a.y) - q * (v.x - a.x) ∧
      alongWall a b v = -p * (v.x - a.x) - q * (v.y - a.y) ∧ alongWall b a v = p * (v.x - b.x) + q * (v.y - b.y) := by
  have h1 : Real.sqrt (distSq2D a b) = M := by
    have : distSq2D a b = M ^ 2 := by
      unfold distSq2D
      rw [hx, hy]
      linear_combination M ^ 2 * hu
    rw [this, Real.sqrt_sq hM.le]
  have h2 : Real.sqrt (distSq2D b a) = M := by
    rw [← h1]
    unfold distSq2D
    congr 1
    ring
  refine ⟨h1, fun v => ?_⟩
  unfold fromWall alongWall left
  rw [h1, h2]
  have ex : b.x - a.x = -(M * p) := by linarith
  have ey : b.y - a.y = -(M * q) := by linarith
  rw [hx, hy, ex, ey]
  refine ⟨?_, ?_, ?_⟩
  · field_simp
    ring
  · field_simp
    ring
  · field_simp

/-- What is known about the points of a hitch. -/
structure HitchPoints (palm : PalmCfg) (a b : Vec) (olb orb olf orf posL posR : Vec) : Prop where
  back : fromWall a b olb = 0 ∧ fromWall a b orb = 0
  front : fromWall a b olf = palm.bodyMargin + palm.hitchDepth ∧ fromWall a b orf = palm.bodyMargin + palm.hitchDepth
  screwL : fromWall a b posL = palm.bodyMargin + palm.hitchDepth / 2 ∧
    alongWall a b posL = Real.sqrt (distSq2D a b) / 2 - palm.hitchScrewPitch / 2
  screwR : fromWall a b posR = palm.bodyMargin + palm.hitchDepth / 2 ∧
    alongWall b a posR = Real.sqrt (distSq2D a b) / 2 - palm.hitchScrewPitch / 2
  sideL : ∀ v ∈ [olb, olf], alongWall a b v * Real.cos palm.taperAngle - fromWall a b v * Real.sin palm.taperAngle =
    (Real.sqrt (distSq2D a b) / 2 - palm.hitchScrewPitch / 2) * Real.cos palm.taperAngle -
      (palm.bodyMargin + palm.hitchDepth / 2) * Real.sin palm.taperAngle - palm.hitchDepth / 2
  sideR : ∀ v ∈ [orb, orf], alongWall b a v * Real.cos palm.taperAngle - fromWall a b v * Real.sin palm.taperAngle =
    (Real.sqrt (distSq2D a b) / 2 - palm.hitchScrewPitch / 2) * Real.cos palm.taperAngle -
      (palm.bodyMargin + palm.hitchDepth / 2) * Real.sin palm.taperAngle - palm.hitchDepth / 2
  flat : ∀ v ∈ [olb, orb, olf, orf, posL, posR], v.z = 0
  pitch : distSq2D posL posR = palm.hitchScrewPitch ^ 2

theorem vdiv_two (v : Vec) : v.div 2 = .ok ⟨v.x / 2, v.y / 2, v.z / 2⟩ := by
  unfold Vec.div
  rw [if_neg (by norm_num)]

theorem hitchPoints_ok {palm : PalmCfg} {a b : Vec} (hne : a.xy ≠ b.xy) (ht : |palm.taperAngle| ≤ Real.pi / 4) :
    ∃ olb orb olf orf posL posR o, hitchPoints palm b a = .ok (olb, orb, olf, orf, posL, posR, o) ∧
      HitchPoints palm a b olb orb olf orf posL posR := by
  have hv : (a.xy - b.xy) ≠ 0 := by
    intro e
    apply hne
    have h1 := congrArg Vec.x e
    have h2 := congrArg Vec.y e
    simp [Vec.xy] at h1 h2
    ext
    · simp [Vec.xy]; linarith
    · simp [Vec.xy]; linarith
    · rfl
  have hc := cos_ge ht
  have hcs : Real.sin palm.taperAngle ^ 2 + Real.cos palm.taperAngle ^ 2 = 1 := Real.sin_sq_add_cos_sq _
  have hM := magnitude_ne_zero hv
  have hM0 : 0 < (a.xy - b.xy).magnitude := lt_of_le_of_ne (Real.sqrt_nonneg _) hM.symm
  have hMM : (a.xy - b.xy).magnitude ^ 2 = (a.x - b.x) ^ 2 + (a.y - b.y) ^ 2 := by
    unfold Vec.magnitude
    rw [Real.sq_sqrt (by nlinarith [mul_self_nonneg (a.xy - b.xy).x, mul_self_nonneg (a.xy - b.xy).y, mul_self_nonneg (a.xy - b.xy).z])]
    simp [Vec.xy]
    ring
  unfold hitchPoints
  dsimp only
  have hw : (a.xy - b.xy).normalized = .ok ⟨(a.x - b.x) / (a.xy - b.xy).magnitude, (a.y - b.y) / (a.xy - b.xy).magnitude, 0⟩ := by
    unfold Vec.normalized Vec.div
    rw [if_neg hM]
    simp [Vec.xy]
  rw [hw]
  generalize (a.xy - b.xy).magnitude = M at *
  set p := (a.x - b.x) / M with hp
  set q := (a.y - b.y) / M with hq
  have hx : a.x - b.x = M * p := by rw [hp]; field_simp
  have hy : a.y - b.y = M * q := by rw [hq]; field_simp
  have hu : p ^ 2 + q ^ 2 = 1 := by
    have : M ^ 2 * (p ^ 2 + q ^ 2) = M ^ 2 * 1 := by rw [hx, hy] at hMM; linarith
    exact mul_left_cancel₀ (by positivity) this
  clear_value p q
  obtain ⟨hS, co⟩ := wall_coords hM0 hu hx hy
  generalize hcd : Real.cos palm.taperAngle = c at *
  generalize hsd : Real.sin palm.taperAngle = s at *
  have c2 : 49 / 100 ≤ c ^ 2 := by nlinarith
  have o1 : (⟨p, q, 0⟩ : Vec).ortho2D = ⟨-q, p, 0⟩ := rfl
  have o2 : (⟨-q, p, 0⟩ : Vec).transformed ((1 : Mat).rotatedZ palm.taperAngle) = ⟨-q * c - p * s, -q * s + p * c, 0⟩ := by
    ext <;> simp [Vec.transformed, Mat.rotatedZ, Mat.rotateBy, Mat.one_def, Mat.mul_def, hcd, hsd]
    ring
  have o3 : -((⟨-q, p, 0⟩ : Vec).transformed ((1 : Mat).rotatedZ (-palm.taperAngle))) = ⟨q * c - p * s, -q * s - p * c, 0⟩ := by
    ext <;> simp [Vec.transformed, Mat.rotatedZ, Mat.rotateBy, Mat.one_def, Mat.mul_def, hcd, hsd] <;> ring
  have o4 : (⟨-q * c - p * s, -q * s + p * c, 0⟩ : Vec).ortho2D = ⟨q * s - p * c, -q * c - p * s, 0⟩ := by
    ext <;> simp [Vec.ortho2D]
    ring
  have o5 : (⟨q * c - p * s, -q * s - p * c, 0⟩ : Vec).ortho2D = ⟨q * s + p * c, q * c - p * s, 0⟩ := by
    ext <;> simp [Vec.ortho2D]
    ring
  have u0 : (⟨p, q, 0⟩ : Vec).dot ⟨p, q, 0⟩ = 1 := by simp only [Vec.dot]; linarith
  have u1 : (⟨-q * c - p * s, -q * s + p * c, 0⟩ : Vec).dot ⟨-q * c - p * s, -q * s + p * c, 0⟩ = 1 := by
    simp only [Vec.dot]
    linear_combination (s ^ 2 + c ^ 2) * hu + hcs
  have u2 : (⟨q * c - p * s, -q * s - p * c, 0⟩ : Vec).dot ⟨q * c - p * s, -q * s - p * c, 0⟩ = 1 := by
    simp only [Vec.dot]
    linear_combination (s ^ 2 + c ^ 2) * hu + hcs
  have x1 : 1 / 1000 ≤ (p * (-q * s + p * c) - q * (-q * c - p * s)) ^ 2 := by
    have : p * (-q * s + p * c) - q * (-q * c - p * s) = c := by linear_combination c * hu
    rw [this]; linarith
  have x2 : 1 / 1000 ≤ (p * (-q * s - p * c) - q * (q * c - p * s)) ^ 2 := by
    have : p * (-q * s - p * c) - q * (q * c - p * s) = -c := by linear_combination -c * hu
    rw [this, neg_sq]; linarith
  have d1 : (a.xy + b.xy).div 2 = .ok ⟨(a.x + b.x) / 2, (a.y + b.y) / 2, 0⟩ := by
    rw [vdiv_two]; simp [Vec.xy]
  have d2 : ((⟨p, q, 0⟩ : Vec) * palm.hitchScrewPitch).div 2 = .ok ⟨p * palm.hitchScrewPitch / 2, q * palm.hitchScrewPitch / 2, 0⟩ := by
    rw [vdiv_two]; simp
  have d3 : ((⟨q * s - p * c, -q * c - p * s, 0⟩ : Vec) * palm.hitchDepth).div 2 =
      .ok ⟨(q * s - p * c) * palm.hitchDepth / 2, (-q * c - p * s) * palm.hitchDepth / 2, 0⟩ := by
    rw [vdiv_two]; simp
  have d4 : ((⟨q * s + p * c, q * c - p * s, 0⟩ : Vec) * palm.hitchDepth).div 2 =
      .ok ⟨(q * s + p * c) * palm.hitchDepth / 2, (q * c - p * s) * palm.hitchDepth / 2, 0⟩ := by
    rw [vdiv_two]; simp
  set B : Vec := ⟨(a.x + b.x) / 2, (a.y + b.y) / 2, 0⟩ with hB
  set Fr : Vec := B + (⟨-q, p, 0⟩ : Vec) * (palm.bodyMargin + palm.hitchDepth) with hFr
  set bl : Vec := B + (⟨-q, p, 0⟩ : Vec) * (palm.bodyMargin + palm.hitchDepth / 2) + ⟨p * palm.hitchScrewPitch / 2, q * palm.hitchScrewPitch / 2, 0⟩ with hbl
  set br : Vec := B + (⟨-q, p, 0⟩ : Vec) * (palm.bodyMargin + palm.hitchDepth / 2) - ⟨p * palm.hitchScrewPitch / 2, q * palm.hitchScrewPitch / 2, 0⟩ with hbr
  set L0 : Vec := bl - ⟨(q * s - p * c) * palm.hitchDepth / 2, (-q * c - p * s) * palm.hitchDepth / 2, 0⟩ with hL0
  set R0 : Vec := br - ⟨(q * s + p * c) * palm.hitchDepth / 2, (q * c - p * s) * palm.hitchDepth / 2, 0⟩ with hR0
  have zB : B.z = 0 := rfl
  have zF : Fr.z = 0 := by simp [hFr, hB]
  have zbl : bl.z = 0 := by simp [hbl, hB]
  have zbr : br.z = 0 := by simp [hbr, hB]
  have zL : L0.z = 0 := by simp [hL0, zbl]
  have zR : R0.z = 0 := by simp [hR0, zbr]
  obtain ⟨olb, i1, ⟨t1, j1⟩, ⟨r1, k1⟩⟩ := flat_cross zB zL u0 u1 rfl rfl x1
  obtain ⟨orb, i2, ⟨t2, j2⟩, ⟨r2, k2⟩⟩ := flat_cross zB zR u0 u2 rfl rfl x2
  obtain ⟨olf, i3, ⟨t3, j3⟩, ⟨r3, k3⟩⟩ := flat_cross zF zL u0 u1 rfl rfl x1
  obtain ⟨orf, i4, ⟨t4, j4⟩, ⟨r4, k4⟩⟩ := flat_cross zF zR u0 u2 rfl rfl x2
  refine ⟨olb, orb, olf, orf, bl, br, ⟨q * s - p * c, -q * c - p * s, 0⟩, ?_, ?_⟩
  · refine bind_ok_of rfl ?_
    rw [o1, o2, o3, o4, o5]
    refine bind_ok_of d1 (bind_ok_of d2 ?_)
    refine bind_ok_of (line_self u0) (bind_ok_of (line_self u0) (bind_ok_of d3 (bind_ok_of (line_self u1) (bind_ok_of d4 (bind_ok_of (line_self u2) ?_)))))
    exact bind_ok_of i1 (bind_ok_of i2 (bind_ok_of i3 (bind_ok_of i4 rfl)))
  · have ex : b.x = a.x - M * p := by linarith
    have ey : b.y = a.y - M * q := by linarith
    refine ⟨⟨?_, ?_⟩, ⟨?_, ?_⟩, ⟨?_, ?_⟩, ⟨?_, ?_⟩, ?_, ?_, ?_, ?_⟩
    · rw [(co _).1, j1]; simp [hB, ex, ey]; ring
    · rw [(co _).1, j2]; simp [hB, ex, ey]; ring
    · rw [(co _).1, j3]; simp [hFr, hB, ex, ey]; linear_combination (palm.bodyMargin + palm.hitchDepth) * hu
    · rw [(co _).1, j4]; simp [hFr, hB, ex, ey]; linear_combination (palm.bodyMargin + palm.hitchDepth) * hu
    · rw [(co _).1]; simp [hbl, hB, ex, ey]; linear_combination (palm.bodyMargin + palm.hitchDepth / 2) * hu
    · rw [(co _).2.1, hS]; simp [hbl, hB, ex, ey]; linear_combination (M / 2 - palm.hitchScrewPitch / 2) * hu
    · rw [(co _).1]; simp [hbr, hB, ex, ey]; linear_combination (palm.bodyMargin + palm.hitchDepth / 2) * hu
    · rw [(co _).2.2, hS]; simp [hbr, hB, ex, ey]; linear_combination (M / 2 - palm.hitchScrewPitch / 2) * hu
    · have line : ∀ r : ℝ, alongWall a b (L0 + (⟨-q * c - p * s, -q * s + p * c, 0⟩ : Vec) * r) * c -
          fromWall a b (L0 + (⟨-q * c - p * s, -q * s + p * c, 0⟩ : Vec) * r) * s =
            (M / 2 - palm.hitchScrewPitch / 2) * c - (palm.bodyMargin + palm.hitchDepth / 2) * s - palm.hitchDepth / 2 := by
        intro r
        rw [(co _).1, (co _).2.1]
        simp only [hL0, hbl, hB, ex, ey, Vec.add_x, Vec.add_y, Vec.sub_x, Vec.sub_y, Vec.mul_x, Vec.mul_y]
        linear_combination ((M / 2 - palm.hitchScrewPitch / 2) * c - (palm.bodyMargin + palm.hitchDepth / 2) * s - palm.hitchDepth / 2 * (s ^ 2 + c ^ 2)) * hu -
          palm.hitchDepth / 2 * hcs
      intro v hv
      simp only [List.mem_cons, List.not_mem_nil, or_false] at hv
      rw [hS, hcd, hsd]
      rcases hv with rfl | rfl
      · rw [k1, line]
      · rw [k3, line]
    · have line : ∀ r : ℝ, alongWall b a (R0 + (⟨q * c - p * s, -q * s - p * c, 0⟩ : Vec) * r) * c -
          fromWall a b (R0 + (⟨q * c - p * s, -q * s - p * c, 0⟩ : Vec) * r) * s =
            (M / 2 - palm.hitchScrewPitch / 2) * c - (palm.bodyMargin + palm.hitchDepth / 2) * s - palm.hitchDepth / 2 := by
        intro r
        rw [(co _).1, (co _).2.2]
        simp only [hR0, hbr, hB, ex, ey, Vec.add_x, Vec.add_y, Vec.sub_x, Vec.sub_y, Vec.mul_x, Vec.mul_y]
        linear_combination ((M / 2 - palm.hitchScrewPitch / 2) * c - (palm.bodyMargin + palm.hitchDepth / 2) * s - palm.hitchDepth / 2 * (s ^ 2 + c ^ 2)) * hu -
          palm.hitchDepth / 2 * hcs
      intro v hv
      simp only [List.mem_cons, List.not_mem_nil, or_false] at hv
      rw [hS, hcd, hsd]
      rcases hv with rfl | rfl
      · rw [k2, line]
      · rw [k4, line]
    · intro v hv
      simp only [List.mem_cons, List.not_mem_nil, or_false] at hv
      rcases hv with rfl | rfl | rfl | rfl | rfl | rfl
      · rw [j1]; simp [zB]
      · rw [j2]; simp [zB]
      · rw [j3]; simp [zF]
      · rw [j4]; simp [zF]
      · exact zbl
      · exact zbr
    · simp [distSq2D, hbl, hbr, hB]
      linear_combination palm.hitchScrewPitch ^ 2 * hu

/-- **C89.** The hitch is generated if the screws are sensible, the front wall has a length, and the sides taper by at most 45 degrees. -/
theorem C89_hitch {cfg : KeyboardCfg} {palm : PalmCfg} {plan : Plan} (hs : SaneScrew cfg) (ht : |palm.taperAngle| ≤ Real.pi / 4)
    (hne : plan.points.thumbOLF.xy ≠ plan.points.pinkyORF.xy) : ∃ hi, Hitch.make cfg plan (some palm) = .ok (some hi) := by
  obtain ⟨olb, orb, olf, orf, posL, posR, o, e, -⟩ := hitchPoints_ok hne ht
  have boss : ∀ pos, ∃ b, Boss.make cfg.quality cfg.body.wallThickness cfg.floor.outerHeight cfg.boss cfg.support pos o none none = .ok b := by
    intro pos
    obtain ⟨b, hb, -⟩ := C78_succeeds cfg.quality cfg.body.wallThickness cfg.floor.outerHeight cfg.boss cfg.support pos o none none
      hs.quality hs.clearance hs.thread hs.boss hs.fillet hs.taper (by simp)
    exact ⟨b, hb⟩
  obtain ⟨bl, hl⟩ := boss posL
  obtain ⟨br, hr⟩ := boss posR
  unfold Hitch.make
  dsimp only
  rw [e]
  exact ⟨_, bind_ok_of rfl (bind_ok_of hl (bind_ok_of hr rfl))⟩

theorem boss_pos {q : Quality} {w o : ℝ} {cfg : BossCfg} {support : Option SupportCfg} {pos d : Vec} {boss : Boss}
    (h : Boss.make q w o cfg support pos d none none = .ok boss) : boss.pos = pos := by
  unfold Boss.make at h
  dsimp only at h
  obtain ⟨_, _, h1⟩ := bind_ok h
  obtain ⟨_, _, h2⟩ := bind_ok h1
  obtain ⟨_, _, h3⟩ := bind_ok h2
  obtain rfl := Except.ok.inj h3
  rfl

/-- What is known about a hitch. -/
theorem hitch_ok {cfg : KeyboardCfg} {palm : PalmCfg} {plan : Plan} {hi : Hitch} (h : Hitch.make cfg plan (some palm) = .ok (some hi))
    (ht : |palm.taperAngle| ≤ Real.pi / 4) (hne : plan.points.thumbOLF.xy ≠ plan.points.pinkyORF.xy) :
    ∃ posL posR, HitchPoints palm plan.points.thumbOLF plan.points.pinkyORF hi.olb hi.orb hi.olf hi.orf posL posR ∧
      hi.bossL.pos = posL ∧ hi.bossR.pos = posR := by
  obtain ⟨olb, orb, olf, orf, posL, posR, o, e, hp⟩ := hitchPoints_ok hne ht
  unfold Hitch.make at h
  dsimp only at h
  rw [e] at h
  obtain ⟨pts, h0, h1⟩ := bind_ok h
  obtain rfl := Except.ok.inj h0
  dsimp only at h1
  obtain ⟨bl, hl, h2⟩ := bind_ok h1
  obtain ⟨br, hr, h3⟩ := bind_ok h2
  obtain rfl := Option.some.inj (Except.ok.inj h3)
  exact ⟨posL, posR, hp, boss_pos hl, boss_pos hr⟩

/-- **C90.** -/
theorem C90_screws {cfg : KeyboardCfg} {palm : PalmCfg} {plan : Plan} {hi : Hitch} (h : Hitch.make cfg plan (some palm) = .ok (some hi))
    (ht : |palm.taperAngle| ≤ Real.pi / 4) (hne : plan.points.thumbOLF.xy ≠ plan.points.pinkyORF.xy) :
    let a := plan.points.thumbOLF
    let b := plan.points.pinkyORF
    (∀ v ∈ [hi.olb, hi.orb], fromWall a b v = 0) ∧
    (∀ v ∈ [hi.olf, hi.orf], fromWall a b v = palm.bodyMargin + palm.hitchDepth) ∧
    (∀ v ∈ [hi.bossL.pos, hi.bossR.pos], fromWall a b v = palm.bodyMargin + palm.hitchDepth / 2) ∧
    alongWall a b hi.bossL.pos = alongWall b a hi.bossR.pos ∧
    distSq2D hi.bossL.pos hi.bossR.pos = palm.hitchScrewPitch ^ 2 := by
  obtain ⟨posL, posR, k, e1, e2⟩ := hitch_ok h ht hne
  dsimp only
  rw [e1, e2]
  refine ⟨by simpa using k.back, by simpa using k.front, by simpa using ⟨k.screwL.1, k.screwR.1⟩, ?_, ?_⟩
  · rw [k.screwL.2, k.screwR.2]
  · exact k.pitch

/-- The distance between the back corners of the hitch. -/
theorem hitch_width {palm : PalmCfg} {a b olb orb olf orf posL posR : Vec} (k : HitchPoints palm a b olb orb olf orf posL posR)
    (hne : a.xy ≠ b.xy) : Real.sqrt (distSq2D a b) - alongWall a b olb - alongWall b a orb ≤ (olb - orb).magnitude := by
  have hD : 0 < distSq2D a b := by
    unfold distSq2D
    by_contra hn
    apply hne
    have h1 : a.x - b.x = 0 := by nlinarith [sq_nonneg (a.x - b.x), sq_nonneg (a.y - b.y)]
    have h2 : a.y - b.y = 0 := by nlinarith [sq_nonneg (a.x - b.x), sq_nonneg (a.y - b.y)]
    ext <;> simp [Vec.xy] <;> linarith
  have hM := Real.sqrt_pos.mpr hD
  have hM2 := Real.sq_sqrt hD.le
  set M := Real.sqrt (distSq2D a b) with hMd
  obtain ⟨hS, co⟩ := wall_coords (a := a) (b := b) (p := (a.x - b.x) / M) (q := (a.y - b.y) / M) hM (by
    field_simp
    rw [hM2]
    unfold distSq2D
    ring) (by field_simp) (by field_simp)
  rw [(co _).2.1, (co _).2.2]
  generalize hp : (a.x - b.x) / M = p at *
  generalize hq : (a.y - b.y) / M = q at *
  have ex : b.x = a.x - M * p := by rw [← hp]; field_simp; ring
  have ey : b.y = a.y - M * q := by rw [← hq]; field_simp; ring
  have hu : p ^ 2 + q ^ 2 = 1 := by
    rw [← hp, ← hq]
    field_simp
    rw [hM2]
    unfold distSq2D
    ring
  have : M - (-p * (olb.x - a.x) - q * (olb.y - a.y)) - (p * (orb.x - b.x) + q * (orb.y - b.y)) = p * (olb.x - orb.x) + q * (olb.y - orb.y) := by
    rw [ex, ey]
    linear_combination (-M) * hu
  rw [this]
  unfold Vec.magnitude
  apply Real.le_sqrt_of_sq_le
  simp only [Vec.sub_x, Vec.sub_y, Vec.sub_z]
  nlinarith [sq_nonneg (p * (olb.y - orb.y) - q * (olb.x - orb.x)), sq_nonneg (olb.z - orb.z)]

/-- **C90.** The hitch fits into the notch of the palm rest. The sides of the notch are inclined by the taper angle, and `floorContactWidth` and the height
of the floor away from the sides of the palm rest; they are parallel to the sides of the hitch, and the distance is more than
half the corner radius, if the sides taper inwards or the hitch has no margin. The front of the notch is in front of the hitch. -/
theorem C90_fits {cfg : KeyboardCfg} {pc : PalmCfg} {plan : Plan} {hi : Hitch} {palm : Palm}
    (h : Hitch.make cfg plan (some pc) = .ok (some hi)) (hp : Palm.make cfg pc plan.points hi = .ok palm)
    (hq : 0 < cfg.quality.maxChordAngle) (hr : SaneRoof pc 0) (hf : 0 ≤ pc.floorFillet) (hfd : pc.floorFillet ≤ pc.depth)
    (hc : 1 / 1000000 ≤ pc.hitchCornerRadius) (ht : |pc.taperAngle| ≤ Real.pi / 4)
    (hne : plan.points.thumbOLF.xy ≠ plan.points.pinkyORF.xy) :
    let a := plan.points.thumbOLF
    let b := plan.points.pinkyORF
    let sideL := fun v => alongWall a b v * Real.cos pc.taperAngle - fromWall a b v * Real.sin pc.taperAngle
    let sideR := fun v => alongWall b a v * Real.cos pc.taperAngle - fromWall a b v * Real.sin pc.taperAngle
    let side := pc.floorContactWidth + cfg.floor.outerHeight
    let front := pc.bodyMargin + pc.depth - side
    let gap := pc.hitchCornerRadius / 2 * Real.cos pc.taperAngle + pc.bodyMargin * Real.sin pc.taperAngle
    (∀ v ∈ [hi.olb, hi.olf], side + gap < sideL v) ∧ (∀ v ∈ [hi.orb, hi.orf], side + gap < sideR v) ∧
    (∀ v ∈ [hi.olf, hi.orf], fromWall a b v < front) ∧
    ∃ first right left last, palm.notch.edgeT.map (fun v => v.transformed palm.matrix) = first :: right ++ left ++ [last] ∧
      (∃ v ∈ right, sideR v = side) ∧ (∃ v ∈ right, fromWall a b v = front) ∧
      (∃ v ∈ left, sideL v = side) ∧ ∃ v ∈ left, fromWall a b v = front := by
  obtain ⟨posL, posR, k, -, -⟩ := hitch_ok h ht hne
  have hw := hitch_width k hne
  have hcos := cos_ge ht
  unfold Palm.make at hp
  dsimp only at hp
  obtain ⟨matrix, hm, h1⟩ := bind_ok hp
  obtain ⟨s, hs, h2⟩ := bind_ok h1
  obtain ⟨n, hn, h3⟩ := bind_ok h2
  obtain ⟨gp, hgp, h4⟩ := bind_ok h3
  obtain ⟨bs, hbs, h5⟩ := bind_ok h4
  obtain ⟨faces, hfa, h6⟩ := bind_ok h5
  obtain rfl := Except.ok.inj h6
  clear h h1 h2 h3 h4 h5 h6 hp hgp hbs hfa
  obtain ⟨ok, eL, eR⟩ := palmShape_ok hs hq hr hf hfd
  have place := palmMatrix_ok hm hne
  have hmag : (plan.points.pinkyORF.xy - plan.points.thumbOLF.xy).magnitude = Real.sqrt (distSq2D plan.points.thumbOLF plan.points.pinkyORF) := by
    unfold Vec.magnitude distSq2D
    congr 1
    simp [Vec.xy]
    ring
  rw [hmag] at eR place
  unfold palmNotch at hn
  rw [notchCorners_ok ht eR] at hn
  obtain ⟨x, hx, n1⟩ := bind_ok hn
  obtain rfl := Except.ok.inj hx
  dsimp only at n1
  obtain ⟨w, _, n2⟩ := bind_ok n1
  obtain ⟨pl, _, n3⟩ := bind_ok n2
  obtain ⟨RG, _, n4⟩ := bind_ok n3
  obtain ⟨corner, hcor, n5⟩ := bind_ok n4
  obtain ⟨ratio, _, n6⟩ := bind_ok n5
  obtain ⟨rt0, _, n7⟩ := bind_ok n6
  obtain ⟨_, _, n8⟩ := bind_ok n7
  obtain ⟨_, _, n9⟩ := bind_ok n8
  obtain ⟨_, _, n10⟩ := bind_ok n9
  obtain ⟨_, _, n11⟩ := bind_ok n10
  obtain ⟨_, _, n12⟩ := bind_ok n11
  obtain ⟨_, _, n13⟩ := bind_ok n12
  obtain ⟨_, _, n14⟩ := bind_ok n13
  obtain ⟨_, _, n15⟩ := bind_ok n14
  obtain ⟨_, _, n16⟩ := bind_ok n15
  split_ifs at n16 with hbad
  have eT := congrArg PalmNotch.edgeT (Except.ok.inj n16)
  dsimp only at eT
  clear n1 n2 n3 n4 n5 n6 n7 n8 n9 n10 n11 n12 n13 n14 n15 n16 hn
  push Not at hbad
  obtain ⟨b1, b2⟩ := hbad
  dsimp only
  rw [ok.front] at b2 hcor
  obtain ⟨aDir, cDir, center, dist, d0, ua, uc, e1, e2, -, -, -⟩ := C54_tangent hc hq hcor
  clear hcor hs
  rw [← eT]
  unfold withMirror
  have sL := k.sideL
  have sR := k.sideR
  generalize Real.sqrt (distSq2D plan.points.thumbOLF plan.points.pinkyORF) = M at *
  have c0 : Real.cos pc.taperAngle ≠ 0 := by linarith
  obtain ⟨t, t0, ta⟩ := ua.2
  obtain ⟨t', t0', tc⟩ := uc.2
  generalize Real.cos pc.taperAngle = c at *
  generalize Real.sin pc.taperAngle = n at *
  have cpos : 0 < c := by linarith
  have ba : (M / 2 - (pc.bodyMargin * n + (pc.floorContactWidth + cfg.floor.outerHeight)) / c) * 2 > (hi.olb - hi.orb).magnitude + pc.hitchCornerRadius := by
    refine lt_of_lt_of_eq b1 ?_
    ring
  have l1 := sL _ (by simp : hi.olb ∈ [hi.olb, hi.olf])
  have r1 := sR _ (by simp : hi.orb ∈ [hi.orb, hi.orf])
  rw [k.back.1, zero_mul, sub_zero] at l1
  rw [k.back.2, zero_mul, sub_zero] at r1
  set G := (M / 2 - pc.hitchScrewPitch / 2) * c - (pc.bodyMargin + pc.hitchDepth / 2) * n - pc.hitchDepth / 2 with hG
  have gG : pc.floorContactWidth + cfg.floor.outerHeight + (pc.hitchCornerRadius / 2 * c + pc.bodyMargin * n) < G := by
    have e3 : (pc.bodyMargin * n + (pc.floorContactWidth + cfg.floor.outerHeight)) / c * c = pc.bodyMargin * n + (pc.floorContactWidth + cfg.floor.outerHeight) := by
      field_simp
    have : (M - alongWall plan.points.thumbOLF plan.points.pinkyORF hi.olb - alongWall plan.points.pinkyORF plan.points.thumbOLF hi.orb + pc.hitchCornerRadius) * c <
        (M / 2 - (pc.bodyMargin * n + (pc.floorContactWidth + cfg.floor.outerHeight)) / c) * 2 * c := by
      apply mul_lt_mul_of_pos_right _ cpos
      linarith
    have e4 : (M - alongWall plan.points.thumbOLF plan.points.pinkyORF hi.olb - alongWall plan.points.pinkyORF plan.points.thumbOLF hi.orb + pc.hitchCornerRadius) * c =
        M * c - G - G + pc.hitchCornerRadius * c := by linear_combination -l1 - r1
    have e5 : (M / 2 - (pc.bodyMargin * n + (pc.floorContactWidth + cfg.floor.outerHeight)) / c) * 2 * c =
        M * c - 2 * (pc.bodyMargin * n + (pc.floorContactWidth + cfg.floor.outerHeight)) := by linear_combination (-2) * e3
    rw [e4, e5] at this
    linarith
  refine ⟨?_, ?_, ?_, ?_⟩
  · intro v hv
    rw [sL v hv]
    exact gG
  · intro v hv
    rw [sR v hv]
    exact gG
  · intro v hv
    simp only [List.mem_cons, List.not_mem_nil, or_false] at hv
    rcases hv with rfl | rfl
    · rw [k.front.1]; linarith
    · rw [k.front.2]; linarith
  · have hd := List.mem_of_mem_head? e1
    have la := List.mem_of_mem_getLast? e2
    have cy : cDir.y = 0 := by
      have := congrArg Vec.y tc
      simp only [Vec.xy, Vec.yz, Vec.sub_y, Vec.mul_y, sub_self] at this
      rcases mul_eq_zero.mp this.symm with h | h
      · exact h
      · linarith
    have hac : aDir.x * c = aDir.y * n := by
      have hx := congrArg Vec.x ta
      have hy := congrArg Vec.y ta
      simp only [Vec.xy, Vec.sub_x, Vec.sub_y, Vec.mul_x, Vec.mul_y] at hx hy
      have : aDir.x * t * c = aDir.y * t * n := by
        rw [← hx, ← hy]
        field_simp
        ring
      apply mul_left_cancel₀ t0.ne'
      linarith
    refine ⟨rt0.transformed matrix, corner.map fun v => v.transformed matrix, (corner.map Vec.mirroredX).reverse.map fun v => v.transformed matrix,
      rt0.mirroredX.transformed matrix, by simp, ⟨_, List.mem_map_of_mem hd, ?_⟩, ⟨_, List.mem_map_of_mem la, ?_⟩,
      ⟨_, List.mem_map_of_mem (List.mem_reverse.mpr (List.mem_map_of_mem hd)), ?_⟩, ⟨_, List.mem_map_of_mem (List.mem_reverse.mpr (List.mem_map_of_mem la)), ?_⟩⟩
    · rw [(place _).1, (place _).2.2.1]
      simp only [Vec.xy, Vec.add_x, Vec.add_y, Vec.mul_x, Vec.mul_y]
      field_simp
      linear_combination (-(2 * dist)) * hac
    · rw [(place _).1]
      simp only [Vec.xy, Vec.add_y, Vec.mul_y, cy]
      ring
    · rw [(place _).1, (place _).2.1]
      simp only [Vec.xy, Vec.mirroredX, Vec.add_x, Vec.add_y, Vec.mul_x, Vec.mul_y]
      field_simp
      linear_combination (-(2 * dist)) * hac
    · rw [(place _).1]
      simp only [Vec.xy, Vec.mirroredX, Vec.add_y, Vec.mul_y, cy]
      ring

end Chrumm.Part
