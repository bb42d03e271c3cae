import Verif.Props.ExampleLayout

/-! A configuration with a plan. -/

namespace Chrumm.Part
open Geo Geo.Spec Spec

/-! ### The bosses -/

theorem fitBoss_near {cfg : BossFit} (hr : 0 ≤ cfg.diameter) {w w' : Line × Line} {k0 k1 : Key} {b : Vec} (hw : WallPair w)
    (h : fitBoss cfg w k0 k1 = .ok (b, w')) {x0 x1 : ℝ} (h0 : ∀ s : ℝ, ((⟨0, s, 0⟩ : Vec).transformed k0.matrix).x = x0)
    (h1 : ∀ s : ℝ, ((⟨0, s, 0⟩ : Vec).transformed k1.matrix).x = x1) : |b.x - (x0 + x1) / 2| ≤ cfg.diameter / 2 := by
  obtain ⟨fuel, hf⟩ := fitBoss_fuel h
  rcases w with ⟨wI, wO⟩
  rcases w' with ⟨wI', wO'⟩
  obtain ⟨-, -, -, ⟨m, step, ⟨p, q, ⟨s, hs, -⟩, ⟨t, ht, -⟩, -, -, rfl⟩, rfl, hstep⟩, -⟩ := C55_result (planar_unit hw.1) hw.2.1 hr hf
  rw [h0] at hs
  rw [h1] at ht
  have hd : |wO.dir.x| ≤ 1 := by
    have := hw.2.1.2.2
    rw [abs_le]
    dsimp only at this
    constructor <;> nlinarith [sq_nonneg wO.dir.y]
  have e : (p.x + q.x) / 2 + wO.dir.x * ((step : ℝ) / 2) - (x0 + x1) / 2 = wO.dir.x * ((step : ℝ) / 2) := by rw [hs, ht]; ring
  simp only [Vec.add_x, Vec.mul_x]
  rw [e, abs_mul, abs_div, abs_two]
  have := mul_le_mul hd (div_le_div_of_nonneg_right hstep (by norm_num : (0 : ℝ) ≤ 2)) (by positivity) (by norm_num)
  linarith

theorem AxesAt.first {ks : List Key} {x0 x1 : ℝ} (h : AxesAt ks x0 x1) {k0 k1 : Key} (h0 : pyIndex ks 0 = .ok k0) (h1 : pyIndex ks 1 = .ok k1) :
    (∀ s : ℝ, ((⟨0, s, 0⟩ : Vec).transformed k0.matrix).x = x0) ∧ ∀ s : ℝ, ((⟨0, s, 0⟩ : Vec).transformed k1.matrix).x = x1 := by
  obtain ⟨a, b, rfl, ha, hb⟩ := h
  obtain rfl := Except.ok.inj h0
  obtain rfl := Except.ok.inj h1
  exact ⟨ha, hb⟩

theorem AxesAt.last {ks : List Key} {x0 x1 : ℝ} (h : AxesAt ks x0 x1) {k0 k1 : Key} (h0 : pyIndex ks (-1) = .ok k0) (h1 : pyIndex ks (-2) = .ok k1) :
    (∀ s : ℝ, ((⟨0, s, 0⟩ : Vec).transformed k0.matrix).x = x1) ∧ ∀ s : ℝ, ((⟨0, s, 0⟩ : Vec).transformed k1.matrix).x = x0 := by
  obtain ⟨a, b, rfl, ha, hb⟩ := h
  obtain rfl := Except.ok.inj h0
  obtain rfl := Except.ok.inj h1
  exact ⟨hb, ha⟩

theorem AxesAt.perm {ks : List Key} {x0 x1 : ℝ} (h : AxesAt ks x0 x1) {k0 k1 : Key} {rest : List Key} (hp : ks.Perm (k0 :: k1 :: rest)) :
    ((∀ s : ℝ, ((⟨0, s, 0⟩ : Vec).transformed k0.matrix).x = x0) ∧ ∀ s : ℝ, ((⟨0, s, 0⟩ : Vec).transformed k1.matrix).x = x1) ∨
    ((∀ s : ℝ, ((⟨0, s, 0⟩ : Vec).transformed k0.matrix).x = x1) ∧ ∀ s : ℝ, ((⟨0, s, 0⟩ : Vec).transformed k1.matrix).x = x0) := by
  obtain ⟨a, b, rfl, ha, hb⟩ := h
  have hl := hp.length_eq
  simp only [List.length_cons, List.length_nil] at hl
  have hr : rest = [] := List.length_eq_zero_iff.mp (by omega)
  subst hr
  have h0 : k0 ∈ [a, b] := hp.mem_iff.mpr (by simp)
  simp only [List.mem_cons, List.not_mem_nil, or_false] at h0
  rcases h0 with rfl | rfl
  · have := List.perm_cons _ |>.mp hp
    obtain rfl := List.singleton_perm_singleton.mp this
    exact Or.inl ⟨ha, hb⟩
  · have := List.perm_cons _ |>.mp ((List.Perm.swap _ _ _).trans hp)
    obtain rfl := List.singleton_perm_singleton.mp this
    exact Or.inr ⟨hb, ha⟩

/-- The bosses are between their keys. -/
structure BossesNear (d : ℝ) (b : BossPos) : Prop where
  alnumB : |b.alnumB.x - (61 - 49 * (527 / 625))| ≤ d
  pinkyB : |b.pinkyB.x - 110| ≤ d
  pinkyF : |b.pinkyF.x - 110| ≤ d
  thumbF : |b.thumbF.x - 27| ≤ d

theorem fitBosses_near {cfg : BossFit} (hr : 0 ≤ cfg.diameter) {l : Layout} {t : TentPlanes} {side : Side}
    {wB wF wB' wF' : Line × Line} {b : BossPos} (hB : WallPair wB) (hF : WallPair wF)
    (hX : UnitPlane t.pivotOF) (hT : UnitPlane t.alnumOT) {ka kb kf : List Key}
    (ea : l.perAlnumCol 0 (some side) = .ok ka) (xa : AxesAt ka (61 - 71 * (527 / 625)) (61 - 27 * (527 / 625)))
    (eb : l.perPinkyCol 0 (some side) = .ok kb) (xb : AxesAt kb 88 132)
    (ef : l.perPinkyCol (-1) (some side) = .ok kf) (xf : AxesAt kf 88 132) (xt : AxesAt (l.thumb (some side)) 5 49)
    (h : fitBosses cfg l t side wB wF = .ok (b, wB', wF')) : BossesNear (cfg.diameter / 2) b := by
  unfold fitBosses at h
  rw [ea, eb, ef] at h
  obtain ⟨_, ⟨⟩, h⟩ := bind_ok h
  obtain ⟨_, ⟨⟩, h⟩ := bind_ok h
  obtain ⟨_, ⟨⟩, h⟩ := bind_ok h
  obtain ⟨px, hpx, h⟩ := bind_ok h
  obtain ⟨pB, hpB, h⟩ := bind_ok h
  obtain ⟨aks, haks, h⟩ := bind_ok h
  obtain ⟨a0, ha0, h⟩ := bind_ok h
  obtain ⟨a1, ha1, h⟩ := bind_ok h
  obtain ⟨⟨_, w1⟩, h1, h⟩ := bind_ok h
  obtain ⟨b0, hb0, h⟩ := bind_ok h
  obtain ⟨b1, hb1, h⟩ := bind_ok h
  obtain ⟨⟨q2, w2⟩, h2, h⟩ := bind_ok h
  obtain ⟨⟨q3, w3⟩, h3, h⟩ := bind_ok h
  obtain ⟨t0, ht0, h⟩ := bind_ok h
  obtain ⟨t1, ht1, h⟩ := bind_ok h
  obtain ⟨⟨_, w4⟩, h4, h⟩ := bind_ok h
  obtain ⟨f0, hf0, h⟩ := bind_ok h
  obtain ⟨f1, hf1, h⟩ := bind_ok h
  obtain ⟨⟨q5, w5⟩, h5, h⟩ := bind_ok h
  obtain ⟨⟨q6, w6⟩, h6, h⟩ := bind_ok h
  cases h
  have g1 := (fitBoss_pushed hB h1).wallPair hB
  have g2 := (fitBoss_pushed g1 h2).wallPair g1
  have g4 := (fitBoss_pushed hF h4).wallPair hF
  have g5 := (fitBoss_pushed g4 h5).wallPair g4
  rw [Plane.fromX_eq] at hpx
  cases hpx
  obtain ⟨-, -, -, rest, -, -, -, hperm, hlen, -, -⟩ := C55_boss_keys (by simp [Vec.dot]) hX (wallPlane_ok hB.2.1 hpB).1 hT haks
  have hks : ∃ r, aks = a0 :: a1 :: r ∧ r = [] := by
    rw [pyIndex_zero] at ha0
    rw [pyIndex_one] at ha1
    have : aks.length ≤ 2 := by omega
    match aks, ha0, ha1, this with
    | [x, y], h0, h1, _ =>
      simp at h0 h1
      exact ⟨[], by rw [h0, h1], rfl⟩
    | [], h0, _, _ => simp at h0
    | [_], _, h1, _ => simp at h1
  obtain ⟨_, rfl, rfl⟩ := hks
  refine ⟨?_, ?_, ?_, ?_⟩
  · rcases xa.perm hperm with ⟨c0, c1⟩ | ⟨c0, c1⟩
    · have := fitBoss_near hr g2 h3 c0 c1
      convert this using 3; norm_num
    · have := fitBoss_near hr g2 h3 c0 c1
      convert this using 3; norm_num
  · obtain ⟨c0, c1⟩ := xb.last hb0 hb1
    have := fitBoss_near hr g1 h2 c0 c1
    convert this using 3; norm_num
  · obtain ⟨c0, c1⟩ := xf.last hf0 hf1
    have := fitBoss_near hr g4 h5 c0 c1
    convert this using 3; norm_num
  · obtain ⟨c0, c1⟩ := xt.first ht0 ht1
    have := fitBoss_near hr g5 h6 c0 c1
    convert this using 3; norm_num

/-- The places of the walls. -/
structure Walled (x0 y1 yB : ℝ) (w : WallPlanes) : Prop where
  alnumIB : ∀ v, w.alnumIB.distance v = yB - v.y
  alnumOB : ∀ v, w.alnumOB.distance v = yB + 4 - v.y
  pinkyIF : ∀ v, w.pinkyIF.distance v = -(720 / 1681) * (v.x - x0) + 1519 / 1681 * (v.y - y1)
  pinkyOF : ∀ v, w.pinkyOF.distance v = -(720 / 1681) * (v.x - x0) + 1519 / 1681 * (v.y - y1) + 4

/-- The reference points. -/
noncomputable def exPoints (px xL x0 xR yF y1 yB zO : ℝ) : Points where
  ridgeIRF := ⟨xL / 2, (yF + y1) / 2 + 4, zO - 4⟩
  ridgeORF := ⟨xL / 2, (yF + y1) / 2, zO⟩
  alnumILF := ⟨xL, yF + 4, zO - 2500 / 527 + 336 / 527 * (px - xL)⟩
  alnumILB := ⟨xL, yB, zO - 2500 / 527 + 336 / 527 * (px - xL)⟩
  alnumIRF := ⟨px - 7 / 6, yF + 4, zO - 4⟩
  alnumIRB := ⟨px - 7 / 6, yB, zO - 4⟩
  pinkyIRF := ⟨xR, y1 + 720 / 1519 * (xR - x0), zO - 4⟩
  pinkyIRB := ⟨xR, yB, zO - 4⟩
  thumbILF := ⟨x0, y1, zO - 4⟩
  thumbILB := ⟨xL, yF + 4, zO - 4⟩
  thumbIRF := ⟨px, y1 + 720 / 1519 * (px - x0), zO - 4⟩
  alnumOLF := ⟨xL, yF, zO + 336 / 527 * (px - xL)⟩
  alnumOLB := ⟨xL, yB + 4, zO + 336 / 527 * (px - xL)⟩
  alnumORF := ⟨px, yF, zO⟩
  alnumORB := ⟨px, yB + 4, zO⟩
  pinkyORF := ⟨xR + 4, y1 + 720 / 1519 * (xR + 4 - x0) - 6724 / 1519, zO⟩
  pinkyORB := ⟨xR + 4, yB + 4, zO⟩
  thumbOLF := ⟨x0 + 9 / 10, y1 - 4, zO⟩
  thumbOLB := ⟨xL, yF, zO⟩
  thumbORF := ⟨px, y1 + 720 / 1519 * (px - x0) - 6724 / 1519, zO⟩

theorem exPoints_of {plan : Plan} {px xL x0 xR yF y1 yB zO : ℝ} (h : Placed px xL xR yF zO plan.tent plan.sides)
    (hw : Walled x0 y1 yB plan.walls)
    (ht : ∀ v, plan.thumbL.distance v = 40 / 41 * (v.x - x0) + 9 / 41 * (v.y - y1)) (hc : Corners (corners plan))
    (h1 : plan.points.ridgeIRF = ⟨xL / 2, (yF + y1) / 2 + 4, zO - 4⟩) (h2 : plan.points.ridgeORF = ⟨xL / 2, (yF + y1) / 2, zO⟩) :
    plan.points = exPoints px xL x0 xR yF y1 yB zO := by
  have key : ∀ c ∈ corners plan, ∀ x, (c.2.1.distance x = 0 ∧ c.2.2.1.distance x = 0 ∧ c.2.2.2.distance x = 0) → c.1 = x :=
    fun c hcm x hx => (((hc c hcm).2.2.2 x).mp hx).symm
  have : corners plan = corners plan := rfl
  unfold corners at key
  dsimp only at key
  simp only [List.forall_mem_cons] at key
  obtain ⟨k1, k2, k3, k4, k5, k6, k7, k8, k9, k10, k11, k12, k13, k14, k15, k16, k17, k18, -⟩ := key
  rcases hp : plan.points with ⟨r1, r2, p1, p2, p3, p4, p5, p6, p7, p8, p9, p10, p11, p12, p13, p14, p15, p16, p17, p18⟩
  simp only [hp] at k1 k2 k3 k4 k5 k6 k7 k8 k9 k10 k11 k12 k13 k14 k15 k16 k17 k18 h1 h2
  simp only [h.alnumIT, h.alnumOT, h.pivotIB, h.pivotOB, h.thumbIT, h.thumbOT, h.pivotIF, h.pivotOF, h.pinkyIT, h.pinkyOT, h.alnumIL,
    h.alnumOL, h.alnumIF, h.alnumOF, h.pinkyIR, h.pinkyOR, hw.alnumIB, hw.alnumOB, hw.pinkyIF, hw.pinkyOF, ht] at *
  unfold exPoints
  rw [h1, h2, k1 ⟨xL, yF + 4, zO - 2500 / 527 + 336 / 527 * (px - xL)⟩ (by dsimp only; refine ⟨?_, ?_, ?_⟩ <;> ring),
    k2 ⟨xL, yB, zO - 2500 / 527 + 336 / 527 * (px - xL)⟩ (by dsimp only; refine ⟨?_, ?_, ?_⟩ <;> ring),
    k3 ⟨px - 7 / 6, yF + 4, zO - 4⟩ (by dsimp only; refine ⟨?_, ?_, ?_⟩ <;> ring),
    k4 ⟨px - 7 / 6, yB, zO - 4⟩ (by dsimp only; refine ⟨?_, ?_, ?_⟩ <;> ring),
    k5 ⟨xR, y1 + 720 / 1519 * (xR - x0), zO - 4⟩ (by dsimp only; refine ⟨?_, ?_, ?_⟩ <;> ring),
    k6 ⟨xR, yB, zO - 4⟩ (by dsimp only; refine ⟨?_, ?_, ?_⟩ <;> ring),
    k7 ⟨x0, y1, zO - 4⟩ (by dsimp only; refine ⟨?_, ?_, ?_⟩ <;> ring),
    k8 ⟨xL, yF + 4, zO - 4⟩ (by dsimp only; refine ⟨?_, ?_, ?_⟩ <;> ring),
    k9 ⟨px, y1 + 720 / 1519 * (px - x0), zO - 4⟩ (by dsimp only; refine ⟨?_, ?_, ?_⟩ <;> ring),
    k10 ⟨xL, yF, zO + 336 / 527 * (px - xL)⟩ (by dsimp only; refine ⟨?_, ?_, ?_⟩ <;> ring),
    k11 ⟨xL, yB + 4, zO + 336 / 527 * (px - xL)⟩ (by dsimp only; refine ⟨?_, ?_, ?_⟩ <;> ring),
    k12 ⟨px, yF, zO⟩ (by dsimp only; refine ⟨?_, ?_, ?_⟩ <;> ring),
    k13 ⟨px, yB + 4, zO⟩ (by dsimp only; refine ⟨?_, ?_, ?_⟩ <;> ring),
    k14 ⟨xR + 4, y1 + 720 / 1519 * (xR + 4 - x0) - 6724 / 1519, zO⟩ (by dsimp only; refine ⟨?_, ?_, ?_⟩ <;> ring),
    k15 ⟨xR + 4, yB + 4, zO⟩ (by dsimp only; refine ⟨?_, ?_, ?_⟩ <;> ring),
    k16 ⟨x0 + 9 / 10, y1 - 4, zO⟩ (by dsimp only; refine ⟨?_, ?_, ?_⟩ <;> ring),
    k17 ⟨xL, yF, zO⟩ (by dsimp only; refine ⟨?_, ?_, ?_⟩ <;> ring),
    k18 ⟨px, y1 + 720 / 1519 * (px - x0) - 6724 / 1519, zO⟩ (by dsimp only; refine ⟨?_, ?_, ?_⟩ <;> ring)]

theorem carried_place {d : Vec} {p q : Plane} (h : CarriedBy (shift d) p q) (hu : UnitPlane p) (v : Vec) :
    q.distance v = p.distance (v - d) := by
  have := (h hu).2 (v - d)
  rw [shift_apply, show v - d + d = v by ext <;> simp] at this
  exact this

theorem Placed.shift {px xL xR yF zO : ℝ} {t t' : TentPlanes} {s s' : SidePlanes} (h : Placed px xL xR yF zO t s) (tu : t.Unit) (su : s.Unit)
    {dx dz : ℝ} (ht : TentPlanes.Rel (CarriedBy (shift ⟨dx, 0, dz⟩)) t t') (hs : SidePlanes.Rel (CarriedBy (Part.shift ⟨dx, 0, dz⟩)) s s') :
    Placed (px + dx) (xL + dx) (xR + dx) yF (zO + dz) t' s' := by
  obtain ⟨t1, t2, t3, t4, t5, t6, t7, t8, t9, t10⟩ := ht
  obtain ⟨s1, s2, s3, s4, s5, s6⟩ := hs
  obtain ⟨u1, u2, u3, u4, u5, u6, u7, u8, u9, u10⟩ := tu
  obtain ⟨v1, v2, v3, v4, v5, v6⟩ := su
  refine ⟨fun v => ?_, fun v => ?_, fun v => ?_, fun v => ?_, fun v => ?_, fun v => ?_, fun v => ?_, fun v => ?_, fun v => ?_, fun v => ?_,
    fun v => ?_, fun v => ?_, fun v => ?_, fun v => ?_, fun v => ?_, fun v => ?_⟩
  · rw [carried_place t1 u1, h.alnumIT]; simp only [Vec.sub_x, Vec.sub_z]; ring
  · rw [carried_place t2 u2, h.alnumOT]; simp only [Vec.sub_x, Vec.sub_z]; ring
  · rw [carried_place t3 u3, h.pivotIB]; simp only [Vec.sub_x, Vec.sub_z]; ring
  · rw [carried_place t4 u4, h.pivotOB]; simp only [Vec.sub_x, Vec.sub_z]; ring
  · rw [carried_place t5 u5, h.thumbIT]; simp only [Vec.sub_z]; ring
  · rw [carried_place t6 u6, h.thumbOT]; simp only [Vec.sub_z]; ring
  · rw [carried_place t7 u7, h.pivotIF]; simp only [Vec.sub_x]; ring
  · rw [carried_place t8 u8, h.pivotOF]; simp only [Vec.sub_x]; ring
  · rw [carried_place t9 u9, h.pinkyIT]; simp only [Vec.sub_z]; ring
  · rw [carried_place t10 u10, h.pinkyOT]; simp only [Vec.sub_z]; ring
  · rw [carried_place s1 v1, h.alnumIL]; simp only [Vec.sub_x]; ring
  · rw [carried_place s2 v2, h.alnumOL]; simp only [Vec.sub_x]; ring
  · rw [carried_place s3 v3, h.alnumIF]; simp only [Vec.sub_y]; ring
  · rw [carried_place s4 v4, h.alnumOF]; simp only [Vec.sub_y]; ring
  · rw [carried_place s5 v5, h.pinkyIR]; simp only [Vec.sub_x]; ring
  · rw [carried_place s6 v6, h.pinkyOR]; simp only [Vec.sub_x]; ring

theorem Walled.shift {x0 y1 yB : ℝ} {w w' : WallPlanes} (h : Walled x0 y1 yB w) (wu : w.Unit)
    {dx dz : ℝ} (hw : WallPlanes.Rel (CarriedBy (shift ⟨dx, 0, dz⟩)) w w') : Walled (x0 + dx) y1 yB w' := by
  obtain ⟨w1, w2, w3, w4⟩ := hw
  obtain ⟨u1, u2, u3, u4⟩ := wu
  refine ⟨fun v => ?_, fun v => ?_, fun v => ?_, fun v => ?_⟩
  · rw [carried_place w1 u1, h.alnumIB]; simp only [Vec.sub_y]; ring
  · rw [carried_place w2 u2, h.alnumOB]; simp only [Vec.sub_y]; ring
  · rw [carried_place w3 u3, h.pinkyIF]; simp only [Vec.sub_x, Vec.sub_y]; ring
  · rw [carried_place w4 u4, h.pinkyOF]; simp only [Vec.sub_x, Vec.sub_y]; ring

theorem exVertical {side : Side} {l : Layout} {t : TentPlanes} {s : SidePlanes} {xL xR yF dy : ℝ} (h : ExArranged l t s xL xR yF dy) :
    ∃ r, vertical (exPlan 0 0) side l t = .ok r ∧ BossesNear 3 r.1 := by
  have hst := h.straight ⟨⟨0, ⟨0, -1, 0⟩⟩, ⟨0, ⟨0, -1, 0⟩⟩, ⟨0, ⟨-Real.sin exFront, Real.cos exFront, 0⟩⟩,
      ⟨0, ⟨-Real.sin exFront, Real.cos exFront, 0⟩⟩⟩
    ⟨by simp [UnitPlane, Vec.dot], by simp [UnitPlane, Vec.dot],
      by simp only [UnitPlane, Vec.dot]; nlinarith [Real.sin_sq_add_cos_sq exFront],
      by simp only [UnitPlane, Vec.dot]; nlinarith [Real.sin_sq_add_cos_sq exFront]⟩ rfl rfl rfl rfl
  have full : ∀ k ∈ keys l none, Full k := fun k hk => (h.upright none k hk).2
  have bodyB : (exPlan 0 0).body.alnumBackAngle + (exPlan 0 0).body.splitAngle + Real.pi = Real.pi := by
    show (0 : ℝ) + 0 + Real.pi = _; ring
  have bodyF : (exPlan 0 0).body.thumbFrontAngle + (exPlan 0 0).body.splitAngle = exFront := by
    show exFront + 0 = _; ring
  obtain ⟨wB, hB⟩ := wallLines_succeeds (h.keysNe none) full (exPlan 0 0).body.wallThickness Real.pi
  obtain ⟨wF, hF⟩ := wallLines_succeeds (h.keysNe none) full (exPlan 0 0).body.wallThickness exFront
  have gB := wallLines_pair hB
  have gF := wallLines_pair hF
  have dB : wB.2.dir = ⟨-1, 0, 0⟩ := by
    rw [(C56_walls (lineI := wB.1) (lineO := wB.2) hB).1.2.1]
    simp [dirAt]
  have dF : wF.2.dir = ⟨1519 / 1681, 720 / 1681, 0⟩ := by
    rw [(C56_walls (lineI := wF.1) (lineO := wF.2) hF).1.2.1]
    simp [dirAt, exFront_full.1, exFront_full.2]
  have fit : ∀ sd, ∀ wB wF : Line × Line, WallPair wB → WallPair wF → wB.2.dir = ⟨-1, 0, 0⟩ → wF.2.dir = ⟨1519 / 1681, 720 / 1681, 0⟩ →
      ∃ b wB' wF', fitBosses (exPlan 0 0).boss l t sd wB wF = .ok (b, wB', wF') ∧ WallPair wB' ∧ WallPair wF' ∧
        wB'.2.dir = ⟨-1, 0, 0⟩ ∧ wF'.2.dir = ⟨1519 / 1681, 720 / 1681, 0⟩ ∧ BossesNear 3 b := by
    intro sd wB wF gB gF dB dF
    obtain ⟨-, u2, -, -, -, -, -, u8, -⟩ := hst.tu
    obtain ⟨ka, ea, pa, xa⟩ := h.alnumB sd
    obtain ⟨kb, eb, pb, xb⟩ := h.pinkyB sd
    obtain ⟨kf, ef, pf, xf⟩ := h.pinkyF sd
    obtain ⟨⟨b, wB', wF'⟩, e⟩ := fitBosses_succeeds (cfg := (exPlan 0 0).boss) (l := l) (t := t) (side := sd) (wB := wB) (wF := wF)
      (by show (-1 : ℝ) < 6; norm_num) gB gF (by rw [dB]; norm_num) (by rw [dB]; norm_num) (by rw [dF]; norm_num) u8 u2
      (fun p hp => by
        rw [dB] at hp
        exact meets (x := -Real.cos exAngle) (by rw [hp, hst.alnumOT]; simp [Vec.dot, Vec.cross]) (by rw [abs_neg]; exact exAngle_steep.2.1))
      (fun p hp => by
        rw [dB] at hp
        exact meets (x := -Real.cos exAngle) (by rw [hp, hst.alnumOT, hst.pivotOF]; simp [Vec.dot, Vec.cross]) (by rw [abs_neg]; exact exAngle_steep.2.1))
      ⟨ka, ea, pa⟩ ⟨kb, eb, pb⟩ ⟨kf, ef, pf⟩ (h.thumbF sd).1
    obtain ⟨pB, pF⟩ := fitBosses_pushed gB gF e
    refine ⟨b, wB', wF', e, pB.wallPair gB, pF.wallPair gF, ?_, ?_, ?_⟩
    · obtain ⟨c, -, -, q⟩ := pB
      rw [q]; exact dB
    · obtain ⟨c, -, -, q⟩ := pF
      rw [q]; exact dF
    · have := fitBosses_near (by show (0 : ℝ) ≤ 6; norm_num) gB gF u8 u2 ea xa eb xb ef xf (h.thumbF sd).2 e
      rwa [show (exPlan 0 0).boss.diameter / 2 = 3 by show (6 : ℝ) / 2 = 3; norm_num] at this
  obtain ⟨b1, wB1, wF1, e1, gB1, gF1, dB1, dF1, -⟩ := fit side.other wB wF gB gF dB dF
  obtain ⟨b2, wB2, wF2, e2, gB2, gF2, dB2, dF2, hn⟩ := fit side wB1 wF1 gB1 gF1 dB1 dF1
  unfold vertical
  rw [allKeys_ok h.two]
  dsimp only [bind, Except.bind]
  rw [bodyB, bodyF]
  unfold keys at hB hF
  rw [hB]
  dsimp only
  rw [hF]
  dsimp only
  rw [e1]
  dsimp only
  rw [e2]
  dsimp only
  rw [Plane.fromLine2D_eq gB2.1, Plane.fromLine2D_eq gB2.2.1, Plane.fromLine2D_eq gF2.1, Plane.fromLine2D_eq gF2.2.1]
  exact ⟨_, rfl, hn⟩

/-- What is known of the finished plan. -/
structure ExPlanned (H : ℝ) (side : Side) (plan : Plan) (xL x0 xR yF y1 yB zO : ℝ) : Prop where
  two : TwoGroups plan.layout
  pinkyNe : fingers plan.layout 1 none ≠ []
  side_eq : plan.side = side
  placed : Placed (x0 + 79) xL xR yF zO plan.tent plan.sides
  tu : plan.tent.Unit
  walled : Walled x0 y1 yB plan.walls
  points : plan.points = exPoints (x0 + 79) xL x0 xR yF y1 yB zO
  left_eq : xL = yF - y1 + 1
  left_le : xL ≤ x0
  left_ge : x0 ≤ xL + 12
  right_ge : x0 + 159 ≤ xR
  right_le : xR ≤ x0 + 169
  front_le : yF ≤ -32
  thumb_le : y1 + 720 / 1519 * 76 ≤ yF - 20
  pinky_le : y1 + 720 / 1519 * 159 ≤ -28
  back_ge : 9 ≤ yB
  high : H ≤ zO
  alnumB : |plan.bossPos.alnumB.x - (x0 + 79 - 49 * (527 / 625))| ≤ 3 ∧ plan.bossPos.alnumB.z = 0
  pinkyB : |plan.bossPos.pinkyB.x - (x0 + 128)| ≤ 3 ∧ plan.bossPos.pinkyB.z = 0
  pinkyF : |plan.bossPos.pinkyF.x - (x0 + 128)| ≤ 3 ∧ plan.bossPos.pinkyF.z = 0
  thumbF : |plan.bossPos.thumbF.x - (x0 + 45)| ≤ 3 ∧ plan.bossPos.thumbF.z = 0
  dirB : plan.linesB.1.dir = ⟨-1, 0, 0⟩
  dirF : plan.linesF.1.dir = ⟨1519 / 1681, 720 / 1681, 0⟩

/-- The walls of the example. -/
theorem exWalled {side : Side} {l : Layout} {t : TentPlanes} {s : SidePlanes} {xL xR yF dy : ℝ} (ha : ExArranged l t s xL xR yF dy)
    {linesB linesF : Line × Line} {w : WallPlanes} (wo : WallsOk (exPlan 0 0).body l linesB linesF w) :
    linesB.2.dir = ⟨-1, 0, 0⟩ ∧ linesF.2.dir = ⟨1519 / 1681, 720 / 1681, 0⟩ ∧ ∃ y1 yB, Walled (-18) y1 yB w ∧ y1 + 720 / 1519 * 76 ≤ yF - 20 ∧
      y1 + 720 / 1519 * 159 ≤ -28 ∧ 9 ≤ yB ∧ 1519 / 1681 * (y1 - linesF.1.pos.y) = 720 / 1681 * (-18 - linesF.1.pos.x) := by
  have dB : linesB.2.dir = ⟨-1, 0, 0⟩ := by
    rw [wo.dirB, show (exPlan 0 0).body.alnumBackAngle + (exPlan 0 0).body.splitAngle + Real.pi = Real.pi by show (0 : ℝ) + 0 + _ = _; ring]
    simp [dirAt]
  have dF : linesF.2.dir = ⟨1519 / 1681, 720 / 1681, 0⟩ := by
    rw [wo.dirF, show (exPlan 0 0).body.thumbFrontAngle + (exPlan 0 0).body.splitAngle = exFront by show exFront + (0 : ℝ) = _; ring]
    simp [dirAt, exFront_full.1, exFront_full.2]
  have eB : ∀ v, w.alnumIB.distance v = linesB.1.pos.y - v.y := by
    intro v
    rw [wo.alnumIB.2, wo.pairB.2.2, dB]
    simp only [left, Vec.add_x, Vec.add_y]; ring
  have eF : ∀ v, w.pinkyIF.distance v = -(720 / 1681) * (v.x - -18) + 1519 / 1681 * (v.y - (linesF.1.pos.y + 720 / 1519 * (-18 - linesF.1.pos.x))) := by
    intro v
    rw [wo.pinkyIF.2, wo.pairF.2.2, dF]
    simp only [left, Vec.add_x, Vec.add_y]; ring
  have th : (exPlan 0 0).body.wallThickness = 4 := rfl
  refine ⟨dB, dF, linesF.1.pos.y + 720 / 1519 * (-18 - linesF.1.pos.x), linesB.1.pos.y, ⟨eB, fun v => ?_, eF, fun v => ?_⟩, ?_, ?_, ?_, by ring⟩
  · rw [wo.gapB, eB, th]; ring
  · rw [wo.gapF, eF, th]
  · obtain ⟨k, hk, hp⟩ := ha.thumbP
    have := wo.keysIF k hk _ hp
    rw [eF] at this
    dsimp only at this
    linarith [ha.front_ge]
  · obtain ⟨k, hk, hp⟩ := ha.pinkyP
    have := wo.keysIF k hk _ hp
    rw [eF] at this
    dsimp only at this
    linarith
  · obtain ⟨k, hk, p, hp, e⟩ := ha.backP
    have := wo.keysIB k hk _ hp
    rw [eB] at this
    linarith

/-- A concrete keyboard with a plan. -/
theorem exPlan_made (side : Side) : ∃ W H0, ∀ H ≥ H0, ∃ plan xL x0 xR yF y1 yB zO, Plan.make (exPlan W H) side = .ok plan ∧
    ExPlanned H side plan xL x0 xR yF y1 yB zO := by
  obtain ⟨⟨l, t, s⟩, h1⟩ := exArrange 0 0 side
  obtain ⟨xL, xR, yF, dy, ha⟩ := exArranged_ok h1
  obtain ⟨⟨b, linesB, linesF, w⟩, h2, hn⟩ := exVertical (side := side) ha
  dsimp only at hn
  obtain ⟨wo, bo⟩ := vertical_ok ha.two h2
  obtain ⟨dB, dF, y1, yB, hw, hy, hp, hb, hpos⟩ := exWalled (side := side) ha wo
  have hst := ha.straight w ⟨wo.alnumIB.1, wo.alnumOB.1, wo.pinkyIF.1, wo.pinkyOF.1⟩
    (by rw [left_normal wo.alnumIB.2, wo.pairB.2.2, dB]; simp) (by rw [left_normal wo.alnumOB.2, dB]; simp)
    (by rw [left_normal wo.pinkyIF.2, wo.pairF.2.2, dF, exFront_full.1, exFront_full.2])
    (by rw [left_normal wo.pinkyOF.2, dF, exFront_full.1, exFront_full.2])
  have bo := bo (by show (0 : ℝ) ≤ 6; norm_num) hst.tu.2.2.2.2.2.2.2.1 hst.tu.2.1
  -- width
  set W : ℝ := 2 * (yF - y1) + 2 with hW
  obtain ⟨delta, h3⟩ := finalDeltaX_succeeds (body := (exPlan W 0).body) hst exAngle_steep ha.two (ha.keysNe none)
    fun k hk => (ha.upright none k hk).2
  obtain ⟨i, o, dx, ei, eo, ed, kx, ix, ox, tight⟩ := finalDeltaX_ok ha.two h3
  have ixL : i.x = xL := by
    obtain ⟨d, -, -⟩ := (intersect_on hst.su.1 hst.wu.1 hst.tu.1 ei _).mpr rfl
    rw [ha.placed.alnumIL] at d; linarith
  have oxL : o.x = xL := by
    obtain ⟨d, -, -⟩ := (intersect_on hst.su.2.1 hst.wu.2.1 hst.tu.2.1 eo _).mpr rfl
    rw [ha.placed.alnumOL] at d; linarith
  have hmin : (exPlan W 0).body.minRidgeWidth = W := rfl
  rw [hmin] at ix ox tight
  have hdx : xL + dx = yF - y1 + 1 := by
    rcases tight with ⟨k, hk, p, hp, e⟩ | e | e
    · have := ha.bounds k hk p hp
      rw [ixL] at ix
      linarith
    · rw [ixL] at e; linarith
    · rw [oxL] at e; linarith
  subst ed
  obtain ⟨t1, h4⟩ := TentPlanes.mapM_succeeds hst.tu (translated_succeeds ⟨dx, 0, 0⟩)
  obtain ⟨s1, h5⟩ := SidePlanes.mapM_succeeds hst.su (translated_succeeds ⟨dx, 0, 0⟩)
  obtain ⟨w1, h6⟩ := WallPlanes.mapM_succeeds hst.wu (translated_succeeds ⟨dx, 0, 0⟩)
  have r4 := (TentPlanes.mapM_ok h4).mono fun a b hab => CarriedBy.of_translated hab
  have r5 := (SidePlanes.mapM_ok h5).mono fun a b hab => CarriedBy.of_translated hab
  have r6 := (WallPlanes.mapM_ok h6).mono fun a b hab => CarriedBy.of_translated hab
  have hst1 := hst.shift r4 r5 r6
  have hpl1 := ha.placed.shift hst.tu hst.su r4 r5
  have hw1 := hw.shift hst.wu r6
  set l1 := l.moved (shift ⟨dx, 0, 0⟩) (shift ⟨dx, 0, 0⟩) (shift ⟨dx, 0, 0⟩) with hl1
  have up1 : ∀ sd, ∀ k ∈ keys l1 sd, Upright k ∧ Full k := by
    intro sd k hk
    rw [hl1, keys_moved] at hk
    obtain ⟨k0, hk0, rfl⟩ := List.mem_map.mp hk
    obtain ⟨u, v⟩ := ha.upright sd k0 hk0
    exact ⟨u.transform (shift_motion _).1 (keepsY_shift _), v.transform _⟩
  have kn1 : ∀ sd, keys l1 sd ≠ [] := by
    intro sd
    rw [hl1, keys_moved]
    simpa using ha.keysNe sd
  have tn1 : ∀ sd, l1.thumb sd ≠ [] := by
    intro sd
    rw [thumbs_eq, hl1, thumbs_moved]
    simpa using ha.thumbsNe sd
  have tk1 : ∀ sd, ∀ k ∈ l1.thumb sd, k ∈ keys l1 sd := by
    intro sd k hk
    rw [thumbs_eq] at hk
    unfold keys; simp [hk]
  have thb : ∀ k ∈ l1.thumb, ∀ p ∈ k.bounds, dx - 18 ≤ p.x ∧ p.y ≤ -32 + dy := by
    intro k hk p hp
    rw [thumbs_eq, hl1, thumbs_moved] at hk
    obtain ⟨k0, hk0, rfl⟩ := List.mem_map.mp hk
    have hkk : k0 ∈ keys l none := by unfold keys; simp [hk0]
    rw [Key.bounds_transform (ha.upright none k0 hkk).1.1] at hp
    obtain ⟨p0, hp0, rfl⟩ := List.mem_map.mp hp
    obtain ⟨g1, g2⟩ := ha.thumbX k0 hk0 p0 hp0
    rw [shift_apply]
    simp only [Vec.add_x, Vec.add_y]
    exact ⟨by linarith, by linarith⟩
  obtain ⟨x0, th, h7, nth, ⟨kt, hkt, pt, hpt, ex⟩, allx, thx, thl⟩ := thumbCorner_succeeds (l := l1)
    (lineF := ⟨linesF.1.pos + ⟨dx, 0, 0⟩, linesF.1.dir⟩)
    ⟨by simp [wo.pairF.1.1], wo.pairF.1.2.1, wo.pairF.1.2.2⟩ exFront_slant
    (by rw [wo.pairF.2.2, dF, exFront_full.1, exFront_full.2]) (tn1 _) (tn1 _)
    fun sd k hk => up1 sd k (tk1 sd k hk)
  have hx0 : x0 = dx - 18 := by
    apply le_antisymm
    · obtain ⟨k, hk, p, hp, e⟩ := ha.thumbL
      have hkk : k ∈ keys l none := by unfold keys; simp [hk]
      have := allx (k.transform (shift ⟨dx, 0, 0⟩)) (by rw [thumbs_eq, hl1, thumbs_moved]; exact List.mem_map_of_mem hk)
        (p.transformed (shift ⟨dx, 0, 0⟩)) (by rw [Key.bounds_transform (ha.upright none k hkk).1.1]; exact List.mem_map_of_mem hp)
      rw [shift_apply] at this
      simp only [Vec.add_x] at this
      linarith
    · rw [ex]; exact (thb kt hkt pt hpt).1
  have thy : th.pos.y = y1 := by
    rw [wo.pairF.2.2, dF] at thl
    simp only [left, Vec.add_x, Vec.add_y] at thl
    rw [thx, hx0] at thl
    linarith
  have hth : ∀ v, th.distance v = 40 / 41 * (v.x - (-18 + dx)) + 9 / 41 * (v.y - y1) := by
    intro v
    simp only [Plane.distance, Vec.dot, nth, Vec.sub_x, Vec.sub_y, Vec.sub_z, exFront_half.1, exFront_half.2, thx, thy, hx0]
    ring
  have hx0' : x0 = -18 + dx := by linarith
  obtain ⟨r, h8, rx, ry⟩ := ridge_succeeds (body := (exPlan W 0).body) (l := l1) hst1 exFront_slant nth rfl (x0 := x0)
    (fun v => by rw [hpl1.alnumIL, hpl1.alnumOL]) hpl1.alnumOL hpl1.alnumOF (yF := y1)
    (fun v => by rw [hth, exFront_half.1, exFront_half.2, hx0'])
    (fun v => by rw [hw1.pinkyIF, exFront_full.1, exFront_full.2, hx0'])
    (by linarith) (by linarith [ha.left_le]) (by linarith) (by linarith)
    fun k hk p hp => ⟨by linarith [(thb k hk p hp).1, ha.left_le], by linarith [(thb k hk p hp).2, ha.front_ge]⟩
  obtain ⟨ri, ro, hri, hro, r1e, -, -, rz⟩ := ridge_ok h8
  obtain ⟨pts, h9⟩ := referencePoints_succeeds hst1 exAngle_steep exFront_slant nth r
  have uth : UnitPlane th := by
    unfold UnitPlane; rw [nth, exFront_half.1, exFront_half.2]; norm_num [Vec.dot]
  set P : Plan := ⟨side, l1, t1, s1, w1, th, pts,
    ⟨b.alnumB + ⟨dx, 0, 0⟩, b.pinkyB + ⟨dx, 0, 0⟩, b.pinkyF + ⟨dx, 0, 0⟩, b.thumbF + ⟨dx, 0, 0⟩⟩,
    (⟨linesB.1.pos + ⟨dx, 0, 0⟩, linesB.1.dir⟩, ⟨linesB.2.pos + ⟨dx, 0, 0⟩, linesB.2.dir⟩),
    (⟨linesF.1.pos + ⟨dx, 0, 0⟩, linesF.1.dir⟩, ⟨linesF.2.pos + ⟨dx, 0, 0⟩, linesF.2.dir⟩)⟩ with hP
  obtain ⟨hcor, hr1, hr2⟩ := referencePoints_ok hst1.tu hst1.su hst1.wu uth h9 P rfl rfl rfl rfl rfl
  have r2z : r.2.z = 0 := by rw [hpl1.thumbOT] at rz; linarith
  have r2v : r.2 = ⟨(xL + dx) / 2, (yF + y1) / 2, 0⟩ := by
    ext
    · exact rx
    · exact ry
    · exact r2z
  have r1v : r.1 = ⟨(xL + dx) / 2, (yF + y1) / 2 + 4, -4⟩ := by
    obtain ⟨a1, a2, a3⟩ := (intersect_on hst1.su.1 hst1.su.2.2.1 hst1.tu.2.2.2.2.1 hri _).mpr rfl
    obtain ⟨b1, b2, b3⟩ := (intersect_on hst1.su.2.1 hst1.su.2.2.2.1 hst1.tu.2.2.2.2.2.1 hro _).mpr rfl
    rw [hpl1.alnumIL] at a1
    rw [hpl1.alnumIF] at a2
    rw [hpl1.thumbIT] at a3
    rw [hpl1.alnumOL] at b1
    rw [hpl1.alnumOF] at b2
    rw [hpl1.thumbOT] at b3
    rw [r1e, r2v]
    ext
    · simp only [Vec.add_x, Vec.sub_x]; linarith
    · simp only [Vec.add_y, Vec.sub_y]; linarith
    · simp only [Vec.add_z, Vec.sub_z]; linarith
  obtain ⟨H0, hH⟩ := finalZ_succeeds (exPlan W 0) P (ha.two.moved _ _ _) hst1.tu hst1.su hst1.wu
    uth (kn1 _) (fun sd k hk => (up1 sd k hk).2) (kn1 none)
    (fun sd k hk => (up1 sd k hk).1.1)
  refine ⟨W, H0, fun H hHH => ?_⟩
  obtain ⟨plan, h10⟩ := hH H hHH
  obtain ⟨dz, q1, q2, q3, q4, q5, q6, q7, q8, q9, q10, q11, -, -, -⟩ := finalZ_ok (p := P) (ha.two.moved _ _ _) h10
  refine ⟨plan, xL + dx, -18 + dx, xR + dx, yF, y1, yB, 0 + 0 + dz, ?_, ?_⟩
  · have t0 : translateLines linesB ⟨dx, 0, 0⟩ = .ok (⟨linesB.1.pos + ⟨dx, 0, 0⟩, linesB.1.dir⟩, ⟨linesB.2.pos + ⟨dx, 0, 0⟩, linesB.2.dir⟩) := by
      unfold translateLines
      rw [translated_unit (planar_unit wo.pairB.1), translated_unit (planar_unit wo.pairB.2.1)]
      rfl
    have t0' : translateLines linesF ⟨dx, 0, 0⟩ = .ok (⟨linesF.1.pos + ⟨dx, 0, 0⟩, linesF.1.dir⟩, ⟨linesF.2.pos + ⟨dx, 0, 0⟩, linesF.2.dir⟩) := by
      unfold translateLines
      rw [translated_unit (planar_unit wo.pairF.1), translated_unit (planar_unit wo.pairF.2.1)]
      rfl
    unfold Plan.make
    rw [exPre, h1]
    dsimp only [bind, Except.bind]
    rw [exPre2, h2]
    dsimp only
    rw [show finalDeltaX (exPlan W H).body l t s w = finalDeltaX (exPlan W 0).body l t s w from rfl, h3]
    dsimp only
    rw [h4]
    dsimp only
    rw [h5]
    dsimp only
    rw [h6]
    dsimp only
    rw [t0, t0']
    dsimp only
    rw [translate_fun, mapAll_eq, ← hl1, h7]
    dsimp only
    rw [show ridge (exPlan W H).body = ridge (exPlan W 0).body from rfl, h8]
    dsimp only
    rw [h9]
    exact h10
  · have hpl2 := hpl1.shift (dx := 0) hst1.tu hst1.su q2 q3
    have hw2 := hw1.shift (dx := 0) hst1.wu q4
    rw [add_zero, add_zero, add_zero, zero_add, zero_add] at hpl2
    rw [add_zero] at hw2
    have e61 : (61 : ℝ) + dx = -18 + dx + 79 := by ring
    have hc2 := corners_moved hcor q2 q3 q4 q5 q6
    have hk0 : dz ≥ H := by
      obtain ⟨k, hk, e⟩ := ha.low
      have := q11 (k.transform (shift ⟨dx, 0, 0⟩)) (by rw [show P.layout = l1 from rfl, hl1, keys_moved]; exact List.mem_map_of_mem hk)
      rw [Key.position_transform (ha.upright none k hk).1.1, shift_apply] at this
      simp only [Vec.add_z, e] at this
      have e2 : (exPlan W H).body.minRoofHeight = H := rfl
      linarith
    rw [e61] at hpl2
    refine ⟨?_, ?_, q7, ?_, ?_, hw2, ?_, hdx, by linarith [ha.left_le], by linarith [ha.left_ge], by linarith [ha.right_ge], by linarith [ha.right_le],
      ha.front_le, by linarith, hp, hb, by linarith, ?_, ?_, ?_, ?_, ?_, ?_⟩
    · rw [q1]; exact (ha.two.moved _ _ _).moved _ _ _
    · rw [q1, fingers_moved _ _ _ _ _ (by norm_num), fingers_moved _ _ _ _ _ (by norm_num)]
      simpa using ha.pinkyNe
    · simpa using hpl2
    · exact (hst1.shift q2 q3 q4).tu
    · refine exPoints_of (by simpa using hpl2) hw2 (fun v => ?_) hc2 ?_ ?_
      · rw [carried_place q5 uth, hth]; simp
      · rw [q6, show (P.points.map (· + ⟨0, 0, dz⟩)).ridgeIRF = pts.ridgeIRF + ⟨0, 0, dz⟩ from rfl, hr1, r1v]
        ext <;> simp; ring
      · rw [q6, show (P.points.map (· + ⟨0, 0, dz⟩)).ridgeORF = pts.ridgeORF + ⟨0, 0, dz⟩ from rfl, hr2, r2v]
        ext <;> simp
    · rw [q8]
      obtain ⟨_, _, _, _, -, -, f⟩ := bo.alnumB
      have := hn.alnumB
      refine ⟨?_, ?_⟩
      · show |(b.alnumB + ⟨dx, 0, 0⟩ : Vec).x - _| ≤ 3
        rw [Vec.add_x]; convert this using 2; dsimp only; ring
      · show (b.alnumB + ⟨dx, 0, 0⟩ : Vec).z = 0
        rw [Vec.add_z, f.1]; simp
    · rw [q8]
      obtain ⟨_, _, _, -, -, -, f⟩ := bo.pinkyB
      have := hn.pinkyB
      refine ⟨?_, ?_⟩
      · show |(b.pinkyB + ⟨dx, 0, 0⟩ : Vec).x - _| ≤ 3
        rw [Vec.add_x]; convert this using 2; dsimp only; ring
      · show (b.pinkyB + ⟨dx, 0, 0⟩ : Vec).z = 0
        rw [Vec.add_z, f.1]; simp
    · rw [q8]
      obtain ⟨_, _, _, -, -, -, f⟩ := bo.pinkyF
      have := hn.pinkyF
      refine ⟨?_, ?_⟩
      · show |(b.pinkyF + ⟨dx, 0, 0⟩ : Vec).x - _| ≤ 3
        rw [Vec.add_x]; convert this using 2; dsimp only; ring
      · show (b.pinkyF + ⟨dx, 0, 0⟩ : Vec).z = 0
        rw [Vec.add_z, f.1]; simp
    · rw [q8]
      obtain ⟨_, _, -, -, f⟩ := bo.thumbF
      have := hn.thumbF
      refine ⟨?_, ?_⟩
      · show |(b.thumbF + ⟨dx, 0, 0⟩ : Vec).x - _| ≤ 3
        rw [Vec.add_x]; convert this using 2; dsimp only; ring
      · show (b.thumbF + ⟨dx, 0, 0⟩ : Vec).z = 0
        rw [Vec.add_z, f.1]; simp
    · rw [q9]; show linesB.1.dir = _; rw [wo.pairB.2.2, dB]
    · rw [q10]; show linesF.1.dir = _; rw [wo.pairF.2.2, dF]

theorem exPlan_succeeds (side : Side) : ∃ W H plan, Plan.make (exPlan W H) side = .ok plan := by
  obtain ⟨W, H, h⟩ := exPlan_made side
  obtain ⟨plan, -, -, -, -, -, -, -, h, -⟩ := h H le_rfl
  exact ⟨W, H, plan, h⟩

end Chrumm.Part
