import Verif.Props.PlanMake

/-! The final position of the keyboard. -/

namespace Chrumm.Part
open Geo Geo.Spec Spec

theorem shift_mul (v w : Vec) : shift v * shift w = shift (v + w) := by
  unfold shift Mat.translated
  rw [one_mul_mat, one_mul_mat, one_mul_mat]
  ext <;> simp [Mat.mul_def] <;> ring

/-- All keys. -/
noncomputable def keys (l : Layout) (side : Option Side) : List Key := fingers l 0 side ++ fingers l 1 side ++ thumbs l side

theorem keys_moved (l : Layout) (m : Mat) (side : Option Side) :
    keys (l.moved m m m) side = (keys l side).map (·.transform m) := by
  unfold keys
  rw [fingers_moved _ _ _ _ _ (by norm_num), fingers_moved _ _ _ _ _ (by norm_num), thumbs_moved]
  simp

theorem finalDeltaX_ok {body : BodyCfg} {l : Layout} {t : TentPlanes} {s : SidePlanes} {w : WallPlanes} {delta : Vec}
    (h2 : TwoGroups l) (h : finalDeltaX body l t s w = .ok delta) :
    ∃ i o dx, s.alnumIL.intersectPlanes w.alnumIB t.alnumIT = .ok i ∧ s.alnumOL.intersectPlanes w.alnumOB t.alnumOT = .ok o ∧
      delta = ⟨dx, 0, 0⟩ ∧ (∀ k ∈ keys l none, ∀ p ∈ k.bounds, 0 ≤ p.x + dx) ∧
      body.minRidgeWidth / 2 ≤ i.x + dx ∧ body.minRidgeWidth / 2 ≤ o.x + dx ∧
      ((∃ k ∈ keys l none, ∃ p ∈ k.bounds, p.x + dx = 0) ∨ i.x + dx = body.minRidgeWidth / 2 ∨
        o.x + dx = body.minRidgeWidth / 2) := by
  unfold finalDeltaX at h
  obtain ⟨i, hi, h⟩ := bind_ok h
  obtain ⟨o, ho, h⟩ := bind_ok h
  rw [allKeys_ok h2] at h
  obtain ⟨_, ⟨⟩, h⟩ := bind_ok h
  obtain ⟨x, hx, h⟩ := bind_ok h
  cases h
  obtain ⟨xmem, xmin⟩ := pyMin_ok hx
  refine ⟨i, o, _, hi, ho, rfl, ?_, ?_, ?_, ?_⟩
  · intro k hk p hp
    have := xmin p.x (List.mem_map.mpr ⟨p, List.mem_flatMap.mpr ⟨k, hk, hp⟩, rfl⟩)
    have := le_max_left (-x) (-(min o.x i.x) + body.minRidgeWidth / 2)
    linarith
  · have := le_max_right (-x) (-(min o.x i.x) + body.minRidgeWidth / 2)
    have := min_le_right o.x i.x
    linarith
  · have := le_max_right (-x) (-(min o.x i.x) + body.minRidgeWidth / 2)
    have := min_le_left o.x i.x
    linarith
  · rcases max_choice (-x) (-(min o.x i.x) + body.minRidgeWidth / 2) with e | e
    · left
      obtain ⟨p, hp, hpx⟩ := List.mem_map.mp xmem
      obtain ⟨k, hk, hp⟩ := List.mem_flatMap.mp hp
      exact ⟨k, hk, p, hp, by rw [e, hpx]; ring⟩
    · right
      rw [e]
      rcases min_choice o.x i.x with e | e
      · right; rw [e]; ring
      · left; rw [e]; ring

theorem make_unitPlane {p n : Vec} {q : Plane} (h : Plane.make p n = .ok q) : UnitPlane q := by
  obtain ⟨-, h⟩ := plane_make h
  have := h.1
  unfold UnitPlane
  exact this

theorem thumbCorner_ok {l : Layout} {lineF line : Line} {plane : Plane} (h : thumbCorner l lineF = .ok (line, plane)) :
    UnitPlane plane := by
  unfold thumbCorner at h
  dsimp only at h
  obtain ⟨_, -, h⟩ := bind_ok h
  obtain ⟨_, -, h⟩ := bind_ok h
  obtain ⟨_, -, h⟩ := bind_ok h
  obtain ⟨_, -, h⟩ := bind_ok h
  obtain ⟨_, -, h⟩ := bind_ok h
  obtain ⟨_, -, h⟩ := bind_ok h
  obtain ⟨_, -, h⟩ := bind_ok h
  obtain ⟨_, -, h⟩ := bind_ok h
  obtain ⟨_, -, h⟩ := bind_ok h
  obtain ⟨_, hp, h⟩ := bind_ok h
  cases h
  exact make_unitPlane hp

theorem projectZ_on {p : Plane} {v r : Vec} (h : p.projectZ v = .ok r) : p.distance r = 0 ∧ r.x = v.x ∧ r.y = v.y := by
  unfold Plane.projectZ at h
  split_ifs at h with h0
  obtain ⟨d, hd, h⟩ := bind_ok h
  cases h
  have hne := ne_of_not_isZero h0
  unfold pyDiv at hd
  rw [if_neg hne] at hd
  cases hd
  refine ⟨?_, rfl, rfl⟩
  simp only [Plane.distance, Vec.dot, Vec.sub_x, Vec.sub_y, Vec.sub_z]
  field_simp
  ring

theorem ridge_ok {body : BodyCfg} {l : Layout} {t : TentPlanes} {s : SidePlanes} {w : WallPlanes} {th : Plane} {line : Line}
    {r : Vec × Vec} (h : ridge body l t s w th line = .ok r) :
    ∃ i o, s.alnumIL.intersectPlanes s.alnumIF t.thumbIT = .ok i ∧ s.alnumOL.intersectPlanes s.alnumOF t.thumbOT = .ok o ∧
      r.1 = r.2 + (i - o) ∧ 0 ≤ r.1.x ∧ 0 ≤ r.2.x ∧ t.thumbOT.distance r.2 = 0 := by
  unfold ridge at h
  dsimp only at h
  obtain ⟨_, -, h⟩ := bind_ok h
  obtain ⟨_, -, h⟩ := bind_ok h
  obtain ⟨o, ho, h⟩ := bind_ok h
  obtain ⟨i, hi, h⟩ := bind_ok h
  obtain ⟨_, -, h⟩ := bind_ok h
  obtain ⟨_, -, h⟩ := bind_ok h
  obtain ⟨_, -, h⟩ := bind_ok h
  obtain ⟨rf, hr, h⟩ := bind_ok h
  split_ifs at h with hx
  cases h
  rw [not_or, not_lt, not_lt] at hx
  exact ⟨i, o, hi, ho, rfl, hx.2, hx.1, (projectZ_on hr).1⟩

theorem finalZ_ok {cfg : PlanCfg} {p q : Plan} (h2 : TwoGroups p.layout) (h : finalZ cfg p = .ok q) :
    ∃ dz, q.layout = p.layout.moved (shift ⟨0, 0, dz⟩) (shift ⟨0, 0, dz⟩) (shift ⟨0, 0, dz⟩) ∧
      TentPlanes.Rel (CarriedBy (shift ⟨0, 0, dz⟩)) p.tent q.tent ∧ SidePlanes.Rel (CarriedBy (shift ⟨0, 0, dz⟩)) p.sides q.sides ∧
      WallPlanes.Rel (CarriedBy (shift ⟨0, 0, dz⟩)) p.walls q.walls ∧ CarriedBy (shift ⟨0, 0, dz⟩) p.thumbL q.thumbL ∧
      q.points = p.points.map (· + ⟨0, 0, dz⟩) ∧ q.side = p.side ∧ q.bossPos = p.bossPos ∧ q.linesB = p.linesB ∧
      q.linesF = p.linesF ∧
      (∀ k ∈ keys p.layout none, cfg.body.minRoofHeight ≤ k.position.z + dz) ∧
      (∃ k ∈ keys p.layout none, k.position.z + dz = cfg.body.minRoofHeight) ∧
      (∀ v ∈ q.points.toList, cfg.floor.lipHeight + cfg.body.innerChamfer ≤ v.z) ∧
      (∀ k ∈ keys q.layout (some p.side), ∀ v ∈ k.boundsI,
        cfg.floor.innerHeight + cfg.switch.floorMargin ≤ v.z + cfg.floor.outerHeight) := by
  unfold finalZ at h
  rw [allKeys_ok h2] at h
  obtain ⟨_, ⟨⟩, h⟩ := bind_ok h
  obtain ⟨z, hz, h⟩ := bind_ok h
  dsimp only at h
  obtain ⟨t1, ht, h⟩ := bind_ok h
  obtain ⟨s1, hs, h⟩ := bind_ok h
  obtain ⟨w1, hw, h⟩ := bind_ok h
  obtain ⟨th1, hth, h⟩ := bind_ok h
  obtain ⟨zb, hzb, h⟩ := bind_ok h
  rw [translate_fun, mapAll_eq, allKeys_ok (h2.moved _ _ _)] at h
  obtain ⟨_, ⟨⟩, h⟩ := bind_ok h
  obtain ⟨zp, hzp, h⟩ := bind_ok h
  split_ifs at h with h1 h3
  cases h
  rw [not_lt] at h1 h3
  obtain ⟨zm, zmin⟩ := pyMin_ok hz
  obtain ⟨-, bmin⟩ := pyMin_ok hzb
  obtain ⟨-, pmin⟩ := pyMin_ok hzp
  refine ⟨cfg.body.minRoofHeight - z, rfl, (TentPlanes.mapM_ok ht).mono fun a b hab => CarriedBy.of_translated hab,
    (SidePlanes.mapM_ok hs).mono fun a b hab => CarriedBy.of_translated hab,
    (WallPlanes.mapM_ok hw).mono fun a b hab => CarriedBy.of_translated hab, CarriedBy.of_translated hth, rfl, rfl, rfl, rfl, rfl,
    ?_, ?_, ?_, ?_⟩
  · intro k hk
    have := zmin k.position.z (List.mem_map.mpr ⟨k, hk, rfl⟩)
    linarith
  · obtain ⟨k, hk, e⟩ := List.mem_map.mp zm
    exact ⟨k, hk, by rw [e]; ring⟩
  · intro v hv
    have := bmin v.z (List.mem_map.mpr ⟨v, hv, rfl⟩)
    linarith
  · intro k hk v hv
    have := pmin v.z (List.mem_map.mpr ⟨v, List.mem_flatMap.mpr ⟨k, hk, hv⟩, rfl⟩)
    linarith

/-! ### All together -/

theorem CarriedBy.one (p : Plane) : CarriedBy 1 p p := fun h => ⟨h, fun v => by rw [Vec.transformed_one]⟩

theorem corner_eq {l : List (Vec × Plane × Plane × Plane)} (hl : Corners l) {r : Vec} {a b c a' b' c' : Plane}
    (hm : (r, a', b', c') ∈ l) {m : Mat} (ha : CarriedBy m a a') (hb : CarriedBy m b b') (hc : CarriedBy m c c')
    (ua : UnitPlane a) (ub : UnitPlane b) (uc : UnitPlane c) {i : Vec} (h : a.intersectPlanes b c = .ok i) :
    r = i.transformed m := by
  obtain ⟨-, -, -, hx⟩ := hl _ hm
  dsimp only at hx
  obtain ⟨e1, e2, e3⟩ := (intersect_on ua ub uc h i).mpr rfl
  exact ((hx _).mp ⟨by rw [(ha ua).2, e1], by rw [(hb ub).2, e2], by rw [(hc uc).2, e3]⟩).symm

theorem TentPlanes.Rel.unit {m : Mat} {p q : TentPlanes} (hp : p.Unit) (h : Rel (CarriedBy m) p q) : q.Unit := by
  obtain ⟨h1, h2, h3, h4, h5, h6, h7, h8, h9, h10⟩ := h
  obtain ⟨k1, k2, k3, k4, k5, k6, k7, k8, k9, k10⟩ := hp
  exact ⟨(h1 k1).1, (h2 k2).1, (h3 k3).1, (h4 k4).1, (h5 k5).1, (h6 k6).1, (h7 k7).1, (h8 k8).1, (h9 k9).1, (h10 k10).1⟩

theorem SidePlanes.Rel.unit {m : Mat} {p q : SidePlanes} (hp : p.Unit) (h : Rel (CarriedBy m) p q) : q.Unit := by
  obtain ⟨h1, h2, h3, h4, h5, h6⟩ := h
  obtain ⟨k1, k2, k3, k4, k5, k6⟩ := hp
  exact ⟨(h1 k1).1, (h2 k2).1, (h3 k3).1, (h4 k4).1, (h5 k5).1, (h6 k6).1⟩

theorem WallPlanes.Rel.unit {m : Mat} {p q : WallPlanes} (hp : p.Unit) (h : Rel (CarriedBy m) p q) : q.Unit := by
  obtain ⟨h1, h2, h3, h4⟩ := h
  obtain ⟨k1, k2, k3, k4⟩ := hp
  exact ⟨(h1 k1).1, (h2 k2).1, (h3 k3).1, (h4 k4).1⟩

theorem TentOk.unit {body : BodyCfg} {pivot : Vec} {t : TentPlanes} (h : TentOk body pivot t) : t.Unit :=
  ⟨h.alnumIT.1, h.alnumOT.1, h.pivotIB.1, h.pivotOB.1, h.thumbIT.1, h.thumbOT.1, h.pivotIF.1, h.pivotOF.1, h.pinkyIT.1,
    h.pinkyOT.1⟩

/-- What is known of a finished plan. -/
structure Made (cfg : PlanCfg) (side : Side) (plan : Plan) where
  l0 : Layout
  l1 : Layout
  pivot : Vec
  a : Mat
  p : Mat
  t : Mat
  t0 : TentPlanes
  s0 : SidePlanes
  w0 : WallPlanes
  linesB : Line × Line
  linesF : Line × Line
  b0 : BossPos
  dx : ℝ
  dz : ℝ
  L : Layout
  M : Mat
  D : Mat
  hL : L = l1.moved M M M
  hM : M = tiltSplitMatrix cfg.body
  hD : D = shift ⟨dx, 0, dz⟩
  arranged : Arranged cfg side l0 l1 pivot a p t
  tentOk : TentOk cfg.body pivot t0
  sideOk : SideOk cfg.body side l1 s0
  wallsOk : WallsOk cfg.body L linesB linesF w0
  bosses : 0 ≤ cfg.boss.diameter → BossesOk cfg.boss L side linesB linesF b0
  layout : plan.layout = L.moved D D D
  tent : TentPlanes.Rel (CarriedBy (M * D)) t0 plan.tent
  sides : SidePlanes.Rel (CarriedBy (M * D)) s0 plan.sides
  walls : WallPlanes.Rel (CarriedBy D) w0 plan.walls
  side_eq : plan.side = side
  bossPos : plan.bossPos = ⟨b0.alnumB + ⟨dx, 0, 0⟩, b0.pinkyB + ⟨dx, 0, 0⟩, b0.pinkyF + ⟨dx, 0, 0⟩, b0.thumbF + ⟨dx, 0, 0⟩⟩
  planLinesB : plan.linesB = (⟨linesB.1.pos + ⟨dx, 0, 0⟩, linesB.1.dir⟩, ⟨linesB.2.pos + ⟨dx, 0, 0⟩, linesB.2.dir⟩)
  planLinesF : plan.linesF = (⟨linesF.1.pos + ⟨dx, 0, 0⟩, linesF.1.dir⟩, ⟨linesF.2.pos + ⟨dx, 0, 0⟩, linesF.2.dir⟩)
  corners : Corners (corners plan)
  ridgeO : 0 ≤ plan.points.ridgeORF.x ∧ plan.tent.thumbOT.distance plan.points.ridgeORF = 0
  ridgeI : 0 ≤ plan.points.ridgeIRF.x ∧
    plan.points.ridgeIRF = plan.points.ridgeORF + (plan.points.thumbILB - plan.points.thumbOLB)
  keysX : ∀ k ∈ keys plan.layout none, ∀ p ∈ k.bounds, 0 ≤ p.x
  cornersX : cfg.body.minRidgeWidth / 2 ≤ plan.points.alnumILB.x ∧ cfg.body.minRidgeWidth / 2 ≤ plan.points.alnumOLB.x
  tightX : (∃ k ∈ keys plan.layout none, ∃ p ∈ k.bounds, p.x = 0) ∨ plan.points.alnumILB.x = cfg.body.minRidgeWidth / 2 ∨
    plan.points.alnumOLB.x = cfg.body.minRidgeWidth / 2
  keysZ : (∀ k ∈ keys plan.layout none, cfg.body.minRoofHeight ≤ k.position.z) ∧
    ∃ k ∈ keys plan.layout none, k.position.z = cfg.body.minRoofHeight
  lip : ∀ v ∈ plan.points.toList, cfg.floor.lipHeight + cfg.body.innerChamfer ≤ v.z
  pins : ∀ k ∈ keys plan.layout (some side), ∀ v ∈ k.boundsI,
    cfg.floor.innerHeight + cfg.switch.floorMargin ≤ v.z + cfg.floor.outerHeight

theorem translateLines_ok {w w' : Line × Line} {v : Vec} (hw : WallPair w) (h : translateLines w v = .ok w') :
    w' = (⟨w.1.pos + v, w.1.dir⟩, ⟨w.2.pos + v, w.2.dir⟩) := by
  unfold translateLines at h
  rw [translated_unit (planar_unit hw.1), translated_unit (planar_unit hw.2.1)] at h
  obtain ⟨_, ⟨⟩, h⟩ := bind_ok h
  obtain ⟨_, ⟨⟩, h⟩ := bind_ok h
  cases h
  rfl

theorem arranged_motions {cfg : PlanCfg} {side : Side} {l0 l1 : Layout} {pivot : Vec} {a p t : Mat}
    (h : Arranged cfg side l0 l1 pivot a p t) : Motion a ∧ Motion p ∧ Motion t := by
  obtain ⟨off, kA, kP, dy, -, rfl, rfl, rfl, -⟩ := h.parts
  exact ⟨(shift_motion _).mul (turn_motion _ _), turn_motion _ _, ((shift_motion _).mul (turn_motion _ _)).mul (shift_motion _)⟩

theorem arranged_affine {cfg : PlanCfg} {side : Side} {l0 l1 : Layout} {pivot : Vec} {a p t : Mat}
    (h : Arranged cfg side l0 l1 pivot a p t) {s : Option Side} : ∀ k ∈ keys l1 s, Mat.Affine k.matrix := by
  obtain ⟨ma, mp, mt⟩ := arranged_motions h
  obtain ⟨f, -, ff, ft⟩ := make_flat h.make
  intro k hk
  rw [h.layout] at hk
  unfold keys at hk
  rw [fingers_moved _ _ _ _ _ (by norm_num), fingers_moved _ _ _ _ _ (by norm_num), thumbs_moved] at hk
  simp only [List.mem_append, List.mem_map] at hk
  rcases hk with (⟨k0, hk0, rfl⟩ | ⟨k0, hk0, rfl⟩) | ⟨k0, hk0, rfl⟩
  · exact (ff 0 (by norm_num) _ k0 hk0).motion.1.mul ma.1
  · exact (ff 1 (by norm_num) _ k0 hk0).motion.1.mul mp.1
  · exact (ft _ k0 hk0).motion.1.mul mt.1

theorem moved_affine {l : Layout} {m : Mat} (hm : Mat.Affine m) {s : Option Side} (h : ∀ k ∈ keys l s, Mat.Affine k.matrix) :
    ∀ k ∈ keys (l.moved m m m) s, Mat.Affine k.matrix := by
  intro k hk
  rw [keys_moved] at hk
  obtain ⟨k0, hk0, rfl⟩ := List.mem_map.mp hk
  exact (h k0 hk0).mul hm

theorem make_made {cfg : PlanCfg} {side : Side} {plan : Plan} (h : Plan.make cfg side = .ok plan) :
    Nonempty (Made cfg side plan) := by
  unfold Plan.make at h
  obtain ⟨⟨l, tp, sp⟩, h1, h⟩ := bind_ok h
  dsimp only at h
  obtain ⟨⟨b0, linesB, linesF, w0⟩, h2, h⟩ := bind_ok h
  dsimp only at h
  obtain ⟨delta, h3, h⟩ := bind_ok h
  obtain ⟨tp1, h4, h⟩ := bind_ok h
  obtain ⟨sp1, h5, h⟩ := bind_ok h
  obtain ⟨w1, h6, h⟩ := bind_ok h
  obtain ⟨linesB1, h7, h⟩ := bind_ok h
  obtain ⟨linesF1, h8, h⟩ := bind_ok h
  obtain ⟨⟨tline, thumbL⟩, h9, h⟩ := bind_ok h
  dsimp only at h
  obtain ⟨r, h10, h⟩ := bind_ok h
  obtain ⟨pts, h11, h⟩ := bind_ok h
  obtain ⟨l0, l1, pivot, a, p, t, t0, s0, har, hto, hso, rfl, hrt, hrs⟩ := arrange_ok h1
  have hmM := tiltSplit_motion cfg.body
  generalize hM : tiltSplitMatrix cfg.body = M at *
  have two1 : TwoGroups l1 := by rw [har.layout]; exact (make_two har.make).moved _ _ _
  have two2 := two1.moved M M M
  have aff1 : ∀ s, ∀ k ∈ keys (l1.moved M M M) s, Mat.Affine k.matrix := fun s =>
    moved_affine hmM.1 (arranged_affine har)
  generalize hL : l1.moved M M M = L at *
  have ut := hto.unit
  have us : s0.Unit := hso.units
  have utp := TentPlanes.Rel.unit ut hrt
  have usp := SidePlanes.Rel.unit us hrs
  obtain ⟨hwo, hbo⟩ := vertical_ok two2 h2
  have uw : w0.Unit := ⟨hwo.alnumIB.1, hwo.alnumOB.1, hwo.pinkyIF.1, hwo.pinkyOF.1⟩
  obtain ⟨i, o, dx, hi, ho, rfl, kx, ix, ox, tx⟩ := finalDeltaX_ok two2 h3
  rw [translate_fun, mapAll_eq] at h h9 h10
  have r4 := (TentPlanes.mapM_ok h4).mono fun a b hab => CarriedBy.of_translated hab
  have r5 := (SidePlanes.mapM_ok h5).mono fun a b hab => CarriedBy.of_translated hab
  have r6 := (WallPlanes.mapM_ok h6).mono fun a b hab => CarriedBy.of_translated hab
  have utp1 := TentPlanes.Rel.unit utp r4
  have usp1 := SidePlanes.Rel.unit usp r5
  have uw1 := WallPlanes.Rel.unit uw r6
  have e7 := translateLines_ok hwo.pairB h7
  have e8 := translateLines_ok hwo.pairF h8
  obtain ⟨ri, ro, hri, hro, e10, x1, x2, d2⟩ := ridge_ok h10
  have uth := thumbCorner_ok h9
  obtain ⟨hc, pr1, pr2⟩ := referencePoints_ok utp1 usp1 uw1 uth h11
    (⟨side, L.moved (shift ⟨dx, 0, 0⟩) (shift ⟨dx, 0, 0⟩) (shift ⟨dx, 0, 0⟩), tp1, sp1, w1, thumbL, pts,
      ⟨b0.alnumB + ⟨dx, 0, 0⟩, b0.pinkyB + ⟨dx, 0, 0⟩, b0.pinkyF + ⟨dx, 0, 0⟩, b0.thumbF + ⟨dx, 0, 0⟩⟩, linesB1, linesF1⟩)
    rfl rfl rfl rfl rfl
  obtain ⟨dz, z1, z2, z3, z4, z5, z6, z7, z8, z9, z10, z11, z12, z13, z14⟩ := finalZ_ok (two2.moved _ _ _) h
  dsimp only at z1 z2 z3 z4 z5 z6 z7 z8 z9 z10 z11 z12 z13 z14
  have hcq := corners_moved hc z2 z3 z4 z5 z6
  have eD : shift ⟨dx, 0, 0⟩ * shift ⟨0, 0, dz⟩ = shift ⟨dx, 0, dz⟩ := by
    rw [shift_mul]; congr 1; ext <;> simp
  have e1 : pts.alnumILB = i.transformed (shift ⟨dx, 0, 0⟩) :=
    corner_eq hc (r := pts.alnumILB) (a' := sp1.alnumIL) (b' := w1.alnumIB) (c' := tp1.alnumIT) (by simp [corners]) r5.1 r6.1 r4.1
      usp.1 uw.1 utp.1 hi
  have e2 : pts.alnumOLB = o.transformed (shift ⟨dx, 0, 0⟩) :=
    corner_eq hc (r := pts.alnumOLB) (a' := sp1.alnumOL) (b' := w1.alnumOB) (c' := tp1.alnumOT) (by simp [corners]) r5.2.1 r6.2.1
      r4.2.1 usp.2.1 uw.2.1 utp.2.1 ho
  have e3 : pts.thumbILB = ri := by
    have := corner_eq hc (r := pts.thumbILB) (a' := sp1.alnumIL) (b' := sp1.alnumIF) (c' := tp1.thumbIT) (by simp [corners])
      (CarriedBy.one _) (CarriedBy.one _) (CarriedBy.one _) usp1.1 usp1.2.2.1 utp1.2.2.2.2.1 hri
    rwa [Vec.transformed_one] at this
  have e4 : pts.thumbOLB = ro := by
    have := corner_eq hc (r := pts.thumbOLB) (a' := sp1.alnumOL) (b' := sp1.alnumOF) (c' := tp1.thumbOT) (by simp [corners])
      (CarriedBy.one _) (CarriedBy.one _) (CarriedBy.one _) usp1.2.1 usp1.2.2.2.1 utp1.2.2.2.2.2.1 hro
    rwa [Vec.transformed_one] at this
  rw [shift_apply] at e1 e2
  rw [Layout.moved_moved, eD] at z1
  have kb : ∀ k ∈ keys L none, (k.transform (shift ⟨dx, 0, dz⟩)).bounds = k.bounds.map (· + ⟨dx, 0, dz⟩) := by
    intro k hk
    rw [Key.bounds_transform (aff1 none k hk)]
    simp only [shift_apply]
  have kp : ∀ k ∈ keys L none, (k.transform (shift ⟨dx, 0, dz⟩)).position.z = k.position.z + dz := by
    intro k hk
    rw [Key.position_transform (aff1 none k hk), shift_apply]
    rfl
  have kp' : ∀ k ∈ keys L none, (k.transform (shift ⟨dx, 0, 0⟩)).position.z = k.position.z := by
    intro k hk
    rw [Key.position_transform (aff1 none k hk), shift_apply]
    simp
  refine ⟨⟨l0, l1, pivot, a, p, t, t0, s0, w0, linesB, linesF, b0, dx, dz, L, M, shift ⟨dx, 0, dz⟩, hL.symm, hM.symm, rfl, har, hto, hso,
    hwo, fun hd => hbo hd utp.2.2.2.2.2.2.2.1 utp.2.1, z1, ?_, ?_, ?_, z7, z8, z9.trans e7, z10.trans e8, hcq, ?_, ?_, ?_, ?_, ?_, ?_,
    z13, z14⟩⟩
  · rw [← eD]
    exact TentPlanes.Rel.trans (R := CarriedBy M) (S := CarriedBy (shift ⟨dx, 0, 0⟩ * shift ⟨0, 0, dz⟩))
      (T := CarriedBy (M * (shift ⟨dx, 0, 0⟩ * shift ⟨0, 0, dz⟩))) (fun a b c x y => CarriedBy.trans hmM.1 x y) hrt
      (TentPlanes.Rel.trans (R := CarriedBy (shift ⟨dx, 0, 0⟩)) (S := CarriedBy (shift ⟨0, 0, dz⟩))
        (T := CarriedBy (shift ⟨dx, 0, 0⟩ * shift ⟨0, 0, dz⟩)) (fun a b c x y => CarriedBy.trans (shift_motion _).1 x y) r4 z2)
  · rw [← eD]
    exact SidePlanes.Rel.trans (R := CarriedBy M) (S := CarriedBy (shift ⟨dx, 0, 0⟩ * shift ⟨0, 0, dz⟩))
      (T := CarriedBy (M * (shift ⟨dx, 0, 0⟩ * shift ⟨0, 0, dz⟩))) (fun a b c x y => CarriedBy.trans hmM.1 x y) hrs
      (SidePlanes.Rel.trans (R := CarriedBy (shift ⟨dx, 0, 0⟩)) (S := CarriedBy (shift ⟨0, 0, dz⟩))
        (T := CarriedBy (shift ⟨dx, 0, 0⟩ * shift ⟨0, 0, dz⟩)) (fun a b c x y => CarriedBy.trans (shift_motion _).1 x y) r5 z3)
  · rw [← eD]
    exact WallPlanes.Rel.trans (R := CarriedBy (shift ⟨dx, 0, 0⟩)) (S := CarriedBy (shift ⟨0, 0, dz⟩))
        (T := CarriedBy (shift ⟨dx, 0, 0⟩ * shift ⟨0, 0, dz⟩)) (fun a b c x y => CarriedBy.trans (shift_motion _).1 x y) r6 z4
  · rw [z6]
    refine ⟨?_, ?_⟩
    · show 0 ≤ (pts.ridgeORF + _).x
      rw [pr2]; simpa using x2
    · show plan.tent.thumbOT.distance (pts.ridgeORF + _) = 0
      rw [pr2, ← shift_apply, (z2.2.2.2.2.2.1 utp1.2.2.2.2.2.1).2, d2]
  · rw [z6]
    refine ⟨?_, ?_⟩
    · show 0 ≤ (pts.ridgeIRF + _).x
      rw [pr1]; simpa using x1
    · show pts.ridgeIRF + _ = pts.ridgeORF + _ + (pts.thumbILB + _ - (pts.thumbOLB + _))
      rw [pr1, pr2, e3, e4, e10]
      ext <;> simp only [Vec.add_x, Vec.add_y, Vec.add_z, Vec.sub_x, Vec.sub_y, Vec.sub_z] <;> ring
  · intro k hk q hq
    rw [z1, keys_moved] at hk
    obtain ⟨k0, hk0, rfl⟩ := List.mem_map.mp hk
    rw [kb k0 hk0] at hq
    obtain ⟨q0, hq0, rfl⟩ := List.mem_map.mp hq
    exact kx k0 hk0 q0 hq0
  · rw [z6]
    show _ ≤ (pts.alnumILB + _).x ∧ _ ≤ (pts.alnumOLB + _).x
    rw [e1, e2]
    simpa using ⟨ix, ox⟩
  · rw [z6]
    show _ ∨ (pts.alnumILB + _).x = _ ∨ (pts.alnumOLB + _).x = _
    rw [e1, e2, z1, keys_moved]
    rcases tx with ⟨k, hk, q, hq, e⟩ | e
    · left
      refine ⟨_, List.mem_map.mpr ⟨k, hk, rfl⟩, q + ⟨dx, 0, dz⟩, ?_, e⟩
      rw [kb k hk]
      exact List.mem_map.mpr ⟨q, hq, rfl⟩
    · right
      simpa using e
  · rw [z1]
    rw [keys_moved] at z11 z12
    rw [keys_moved]
    refine ⟨?_, ?_⟩
    · intro k hk
      obtain ⟨k0, hk0, rfl⟩ := List.mem_map.mp hk
      have := z11 _ (List.mem_map.mpr ⟨k0, hk0, rfl⟩)
      rw [kp' k0 hk0] at this
      rw [kp k0 hk0]; exact this
    · obtain ⟨k, hk, e⟩ := z12
      obtain ⟨k0, hk0, rfl⟩ := List.mem_map.mp hk
      rw [kp' k0 hk0] at e
      exact ⟨_, List.mem_map.mpr ⟨k0, hk0, rfl⟩, by rw [kp k0 hk0]; exact e⟩

end Chrumm.Part
