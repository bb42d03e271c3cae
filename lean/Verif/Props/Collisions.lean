import Verif.Props.CableShape
import Verif.Props.BossBody
import Verif.Props.BodyChamfer
import Verif.Props.BracketFit
import Verif.Props.FloorWhole
import Verif.Props.BodyWhole

/-! What does not fit is rejected (C100). -/

namespace Chrumm.Part
open Geo Geo.Spec Spec

/-- **C100** If a chamfer is too large for the roundings, then the body is rejected with a ValueError, before anything else is done. -/
theorem C100_chamfers (cfg : KeyboardCfg) (fp : FullPlan)
    (h : cfg.outerCornerRadius - cfg.body.wallThickness ≤ cfg.body.innerChamfer ∨ cfg.boss.innerWallFillet ≤ cfg.body.innerChamfer ∨
      cfg.outerCornerRadius ≤ cfg.outerChamfer) : Body.make cfg fp = .error .valueError := by
  have e : bodyChecks cfg = .error .valueError := by
    unfold bodyChecks
    simp only [ge_iff_le]
    split_ifs with h1 h2 h3
    · rfl
    · rfl
    · rfl
    · rcases h with h | h | h <;> contradiction
  unfold Body.make
  dsimp only
  rw [e]
  rfl

theorem forall₂_left_mem {α β : Type} {R : α → β → Prop} {l : List α} {m : List β} (h : List.Forall₂ R l m) {a : α} (ha : a ∈ l) : ∃ b ∈ m, R a b := by
  induction h with
  | nil => simp at ha
  | cons h1 h2 ih =>
    rcases List.mem_cons.mp ha with rfl | ha
    · exact ⟨_, List.mem_cons_self, h1⟩
    · obtain ⟨b, hb, hr⟩ := ih ha
      exact ⟨b, List.mem_cons_of_mem _ hb, hr⟩

theorem projectZ_index {p : Plane} {l m : List Vec} (h : edgeProjectZ p l = .ok m) {v : Vec} :
    (pyIndex m 0 = .ok v → ∃ u, l.head? = some u ∧ u.x = v.x ∧ u.y = v.y) ∧ (pyIndex m (-1) = .ok v → ∃ u, l.getLast? = some u ∧ u.x = v.x ∧ u.y = v.y) := by
  have f := mapM_ok h
  constructor
  · intro hv
    have hv := pyIndex_zero.mp hv
    cases f with
    | nil => simp at hv
    | cons h1 _ =>
      simp only [List.getElem?_cons_zero, Option.some.injEq] at hv
      subst hv
      obtain ⟨-, h2, h3⟩ := projectZ_above h1
      exact ⟨_, rfl, h2.symm, h3.symm⟩
  · intro hv
    obtain ⟨u, hu, e⟩ := forall₂_last f (pyIndex_last.mp hv)
    obtain ⟨-, h2, h3⟩ := projectZ_above e
    exact ⟨u, hu, h2.symm, h3.symm⟩

/-- **C100** In every body that is made, the chamfers are smaller than the roundings, and the bosses are at their places between the corners: along the walls, the
right boss at the back ends before the right corner starts, and the bosses at the front end before the crease and before the corner at the thumbs. There is a bump
in the wall for each of these bosses. -/
theorem C100_bosses {cfg : KeyboardCfg} {fp : FullPlan} {body : Body} (hb : Body.make cfg fp = .ok body) :
    (cfg.body.innerChamfer < cfg.outerCornerRadius - cfg.body.wallThickness ∧ cfg.body.innerChamfer < cfg.boss.innerWallFillet ∧
      cfg.outerChamfer < cfg.outerCornerRadius) ∧
    (∃ b c, fp.bosses.pinkyB.wallEdge.getLast? = some b ∧ body.corners.IRBG.head? = some c ∧ b.x < c.x) ∧
    (∃ b, fp.bosses.pinkyF.wallEdge.getLast? = some b ∧ fp.plan.points.thumbIRF.x < b.x) ∧
    ∃ b c, fp.bosses.thumbF.wallEdge.getLast? = some b ∧ body.corners.ILFG.head? = some c ∧ c.x < b.x := by
  refine ⟨?_, ?_⟩
  · by_contra hn
    have : cfg.outerCornerRadius - cfg.body.wallThickness ≤ cfg.body.innerChamfer ∨ cfg.boss.innerWallFillet ≤ cfg.body.innerChamfer ∨
        cfg.outerCornerRadius ≤ cfg.outerChamfer := by
      by_contra h2
      rw [not_or, not_or, not_le, not_le, not_le] at h2
      exact hn h2
    rw [C100_chamfers cfg fp this] at hb
    cases hb
  · have hc := (body_parts hb).corners
    generalize body.corners = c at *
    unfold bodyCorners at hc
    dsimp only at hc
    obtain ⟨ILFG, a1, hc⟩ := bind_ok hc
    obtain ⟨IRFG, a2, hc⟩ := bind_ok hc
    obtain ⟨IRBG, a3, hc⟩ := bind_ok hc
    obtain ⟨OLFG, a4, hc⟩ := bind_ok hc
    obtain ⟨ORFG, a5, hc⟩ := bind_ok hc
    obtain ⟨ORBG, a6, hc⟩ := bind_ok hc
    obtain ⟨ILFT, b1, hc⟩ := bind_ok hc
    obtain ⟨IRFT, b2, hc⟩ := bind_ok hc
    obtain ⟨IRBT, b3, hc⟩ := bind_ok hc
    obtain ⟨OLFT, b4, hc⟩ := bind_ok hc
    obtain ⟨ORFT, b5, hc⟩ := bind_ok hc
    obtain ⟨ORBT, b6, hc⟩ := bind_ok hc
    obtain ⟨LB, c1, hc⟩ := bind_ok hc
    obtain ⟨RB, c2, hc⟩ := bind_ok hc
    obtain ⟨RF, c3, hc⟩ := bind_ok hc
    obtain ⟨LF, c4, hc⟩ := bind_ok hc
    obtain ⟨_, ho, hc⟩ := bind_ok hc
    obtain rfl := Except.ok.inj hc
    unfold bossOverlap at ho
    dsimp only at ho ⊢
    obtain ⟨rb, d1, ho⟩ := bind_ok ho
    obtain ⟨irb, d2, ho⟩ := bind_ok ho
    by_cases k1 : rb.x ≥ irb.x
    · rw [if_pos k1] at ho; cases ho
    rw [if_neg k1] at ho
    obtain ⟨rf, d3, ho⟩ := bind_ok ho
    by_cases k2 : rf.x ≤ fp.plan.points.thumbIRF.x
    · rw [if_pos k2] at ho; cases ho
    rw [if_neg k2] at ho
    obtain ⟨lf, d4, ho⟩ := bind_ok ho
    obtain ⟨ilf, d5, ho⟩ := bind_ok ho
    by_cases k3 : lf.x ≤ ilf.x
    · rw [if_pos k3] at ho; cases ho
    obtain ⟨u1, e1, f1, -⟩ := (projectZ_index c2).2 d1
    obtain ⟨u2, e2, f2, -⟩ := (projectZ_index b3).1 d2
    obtain ⟨u3, e3, f3, -⟩ := (projectZ_index c3).2 d3
    obtain ⟨u4, e4, f4, -⟩ := (projectZ_index c4).2 d4
    obtain ⟨u5, e5, f5, -⟩ := (projectZ_index b1).1 d5
    exact ⟨⟨u1, u2, e1, e2, by linarith⟩, ⟨u3, e3, by linarith⟩, u4, u5, e4, e5, by linarith⟩

/-- **C100** A body is only made if the bosses stand out of the walls by at least a tenth of their thickness. -/
theorem C100_protrude {cfg : KeyboardCfg} {side : Side} {fp : FullPlan} {body : Body} (h : FullPlan.make cfg side = .ok fp)
    (hb : Body.make cfg fp = .ok body) (hq : 0 < cfg.quality.maxChordAngle) (hR : 1 / 1000000 ≤ cfg.boss.diameter / 2)
    (hF : cfg.boss.innerWallFillet = 0 ∨ 1 / 1000000 ≤ cfg.boss.innerWallFillet)
    (hP : (cfg.boss.diameter / 2 + cfg.boss.innerWallFillet) * (1 - Real.sin (89 * Real.pi / 180)) ≤
      cfg.boss.diameter + cfg.boss.outerWallMargin - cfg.body.wallThickness) :
    cfg.body.wallThickness / 10 ≤ cfg.boss.diameter + cfg.boss.outerWallMargin - cfg.body.wallThickness := by
  by_contra hn
  obtain ⟨-, ⟨b, -, hb1, -⟩, -⟩ := C100_bosses hb
  obtain ⟨l, u, m, -⟩ := bossPlaces_ok h (by linarith) _ (by simp [bossPlaces] : (fp.bosses.pinkyB, fp.plan.bossPos.pinkyB, fp.plan.walls.alnumIB,
    fp.plan.walls.alnumOB, fp.plan.tent.pinkyOT) ∈ bossPlaces fp)
  unfold bodyBoss Boss.make at m
  obtain ⟨edge, m1, m⟩ := bind_ok m
  obtain ⟨⟨c, hh, tt⟩, m2, m⟩ := bind_ok m
  obtain ⟨⟨th, tt'⟩, m3, m⟩ := bind_ok m
  have e := (C79_shape _ _ _ _ _ _ _ hq u hR hF hP m1).1 (not_le.mp hn)
  have m := Except.ok.inj m
  dsimp only at m
  rw [← m] at hb1
  simp only [e] at hb1
  cases hb1

/-- The parts of the joint of a body with brackets. -/
theorem joint_parts {cfg : KeyboardCfg} {fp : FullPlan} {s : BodyStep} {i : InnerRim} {r : Ridge} {bc : BracketCfg} {j : Joint}
    (h : makeJoint cfg fp s i r (some bc) = .ok j) : ∃ f b : CornerBracket, j.bracketF = some f ∧ j.bracketB = some b ∧
      CornerBracket.make cfg.quality cfg.taper bc cfg.cable r.ilft fp.plan.points.ridgeIRF r.ilfc (decide (fp.plan.side = cfg.nutSide)) = .ok f ∧
      CornerBracket.make cfg.quality cfg.taper bc cfg.cable i.alnumILBT s.alnumILF i.alnumILBC (decide (fp.plan.side = cfg.nutSide)) = .ok b ∧
      bracketChecks fp.plan.points r i f b (cfg.floor.lipHeight + cfg.floor.lipMargin) = .ok () ∧
      ∃ sB OB IB fs ps, cableHole cfg fp.plan.points r bc b.wallEdge (cfg.floor.lipHeight + cfg.floor.lipMargin) cfg.cable = .ok (sB, OB, IB, fs, ps) ∧
        ∀ P ∈ ps, P ∈ j.pieces := by
  unfold makeJoint at h
  dsimp only at h
  obtain ⟨f, h1, h⟩ := bind_ok h
  obtain ⟨b, h2, h⟩ := bind_ok h
  obtain ⟨pk, -, h⟩ := bind_ok h
  obtain ⟨ref, -, h⟩ := bind_ok h
  obtain ⟨t, -, h⟩ := bind_ok h
  obtain ⟨_, h3, h⟩ := bind_ok h
  obtain ⟨⟨sB, OB, IB, fs, ps⟩, h4, h⟩ := bind_ok h
  dsimp only at h
  obtain ⟨w, -, h⟩ := bind_ok h
  obtain ⟨r0, -, h⟩ := bind_ok h
  obtain rfl := Except.ok.inj h
  exact ⟨f, b, rfl, rfl, h1, h2, h3, sB, OB, IB, fs, ps, h4, fun P hP => by simp [hP]⟩

/-- **C100** In every body with brackets that is made, the brackets leave the space of the floor's lip below them free; the front bracket ends in front of the
ridge, and is right of the left end of the thumb roof; the back bracket ends left of the wall's end at the ridge. All distances are at least 0.001. -/
theorem C100_brackets {cfg : KeyboardCfg} {fp : FullPlan} {body : Body} {bc : BracketCfg} (hb : Body.make cfg fp = .ok body) (hbr : cfg.bracket = some bc) :
    ∃ f b : CornerBracket, body.joint.bracketF = some f ∧ body.joint.bracketB = some b ∧
      (∀ p ∈ f.splitEdge ++ b.splitEdge, cfg.floor.lipHeight + cfg.floor.lipMargin + 1 / 1000 ≤ p.z) ∧
      (∀ p ∈ f.splitEdge, p.y + 1 / 1000 ≤ fp.plan.points.ridgeIRF.y) ∧
      (∀ p ∈ f.roofEdge, left fp.plan.points.ridgeIRF body.ridge.ilft p ≤ -(1 / 1000) * dist2D fp.plan.points.ridgeIRF body.ridge.ilft) ∧
      ∃ w, b.wallEdge.getLast? = some w ∧ w.x + 1 / 1000 ≤ body.inner.alnumILBC.x := by
  have hj := (body_parts hb).joint
  rw [hbr] at hj
  obtain ⟨f, b, e1, e2, -, -, hk, -⟩ := joint_parts hj
  refine ⟨f, b, e1, e2, ?_⟩
  unfold bracketChecks at hk
  dsimp only at hk
  obtain ⟨line, l1, hk⟩ := bind_ok hk
  obtain ⟨maxY, l2, hk⟩ := bind_ok hk
  obtain ⟨ds, l3, hk⟩ := bind_ok hk
  obtain ⟨gap, l4, hk⟩ := bind_ok hk
  obtain ⟨minZ, l5, hk⟩ := bind_ok hk
  split_ifs at hk with k1
  obtain ⟨w, l6, hk⟩ := bind_ok hk
  obtain ⟨minB, l7, hk⟩ := bind_ok hk
  split_ifs at hk with k2
  rw [not_or, not_or, not_lt, not_lt, not_lt] at k1
  rw [not_or, not_lt, not_lt] at k2
  obtain ⟨k3, k4, k5⟩ := k1
  obtain ⟨k6, k7⟩ := k2
  have m2 := (pyMax_ok l2).2
  have m4 := (pyMin_ok l4).2
  have m5 := (pyMin_ok l5).2
  have m7 := (pyMin_ok l7).2
  refine ⟨?_, ?_, ?_, w, pyIndex_last.mp l6, by linarith⟩
  · intro p hp
    rcases List.mem_append.mp hp with hp | hp
    · have := m5 _ (List.mem_map_of_mem hp)
      linarith
    · have := m7 _ (List.mem_map_of_mem hp)
      linarith
  · intro p hp
    have := m2 _ (List.mem_map_of_mem hp)
    linarith
  · intro p hp
    obtain ⟨x, hx, hd0⟩ : ∃ x ∈ ds, line.distance2D p = .ok x := forall₂_left_mem (mapM_ok l3) hp
    unfold Line.distance2D at hd0
    obtain ⟨d, hd, hd0⟩ := bind_ok hd0
    have hx' := Except.ok.inj hd0
    obtain ⟨n1, -, c0, c1, n2⟩ := line_make l1
    obtain ⟨m0, m1, m2, -⟩ := normalized2D_ok hd
    have := m4 x hx
    rw [n1] at hx'
    generalize line.dir.magnitude2D = m at *
    have ex : body.ridge.ilft.x - fp.plan.points.ridgeIRF.x = d.x * m * c0 := by
      have e1 := congrArg Vec.x n2
      have e2 := congrArg Vec.x m1
      simp only [Vec.sub_x, Vec.mul_x, Vec.xy] at e1 e2
      rw [e1, e2]
    have ey : body.ridge.ilft.y - fp.plan.points.ridgeIRF.y = d.y * m * c0 := by
      have e1 := congrArg Vec.y n2
      have e2 := congrArg Vec.y m1
      simp only [Vec.sub_y, Vec.mul_y, Vec.xy] at e1 e2
      rw [e1, e2]
    have hmc : 0 < m * c0 := mul_pos m0 c1
    have hdist : dist2D fp.plan.points.ridgeIRF body.ridge.ilft = m * c0 := by
      unfold dist2D distSq2D
      rw [← Real.sqrt_sq hmc.le]
      congr 1
      have e3 : (fp.plan.points.ridgeIRF.x - body.ridge.ilft.x) ^ 2 = (body.ridge.ilft.x - fp.plan.points.ridgeIRF.x) ^ 2 := by ring
      have e4 : (fp.plan.points.ridgeIRF.y - body.ridge.ilft.y) ^ 2 = (body.ridge.ilft.y - fp.plan.points.ridgeIRF.y) ^ 2 := by ring
      rw [e3, e4, ex, ey]
      linear_combination (m * c0) ^ 2 * m2
    rw [hdist]
    unfold left
    rw [ex, ey]
    have : 1 / 1000 * (m * c0) ≤ x * (m * c0) := mul_le_mul_of_nonneg_right (by linarith) hmc.le
    rw [← hx'] at this
    linarith

/-- The lowest point of the bump is its end at the wall. -/
theorem taper_low {cfg : CableCfg} {wall : ℝ} {b e : Vec} (hs : SaneCable cfg wall) (hb : OnTaper cfg b) (he : OnTaper cfg e) (e0 : e.x = 0)
    (h0 : 0 < (CableCfg.tip cfg).x + cfg.wallBumpRadius * Real.sin cfg.wallBumpTaperAngle) : e.y ≤ b.y ∧ 0 ≤ b.x := by
  have hpi := Real.pi_pos
  have c0 := Real.cos_pos_of_mem_Ioo ⟨by linarith [hs.taper], hs.taper_lt⟩ (x := cfg.wallBumpTaperAngle)
  have s0 := Real.sin_nonneg_of_nonneg_of_le_pi hs.taper (by linarith [hs.taper_lt])
  have sc := Real.sin_sq_add_cos_sq cfg.wallBumpTaperAngle
  have r0 : 0 < cfg.wallBumpRadius := by linarith [hs.bump]
  unfold OnTaper at hb he
  dsimp only at hb he
  generalize Real.sin cfg.wallBumpTaperAngle = S at *
  generalize Real.cos cfg.wallBumpTaperAngle = C at *
  generalize cfg.wallBumpRadius = R at *
  generalize CableCfg.tip cfg = t at *
  simp only [OnLine, distSq2D, Vec.add_x, Vec.mul_x, Vec.add_y] at hb he
  have hSR : 0 ≤ S * R := mul_nonneg s0 r0.le
  have he : ∃ k : ℝ, e = t + (⟨S, -C, 0⟩ : Vec) * R + (⟨C, S, 0⟩ : Vec) * k := by
    rcases he with ⟨-, -, h⟩ | ⟨-, h⟩
    · rw [e0] at h; linarith
    · exact h
  obtain ⟨k, rfl⟩ := he
  simp only [Vec.add_x, Vec.mul_x, Vec.add_y, Vec.mul_y] at *
  have hk : k ≤ 0 := by
    by_contra hk
    have := mul_pos c0 (not_le.mp hk)
    linarith
  have hSk : S * k ≤ 0 := mul_nonpos_of_nonneg_of_nonpos s0 hk
  rcases hb with ⟨h1, h2, h3⟩ | ⟨h1, k', rfl⟩
  · refine ⟨?_, by linarith⟩
    have hCR : 0 ≤ C * R := mul_nonneg c0.le r0.le
    have : (t.y - b.y) ^ 2 ≤ (C * R) ^ 2 := by
      have : (S * R) ^ 2 ≤ (b.x - t.x) ^ 2 := pow_le_pow_left₀ hSR (by linarith) 2
      have e : (S * R) ^ 2 + (C * R) ^ 2 = R ^ 2 := by linear_combination R ^ 2 * sc
      have e2 : (b.x - t.x) ^ 2 = (t.x - b.x) ^ 2 := by ring
      linarith [h1, sq_nonneg (t.y - b.y), (by ring : (b.y - t.y) ^ 2 = (t.y - b.y) ^ 2)]
    have := abs_le_of_sq_le_sq this hCR
    have := (abs_le.mp this).2
    linarith
  · simp only [Vec.add_x, Vec.mul_x, Vec.add_y, Vec.mul_y] at *
    have : C * k = C * k' := by linarith
    have : k = k' := mul_left_cancel₀ c0.ne' this
    subst this
    exact ⟨le_rfl, by linarith⟩

theorem collapsed_ends {a b y : Vec} {l m : List Vec} {d : ℝ} (h1 : d ≤ |b.y - a.y|) (h2 : d ≤ |a.y - y.y|) {s : List Vec}
    (hs : s = collapsed (a :: b :: (l ++ (m ++ [y]))) d) {u v : Vec} (hu : pyIndex s 0 = .ok u) (hv : pyIndex s (-1) = .ok v) : u = a ∧ v = y := by
  have e1 := collapsed_first (l := l ++ (m ++ [y])) (apart_y h1)
  have e2 := (collapsed_last (l := b :: (l ++ m)) (apart_y h2)).2
  rw [show a :: (b :: (l ++ m) ++ [y]) = a :: b :: (l ++ (m ++ [y])) by simp] at e2
  rw [← hs] at e1 e2
  have hu := pyIndex_zero.mp hu
  have hv := pyIndex_last.mp hv
  rw [List.headD_eq_head?_getD, List.head?_eq_getElem?, hu] at e1
  rw [List.getLastD_eq_getLast?, hv] at e2
  exact ⟨e1, e2⟩

/-- The bump is above the first point of the cable's edge in the split, and the rest of the hole is above its last point. -/
theorem cable_heights {q : Quality} {taper : Option ℝ} {cfg : CableCfg} {bracket wall : ℝ} {pos : Vec} {c : Cable} (hs : SaneCable cfg wall)
    (hq : 0 < q.maxChordAngle) (ht : ∀ a ∈ taper, a ≤ Real.pi / 2) (hw : 1 / 1000 ≤ wall)
    (h0 : 1 / 1000 ≤ (CableCfg.tip cfg).x + cfg.wallBumpRadius * Real.sin cfg.wallBumpTaperAngle)
    (h : Cable.make q taper cfg bracket pos wall = .ok c) {g0 g1 : Vec} (hg0 : pyIndex c.splitEdgeG 0 = .ok g0) (hg1 : pyIndex c.splitEdgeG (-1) = .ok g1) :
    CableShape taper cfg (bracket * (6 / 10) + cfg.diameter / 2 * (4 / 10)) pos wall c ∧
    ∀ P ∈ c.pieces, ∀ p ∈ Piece.points P, (pos.y ≤ p.y ∧ g1.z ≤ p.z) ∨ g0.z ≤ p.z := by
  have hpi := Real.pi_pos
  obtain ⟨hsh, B, T, ls, hB, hG, hl, -, -⟩ := cable_full hs hq (fun a ha => by linarith [ht a ha]) h
  refine ⟨hsh, ?_⟩
  obtain ⟨-, -, -, hT, T0, e, rfl, e0⟩ := bump_ok hs hq hB
  have he : OnTaper cfg e := hT e (by simp)
  obtain ⟨l0, rfl⟩ := List.getLast?_eq_some_iff.mp hl
  simp only [List.map_append, List.map_cons, List.map_nil, List.reverse_append, List.reverse_cons, List.reverse_nil, List.nil_append, List.singleton_append,
    List.cons_append] at hG
  have f0 := hs.fillet
  have f1 := hs.fillet_le
  have r0 := hs.radius
  have b0 := hs.bump
  obtain ⟨z0, z1⟩ := collapsed_ends (by
      simp only [Vec.add_x, Vec.mul_x, e0]
      refine le_trans ?_ (neg_le_abs _)
      linarith [mul_comm (Real.sin cfg.wallBumpTaperAngle) cfg.wallBumpRadius]) (by
      simp only [Vec.add_y, e0]
      refine le_trans ?_ (neg_le_abs _)
      linarith) hG hg0 hg1
  have low := fun b hb => taper_low (b := b) hs hb he e0 (by linarith)
  subst z0 z1
  simp only [Vec.add_z]
  have c0 := Real.cos_pos_of_mem_Ioo ⟨by linarith [hs.taper], hs.taper_lt⟩ (x := cfg.wallBumpTaperAngle)
  have hlow : e.y ≤ (CableCfg.tip cfg).y := by
    have := (low (CableCfg.tip cfg + (⟨Real.sin cfg.wallBumpTaperAngle, -Real.cos cfg.wallBumpTaperAngle, 0⟩ : Vec) * cfg.wallBumpRadius) (hT _ (by simp))).1
    simp only [Vec.add_y, Vec.mul_y] at this
    have := mul_pos c0 (by linarith : 0 < cfg.wallBumpRadius)
    linarith
  obtain ⟨exits, under, top, side, groove, hp, he1, hgr, hun, -, -, hst, -, -⟩ := hsh
  have hU : ∀ p ∈ Piece.points under, pos.z - 2 * (cfg.diameter / 2) - cfg.minBendRadius + e.y ≤ p.z := by
    intro p hp
    obtain ⟨b, hb, -, -, hz⟩ := hun p hp
    have := (low b hb).1
    linarith
  have hGr : ∀ P ∈ groove, ∀ p ∈ Piece.points P, pos.z - 2 * (cfg.diameter / 2) - cfg.minBendRadius + e.y ≤ p.z := by
    intro P hP p hp
    obtain ⟨m, start, b, hm, hmy, hst, hb, rfl⟩ := hgr P hP p hp
    have hz : start.z = m.z := by rcases hst with rfl | rfl <;> rfl
    have hm' : -(cfg.diameter / 2) ≤ m.z - pos.z + cfg.diameter / 2 := by
      rcases hm with ⟨-, hm⟩ | ⟨ρ, h1, h2, h3, h4, h5, hm⟩
      · have := (abs_le.mp (hm.2.2.2.2 ht)).1
        simpa using this
      · simp only [Vec.add_y, Vec.sub_y] at h3 h4 h5
        have hw' : wall - cfg.wallExitFillet = 0 := by linarith
        have hρ : ρ ≤ cfg.diameter / 2 := by
          have : cfg.wallExitFillet ^ 2 ≤ (cfg.diameter / 2 + cfg.wallExitFillet - ρ) ^ 2 := by
            rw [hw', hmy] at h5
            linarith [(by ring : (pos.y - pos.y + 0 - 0) ^ 2 = (0 : ℝ))]
          have := abs_le_of_sq_le_sq this (by linarith)
          have := (abs_le.mp this).2
          linarith
        have := (abs_le.mp (hm.2.2.2.2 ht)).1
        simp only [Vec.add_z, Vec.sub_z] at this
        linarith
    have hby : (CableCfg.tip cfg).y ≤ b.y := by
      rcases hb with ⟨h1, h2, h3⟩ | ⟨-, h2, -⟩
      · unfold CableCfg.tip
        simp only
        rw [div_le_iff₀ (by positivity)]
        have hs2 : (Real.sqrt 2) ^ 2 = 2 := Real.sq_sqrt (by norm_num)
        have h4 : cfg.minBendRadius ^ 2 ≤ (b.y * Real.sqrt 2) ^ 2 := by
          have : b.x ^ 2 ≤ b.y ^ 2 := pow_le_pow_left₀ h2 h3 2
          rw [mul_pow, hs2]
          linarith
        have := abs_le_of_sq_le_sq h4 (mul_nonneg (by linarith) (Real.sqrt_nonneg 2))
        linarith [(abs_le.mp this).2]
      · exact h2
    simp only [Vec.add_z]
    linarith
  intro P hP
  rw [hp] at hP
  intro p hpp
  simp only [List.mem_append, List.mem_cons, List.not_mem_nil, or_false] at hP
  have hside : p ∈ Piece.points side ++ Piece.points top → pos.z - 2 * (cfg.diameter / 2) - cfg.minBendRadius + e.y ≤ p.z := by
    intro h
    obtain ⟨Q, hQ, hpQ⟩ := hst p h
    rcases List.mem_cons.mp hQ with rfl | hQ
    · exact hU p hpQ
    · exact hGr Q hQ p hpQ
  rcases hP with (hP | rfl | rfl | rfl) | hP
  · left
    rcases he1 P hP p hpp with ⟨h1, hm⟩ | ⟨ρ, h1, h2, h3, h4, h5, hm⟩
    · have := (abs_le.mp (hm.2.2.2.2 ht)).1
      simp only [Vec.add_z, Vec.sub_z, Vec.add_y, Vec.sub_y] at this h1
      constructor <;> linarith
    · have := (abs_le.mp (hm.2.2.2.2 ht)).1
      simp only [Vec.add_z, Vec.sub_z, Vec.add_y, Vec.sub_y] at this h3
      constructor <;> linarith
  · exact Or.inr (hU p hpp)
  · exact Or.inr (hside (List.mem_append_right _ hpp))
  · exact Or.inr (hside (List.mem_append_left _ hpp))
  · exact Or.inr (hGr P hP p hpp)

/-- **C100** In every body with brackets and a cable hole that is made, the hole is at the split, its bump inside leaves the space of the floor's lip below it free, and
no part of it is at the ground. -/
theorem C100_cable {cfg : KeyboardCfg} {fp : FullPlan} {body : Body} {bc : BracketCfg} {cc : CableCfg} (hb : Body.make cfg fp = .ok body)
    (hbr : cfg.bracket = some bc) (hc : cfg.cable = some cc) (hq : 0 < cfg.quality.maxChordAngle) (ht : ∀ a ∈ cfg.taper, a ≤ Real.pi / 2)
    (hs : SaneCable cc (fp.plan.points.alnumOLB.y - fp.plan.points.alnumILB.y)) (hw : 1 / 1000 ≤ fp.plan.points.alnumOLB.y - fp.plan.points.alnumILB.y)
    (h0 : 1 / 1000 ≤ (CableCfg.tip cc).x + cc.wallBumpRadius * Real.sin cc.wallBumpTaperAngle)
    (hl : 1 / 1000 ≤ cfg.floor.lipHeight + cfg.floor.lipMargin) :
    ∃ pos c, CableShape cfg.taper cc ((bc.holeLength + bc.counterboreLength) * (6 / 10) + cc.diameter / 2 * (4 / 10)) pos
        (fp.plan.points.alnumOLB.y - fp.plan.points.alnumILB.y) c ∧ pos.x = 0 ∧ (∀ P ∈ c.pieces, P ∈ body.pieces) ∧
      ∀ P ∈ c.pieces, ∀ p ∈ Piece.points P, 1 / 1000 ≤ p.z ∧ (p.y < pos.y → cfg.floor.lipHeight + cfg.floor.lipMargin ≤ p.z) := by
  have bp := body_parts hb
  have hj := bp.joint
  rw [hbr] at hj
  obtain ⟨f, b, e1, e2, -, hB, -, sB, OB, IB, fs, ps, hch, hps⟩ := joint_parts hj
  rw [hc] at hch
  unfold cableHole at hch
  obtain ⟨pos, p1, hch⟩ := bind_ok hch
  obtain ⟨c, p2, hch⟩ := bind_ok hch
  obtain ⟨g1, p3, hch⟩ := bind_ok hch
  obtain ⟨g0, p4, hch⟩ := bind_ok hch
  by_cases hk : g1.z < 1 / 1000 ∨ g0.z < cfg.floor.lipHeight + cfg.floor.lipMargin
  · rw [if_pos hk] at hch; cases hch
  rw [if_neg hk] at hch
  rw [not_or, not_lt, not_lt] at hk
  have hps' : c.pieces = ps := by
    have := Except.ok.inj hch
    simp only [Prod.mk.injEq] at this
    exact this.2.2.2.2
  obtain ⟨hsh, hz⟩ := cable_heights hs hq ht hw h0 p2 p4 p3
  refine ⟨pos, c, hsh, ?_, ?_, ?_⟩
  · obtain ⟨-, w1, -, s1, -, -, hends, hx, -⟩ := C82_corner_fit hB
    have hp : b.wallEdge.headD 0 = pos := by
      rw [List.headD_eq_head?_getD, List.head?_eq_getElem?, pyIndex_zero.mp p1]; rfl
    rw [hp] at hends
    split_ifs at hends with h
    · rw [← hends.1, List.getLastD_eq_getLast?, List.getLast?_eq_some_getLast s1]
      exact hx _ (List.getLast_mem s1)
    · rw [← hends.1, List.headD_eq_head?_getD, List.head?_eq_some_head s1]
      exact hx _ (List.head_mem s1)
  · intro P hP
    rw [bp.pieces]
    have := hps P (hps' ▸ hP)
    simp [this]
  · intro P hP p hp
    rcases hz P hP p hp with ⟨h1, h2⟩ | h
    · exact ⟨by linarith, fun h => by linarith⟩
    · exact ⟨by linarith, fun _ => by linarith⟩

/-- A body is made in which the bosses have their places and stand out of the walls. -/
example : ∃ cfg side fp body, FullPlan.make cfg side = .ok fp ∧ Body.make cfg fp = .ok body ∧
    (∃ b c, fp.bosses.pinkyB.wallEdge.getLast? = some b ∧ body.corners.IRBG.head? = some c ∧ b.x < c.x) ∧
    cfg.body.wallThickness / 10 ≤ cfg.boss.diameter + cfg.boss.outerWallMargin - cfg.body.wallThickness := by
  obtain ⟨W, H, he⟩ := exBody_made
  obtain ⟨fp, body, h1, h2, -⟩ := he .left
  refine ⟨_, _, fp, body, h1, h2, (C100_bosses h2).2.1, C100_protrude h1 h2 ?_ ?_ ?_ ?_⟩
  · exact lt_of_lt_of_le (by norm_num) exQuality_sane.angle
  · show (1 / 1000000 : ℝ) ≤ exBoss.diameter / 2
    norm_num [exBoss]
  · right
    show (1 / 1000000 : ℝ) ≤ exBoss.innerWallFillet
    norm_num [exBoss]
  · show (exBoss.diameter / 2 + exBoss.innerWallFillet) * (1 - Real.sin (89 * Real.pi / 180)) ≤ exBoss.diameter + exBoss.outerWallMargin - (exBody W H).wallThickness
    have hpi := Real.pi_pos
    have h : Real.sin (Real.pi / 6) ≤ Real.sin (89 * Real.pi / 180) :=
      Real.sin_le_sin_of_le_of_le_pi_div_two (by linarith) (by linarith) (by linarith)
    rw [Real.sin_pi_div_six] at h
    norm_num [exBoss, exBody]
    linarith

/-- A body whose inner chamfer exceeds the rounding of its bosses is rejected. -/
example (cfg : KeyboardCfg) (fp : FullPlan) (h : cfg.boss.innerWallFillet = 1) (h2 : cfg.body.innerChamfer = 2) : Body.make cfg fp = .error .valueError :=
  C100_chamfers cfg fp (.inr (.inl (by rw [h, h2]; norm_num)))

/-- The bump of the cable of `chrumm.json` is wide enough for C100. -/
example : 1 / 1000 ≤ (CableCfg.tip exampleCable).x + exampleCable.wallBumpRadius * Real.sin exampleCable.wallBumpTaperAngle := by
  unfold CableCfg.tip exampleCable
  simp only [Real.sin_pi_div_six]
  have : 0 ≤ ((4 - 1) / Real.sqrt 2 : ℝ) := by positivity
  linarith

end Chrumm.Part
