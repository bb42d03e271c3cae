import Verif.Props.BodyWhole
import Verif.Props.BracketZip
import Verif.Props.CableApart

/-! A whole body with brackets and a cable hole. -/

namespace Chrumm.Part
open Geo Geo.Spec Spec

theorem exists_ok {α : Type} {x y : Py α} {P : α → Prop} (e : x = y) (h : ∃ k, y = .ok k ∧ P k) : ∃ k, x = .ok k ∧ P k := e ▸ h

/-- The bracket at the back wall. -/
theorem back_made {q : Quality} {taper : Option ℝ} {cfg : BracketCfg} {a b c : Vec} (cable : Option CableCfg) (n : Bool) (hs : SaneBracket q cfg)
    (ht : ∀ t ∈ taper, t < Real.pi) (hx : 0 ≤ cfg.backCornerExtraMargin)
    (hz : ∀ cc ∈ cable, SaneZip q cfg cc ∧ CableRoom cfg cc cfg.backCornerExtraMargin)
    (hab : b.y < a.y) (h0 : a.z ≤ b.z) (h1 : b.z - a.z ≤ a.y - b.y) :
    ∃ k, CornerBracket.make q taper cfg cable a b c n = .ok k ∧
      (∃ g : Vec, k.wallEdge = [g, g + ⟨cfg.holeLength + cfg.counterboreLength, 0, 0⟩, c.yz + ⟨cfg.holeLength + cfg.counterboreLength, 0, 0⟩] ∧
        g.x = 0 ∧ g.y = c.y ∧ bracketLow cfg a c cfg.backCornerExtraMargin ≤ g.z) ∧
      k.roofEdge ≠ [] ∧ k.splitEdge ≠ [] ∧
      ∀ p ∈ k.splitEdge, bracketLow cfg a c cfg.backCornerExtraMargin - (cable.map CableCfg.gripHumpHeight).getD 0 ≤ p.z := by
  have hy : 0 ≤ (cable.map CableCfg.bracketInset).getD 0 := by
    cases cable with
    | none => exact le_rfl
    | some cc => exact (hz cc rfl).1.inset
  obtain ⟨s, h⟩ := cornerSketch_exists (q := q) (cfg := cfg) (a := a.yz) (b := b.yz) (c := c.yz) hs rfl rfl rfl hab
    (by simp only [Vec.yz]; linarith) h1 hx hy
  obtain ⟨d, hl⟩ := cornerSketch_lines h rfl rfl rfl
  obtain ⟨ps, l, r, h2⟩ := screwHole_exists hs ht s.screwCenter n false
  obtain ⟨d1, d2, d3⟩ := roof_dir hl.unit hl.flat hab (by simp only [Vec.yz]; linarith) h1
  obtain ⟨r1, r2, -⟩ := sketch_reach hs hx hy rfl d1 d2 d3 hl
  replace r1 : bracketLow cfg a c cfg.backCornerExtraMargin ≤ s.archLBG.z := r1
  have gx : s.archLBG.x = 0 := by rw [hl.bottom]
  have gy : s.archLBG.y = c.y := by rw [hl.bottom]; rfl
  unfold CornerBracket.make
  dsimp only
  rw [if_neg (by simp only [Vec.yz]; linarith)]
  unfold cornerForward
  dsimp only
  rw [h, value_bind]
  have e1 : pyIndex ([s.archLBG] ++ s.arcL ++ [s.archLFT]) 0 = .ok s.archLBG := pyIndex_zero.mpr (by simp)
  have e2 : pyIndex ([s.archLBG] ++ s.arcL ++ [s.archLFT]) (-1) = .ok s.archLFT := pyIndex_last.mpr (by rw [List.getLast?_append]; simp)
  have e3 : pyIndex (edgeTranslated ([s.archLBG] ++ s.arcL ++ [s.archLFT]) ⟨cfg.holeLength + cfg.counterboreLength, 0, 0⟩) 0 =
      .ok (s.archLBG + ⟨cfg.holeLength + cfg.counterboreLength, 0, 0⟩) := pyIndex_zero.mpr (by simp [edgeTranslated])
  obtain ⟨m4, e4⟩ := (index_some (l := edgeTranslated ([s.archLBG] ++ s.arcL ++ [s.archLFT]) ⟨cfg.holeLength + cfg.counterboreLength, 0, 0⟩) (by simp [edgeTranslated])).2
  rw [e1, value_bind, e2, value_bind, e3, value_bind, e4, value_bind, h2, value_bind]
  dsimp only
  cases cable with
  | none =>
    refine ⟨_, rfl, ⟨s.archLBG, rfl, gx, gy, r1⟩, by simp, by simp, ?_⟩
    intro p hp
    have := (r2 p hp).2.1
    simp only [Option.map_none, Option.getD_none]
    linarith
  | some cable =>
    obtain ⟨hz, hroom⟩ := hz cable rfl
    obtain ⟨-, c2⟩ := zipHump_cases hs hz rfl hx d1 d2 d3 hl
    obtain ⟨g, hg, -⟩ := hl.arch
    have ha' := archCorner_ne hs.corner hs.angle hg
    obtain ⟨hL, t, g', i1, nL, -, -, low⟩ := c2 hroom
    obtain ⟨z, i2, nz⟩ := zipHole_exists t g' hs hz ha'
    unfold cornerFinish cornerZip
    dsimp only
    rw [i1, value_bind]
    dsimp only
    rw [i2, value_bind, e1, value_bind]
    have nR : edgeTranslated hL ⟨cable.gripHumpWidth / 2, 0, 0⟩ ≠ [] := by simpa [edgeTranslated] using nL
    have nz' : edgeTranslated z ⟨cable.gripHumpWidth / 2, 0, 0⟩ ≠ [] := by simpa [edgeTranslated] using nz
    obtain ⟨x1, f1⟩ := (index_some nL).1
    obtain ⟨x2, f2⟩ := (index_some nL).2
    obtain ⟨x3, f3⟩ := (index_some nR).1
    obtain ⟨x4, f4⟩ := (index_some nR).2
    obtain ⟨x5, f5⟩ := (index_some nz').1
    obtain ⟨x6, f6⟩ := (index_some nz').2
    obtain ⟨x7, f7⟩ := (index_some (by simp : s.archLBG :: edgeTranslated ([s.archLBG] ++ s.arcL ++ [s.archLFT]) ⟨cfg.holeLength + cfg.counterboreLength, 0, 0⟩ ≠ [])).2
    rw [f1, value_bind, f2, value_bind, f3, value_bind, f4, value_bind, f5, value_bind, f6, value_bind, f7]
    refine ⟨_, rfl, ⟨s.archLBG, rfl, gx, gy, r1⟩, by simp, by simp, ?_⟩
    intro p hp
    have g0 := hz.grip
    simp only [Option.map_some, Option.getD_some]
    simp only [List.mem_reverse, List.mem_append, List.mem_singleton] at hp
    rcases hp with hp | rfl
    · have := (low p hp).2
      linarith
    · linarith

/-! ## The cable hole -/

/-- The cable of `chrumm.json`, with a ziptie that is not too fine for the quality of the example. -/
noncomputable def exCable : CableCfg := { exampleCable with ziptieHeight := 2 }

theorem exCable_sane : SaneCable exCable 4 := by
  have hpi := Real.pi_pos
  constructor <;> simp only [exCable, exampleCable] <;> first | linarith | norm_num

theorem exCable_fine : FineCable exQuality exCable 4 := by
  have hpi := Real.pi_gt_three
  have h2 : (0 : ℝ) ≤ (4 - 1) / Real.sqrt 2 := by positivity
  refine ⟨exQuality_angle, by norm_num [exQuality], by norm_num [exCable, exampleCable], by norm_num [exCable, exampleCable],
    .inr (by norm_num [exCable, exampleCable]), ?_, ?_, ?_⟩
  · simp only [exCable, exampleCable]; linarith
  · simp only [exCable, exampleCable, Real.sin_pi_div_six]; linarith
  · intro r hr
    simp only [exCable, exampleCable, List.mem_cons, List.not_mem_nil, or_false] at hr
    simp only [exQuality]
    rcases hr with rfl | rfl <;> constructor <;> linarith

theorem exCable_tip : 0 ≤ (CableCfg.tip exCable).y ∧ (CableCfg.tip exCable).x = (CableCfg.tip exCable).y ∧ (CableCfg.tip exCable).y ≤ 3 := by
  simp only [CableCfg.tip, exCable, exampleCable]
  have h1 : (1 : ℝ) ≤ Real.sqrt 2 := Real.one_le_sqrt.mpr (by norm_num)
  refine ⟨by positivity, trivial, ?_⟩
  rw [div_le_iff₀ (by linarith)]
  linarith

theorem exCable_bend {b : Vec} (h : OnBend exCable b) : -4 ≤ b.y := by
  obtain ⟨t0, -, -⟩ := exCable_tip
  rcases h with ⟨-, h1, h2⟩ | ⟨-, h1, -⟩ <;> linarith

theorem exCable_taper {b : Vec} (h : OnTaper exCable b) : -4 ≤ b.y := by
  obtain ⟨t0, t1, t2⟩ := exCable_tip
  unfold OnTaper at h
  generalize CableCfg.tip exCable = t at *
  simp only [exCable, exampleCable, Real.sin_pi_div_six, Real.cos_pi_div_six] at h
  rcases h with ⟨h1, -, -⟩ | ⟨h1, k, h2⟩
  · simp only [distSq2D] at h1
    nlinarith [sq_nonneg (t.x - b.x)]
  · have ex := congrArg Vec.x h2
    have ey := congrArg Vec.y h2
    simp only [Vec.add_x, Vec.add_y, Vec.mul_x, Vec.mul_y] at ex ey
    have s1 : Real.sqrt 3 ≤ 2 := Real.sqrt_le_iff.mpr ⟨by norm_num, by norm_num⟩
    have s2 : (3 / 2 : ℝ) ≤ Real.sqrt 3 := Real.le_sqrt_of_sq_le (by norm_num)
    generalize Real.sqrt 3 = s at *
    have : -5 ≤ k := by nlinarith
    linarith

/-- The cable hole does not reach deep below its top. -/
theorem exCable_low {q : Quality} {taper : Option ℝ} {bracket : ℝ} {pos : Vec} {c : Cable} (hf : FineCable q exCable 4) (ht : ∀ a ∈ taper, a < Real.pi)
    (h : Cable.make q taper exCable bracket pos 4 = .ok c) : c.splitEdgeG ≠ [] ∧ ∀ p ∈ c.splitEdgeG, pos.z - 12 ≤ p.z := by
  obtain ⟨a1, a2⟩ := C81_apart exCable_sane hf ht h
  obtain ⟨-, B, T, ls, e1, e2, -, e3, fil, e4, e5⟩ := cable_full exCable_sane hf.angle ht h
  obtain ⟨-, -, hB, hT, -⟩ := bump_ok exCable_sane hf.angle e1
  have hc := C53_on_circle (by norm_num [exCable, exampleCable]) hf.angle e4
  rw [← e3] at e2
  have ne : c.splitEdgeRaw ≠ [] := by rw [e3, e5]; simp
  rw [e2]
  refine ⟨(along_collapsed (A := ℤ) (g := fun _ _ => 0) ⟨by simp, by simp⟩ a1 ne a2).1, fun p hp => ?_⟩
  have hp := (C35_subsequence _ _).1.subset hp
  rw [e3, e5] at hp
  simp only [List.mem_append, List.mem_reverse, List.mem_map, List.mem_cons] at hp
  have d4 : exCable.diameter = 4 := rfl
  have r4 : exCable.minBendRadius = 4 := rfl
  have f4 : exCable.wallExitFillet = 3 / 2 := rfl
  rcases hp with (⟨b, hb, rfl⟩ | ⟨b, hb, rfl⟩) | rfl | ⟨b, hb, rfl⟩
  · have := exCable_taper (hT b hb)
    dsimp only
    rw [d4, r4]
    linarith
  · have := exCable_bend (hB b hb)
    simp only [Vec.add_z]
    rw [d4, r4]
    linarith
  · simp only [Vec.add_z]
    rw [d4]
    linarith
  · obtain ⟨-, h2⟩ := hc b hb
    simp only [distSq2D, Vec.zero_x, Vec.zero_y] at h2
    simp only [Vec.add_z]
    rw [d4, f4] at *
    nlinarith [sq_nonneg (0 - b.y)]

/-! ## The points at the brackets -/

/-- The inner points of the example, to which the brackets are attached. -/
structure ExInside (body : Body) (xL x0 yF y1 yB zO : ℝ) : Prop where
  ilft : body.ridge.ilft.z = zO - 4 ∧ |body.ridge.ilft.y - y1 - 1 / 2| ≤ 1 / 1000000 ∧ x0 - 3 ≤ body.ridge.ilft.x ∧ body.ridge.ilft.x ≤ x0
  ilfc : body.ridge.ilfc.y = y1
  ilbc : body.inner.alnumILBC.x = xL ∧ body.inner.alnumILBC.y = yB
  ilbt : body.inner.alnumILBT.y = yB - 1 / 2
  low : zO - 5 ≤ body.inner.alnumILBT.z
  rise : body.inner.alnumILBT.z ≤ body.step.alnumILF.z ∧ body.step.alnumILF.z - body.inner.alnumILBT.z ≤ 4
  ilf : body.step.alnumILF.y = yF + 37 / 8

set_option maxHeartbeats 1000000 in
theorem exInside {W H : ℝ} {side : Side} {fp : FullPlan} {body : Body} {xL x0 xR yF y1 yB zO d1 d2 d3 d4 d5 d6 t : ℝ}
    (hf : FullPlan.make (exCfg W H) side = .ok fp) (hb : Body.make (exCfg W H) fp = .ok body)
    (e : ExPlanned H side fp.plan xL x0 xR yF y1 yB zO) (p1 : 0 < d1) (p2 : d1 ≤ 2) (p3 : 0 < d3) (p4 : d3 ≤ 2)
    (hc : body.corners = exCorners x0 xR y1 yB zO fp.plan.bossPos d1 d2 d3 d4 d5 d6) (t0 : -6 ≤ t) (t1 : t ≤ 0)
    (hs : body.step.alnumILF = ⟨xL + 527 / 625 * t, yF + 4 + 5 / 8, zO - 4 + 336 / 527 * (x0 + 79 - 7 / 6 - xL) - 336 / 625 * t⟩) :
    ExInside body xL x0 yF y1 yB zO := by
  obtain ⟨-, -, -, -, hB, -, hT, hw⟩ := C92_inner hf hb
  obtain ⟨-, -, l1, -, l2, l3⟩ := C92_inner_ends hf hb rfl
  have hp := body_parts hb
  have c1 := e.left_le
  have c2 := e.left_ge
  have c3 := e.left_eq
  have c4 := e.thumb_le
  have c5 := e.back_ge
  have c6 := e.front_le
  have c7 := e.right_ge
  have size : (exCfg W H).body.innerChamfer = 1 / 2 := rfl
  rw [size, hc, e.points] at hw
  rw [size, hc, e.points] at hB hT
  rw [e.points] at l1 l2 l3
  rw [hs] at l3
  have nP : -fp.plan.tent.pinkyIT.normal = ⟨0, 0, -1⟩ := by rw [normal_at e.pinkyIT_at]; ext <;> simp
  have nT : -fp.plan.tent.thumbIT.normal = ⟨0, 0, -1⟩ := by rw [normal_at e.thumbIT_at]; ext <;> simp
  rw [nP] at hB
  rw [nT] at hT
  simp only [exPoints, exCorners, List.cons_append, List.nil_append] at hB hT hw l1 l2 l3
  -- the front
  obtain ⟨n1, f1⟩ := hT
  obtain ⟨g0, g1, hG⟩ : ∃ g0 g1, body.inner.ILFT = [g0, g1] := by
    match body.inner.ILFT, n1 with
    | [a, b], _ => exact ⟨a, b, rfl⟩
  have i1 := f1 1 _ _ _ g1 rfl rfl rfl (by rw [hG]; rfl)
  have hr := hp.ridge
  unfold ridgeEdges at hr
  obtain ⟨_, -, hr⟩ := bind_ok hr
  obtain ⟨_, -, hr⟩ := bind_ok hr
  obtain ⟨_, -, hr⟩ := bind_ok hr
  obtain ⟨_, -, hr⟩ := bind_ok hr
  obtain ⟨lc, r1, hr⟩ := bind_ok hr
  obtain ⟨lt, r2, hr⟩ := bind_ok hr
  have hr := Except.ok.inj hr
  have et : body.ridge.ilft = lt := by rw [← hr]
  have ec : body.ridge.ilfc = lc := by rw [← hr]
  rw [hG] at r2
  obtain rfl : g1 = lt := by simpa using pyIndex_last.mp r2
  have hwl : body.inner.wall.getLast? = some lc := by
    have r1 := pyIndex_last.mp r1
    unfold InnerRim.wall
    rw [List.getLast?_append, r1]
    rfl
  have hwf : body.inner.wall.head? = some body.inner.alnumILBC := by simp [InnerRim.wall]
  rw [hw] at hwl hwf
  simp only [List.map_cons, List.head?_cons, Option.some.injEq] at hwf
  have hlc : lc.y = y1 := by
    simp only [List.map_append, List.map_cons, List.map_nil, ← List.cons_append, List.getLast?_append, List.getLast?_cons_cons, List.getLast?_singleton,
      Option.some_or, Option.some.injEq] at hwl
    rw [← hwl]
  obtain ⟨a1, a2, -, a4⟩ := i1
  have a2 := (inward_eq (n := ⟨0, 0, -1⟩) (d := ⟨-(40 / 41), -(9 / 41), 0⟩) (k := d1 * 80 / 41) (s := 0) (q := g1) (by norm_num [Vec.dot])
    (by norm_num [Vec.dot]) (by norm_num [Vec.dot]) (by positivity) (by ext <;> simp <;> ring)).symm.trans a2
  have eyz : Vec.yz ⟨x0, y1, zO - 4⟩ = ⟨0, y1, zO - 4⟩ := rfl
  rw [eyz] at a4
  have b1 : inward (⟨0, 0, -1⟩ : Vec) ⟨x0 - d1, y1, zO - 4⟩ ⟨0, y1, zO - 4⟩ g1 = g1.y - y1 := by
    rw [inward_eq (n := ⟨0, 0, -1⟩) (d := ⟨-1, 0, 0⟩) (k := x0 - d1) (s := 0) (q := g1) (by norm_num [Vec.dot])
      (by norm_num [Vec.dot]) (by norm_num [Vec.dot]) (by linarith) (by ext <;> simp)]
    simp [Vec.cross, Vec.dot]
  rw [b1] at a4
  have a4 := a4 (by
    simp only [Vec.cross, Vec.dot, Vec.sub_x, Vec.sub_y, Vec.sub_z]
    have : 0 ≤ d1 * (x0 - d1) := mul_nonneg p1.le (by linarith)
    nlinarith)
  rw [abs_of_pos (by norm_num : (0 : ℝ) < 1 / 2)] at a4
  have a5 := abs_le.mp a4
  simp only [Vec.cross, Vec.dot, Vec.sub_x, Vec.sub_y, Vec.sub_z] at a1 a2
  -- the back
  obtain ⟨n2, f2⟩ := hB
  obtain ⟨k0, k1, hK⟩ : ∃ k0 k1, body.inner.IRBT = [k0, k1] := by
    match body.inner.IRBT, n2 with
    | [a, b], _ => exact ⟨a, b, rfl⟩
  have i2 := f2 0 _ _ _ k0 rfl rfl rfl (by rw [hK]; rfl)
  have b2 := (inward_eq (n := ⟨0, 0, -1⟩) (d := ⟨1, 0, 0⟩) (k := xR - d3 - (x0 + 79 - 7 / 6)) (s := 0) (q := k0) (by norm_num [Vec.dot])
    (by norm_num [Vec.dot]) (by norm_num [Vec.dot]) (by linarith) (by ext <;> simp)).symm.trans i2.first
  simp only [Vec.cross, Vec.dot, Vec.sub_x, Vec.sub_y, Vec.sub_z] at b2
  rw [hK, List.headD_cons] at l1
  obtain ⟨u1, l1⟩ := l1
  obtain ⟨u2, l2⟩ := l2
  obtain ⟨u3, l3⟩ := l3
  have y1' := congrArg Vec.y l1
  have y2' := congrArg Vec.y l2
  have y3' := congrArg Vec.y l3
  have z3' := congrArg Vec.z l3
  simp only [Vec.add_y, Vec.mul_y, Vec.sub_y, Vec.add_z, Vec.mul_z, Vec.sub_z] at y1' y2' y3' z3'
  have ey : body.inner.alnumILBT.y = yB - 1 / 2 := by rw [y2', y1']; linarith
  have D : 36 ≤ yB - (yF + 37 / 8) := by linarith
  have hu : u3 * (yB - (yF + 37 / 8)) = 1 / 2 := by rw [ey] at y3'; linarith
  have u0 : 0 < u3 := by
    by_contra hc'
    nlinarith
  have u1' : u3 ≤ 1 / 72 := by nlinarith
  have ebc := hwf.symm
  have a6 : -9 * (g1.x - (x0 - d1)) + 40 * (g1.y - y1) = 41 / 2 := by linarith
  clear hw hwl hwf hG hK f1 f2 l1 l2 l3 a2 a4 b1 b2 i2 n1 n2 y1' y2' y3'
  have ez : body.inner.alnumILBT.z = zO - 2500 / 527 + 336 / 527 * (x0 + 79 - xL) - u3 * (336 / 625 * t) := by rw [z3']; ring
  refine ⟨⟨?_, ?_, ?_, ?_⟩, ?_, ⟨?_, ?_⟩, ey, ?_, ⟨?_, ?_⟩, ?_⟩
  · rw [et]; linarith
  · rw [et, abs_le]; constructor <;> linarith
  · rw [et]; linarith
  · rw [et]; linarith
  · rw [ec, hlc]
  · rw [ebc]
  · rw [ebc]
  · rw [ez]; nlinarith
  · rw [ez, hs]; dsimp only; nlinarith
  · rw [ez, hs]; dsimp only; nlinarith
  · rw [hs]; dsimp only; ring

end Chrumm.Part
