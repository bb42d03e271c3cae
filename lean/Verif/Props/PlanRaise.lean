import Verif.Props.PlanExample

/-! C76: the minimal roof height only lifts the keyboard. -/

namespace Chrumm.Part
open Geo Geo.Spec
open Part.Spec

noncomputable section

/-- A configuration with another minimal roof height. -/
def Spec.atHeight (cfg : PlanCfg) (h : ℝ) : PlanCfg := { cfg with body := { cfg.body with minRoofHeight := h } }

/-- A plane that is lifted. -/
def Spec.liftPlane (d : ℝ) (p : Plane) : Plane := ⟨⟨p.pos.x, p.pos.y, p.pos.z + d⟩, p.normal⟩

/-- A plan that is lifted: the keys, the planes and the points. The bosses and the wall lines are on the ground. -/
def Spec.liftPlan (d : ℝ) (p : Plan) : Plan :=
  { p with
    layout := p.layout.mapAll (·.translate ⟨0, 0, d⟩)
    tent := ⟨liftPlane d p.tent.alnumIT, liftPlane d p.tent.alnumOT, liftPlane d p.tent.pivotIB, liftPlane d p.tent.pivotOB,
      liftPlane d p.tent.thumbIT, liftPlane d p.tent.thumbOT, liftPlane d p.tent.pivotIF, liftPlane d p.tent.pivotOF,
      liftPlane d p.tent.pinkyIT, liftPlane d p.tent.pinkyOT⟩
    sides := ⟨liftPlane d p.sides.alnumIL, liftPlane d p.sides.alnumOL, liftPlane d p.sides.alnumIF, liftPlane d p.sides.alnumOF,
      liftPlane d p.sides.pinkyIR, liftPlane d p.sides.pinkyOR⟩
    walls := ⟨liftPlane d p.walls.alnumIB, liftPlane d p.walls.alnumOB, liftPlane d p.walls.pinkyIF, liftPlane d p.walls.pinkyOF⟩
    thumbL := liftPlane d p.thumbL
    points := p.points.map fun v => ⟨v.x, v.y, v.z + d⟩ }

/-- The plan before it is lifted. -/
def Plan.pre (cfg : PlanCfg) (side : Side) : Py Plan := do
  let (l, tent, sides) ← arrange cfg side
  let (bosses, linesB, linesF, walls) ← vertical cfg side l tent
  let delta ← finalDeltaX cfg.body l tent sides walls
  let l := l.mapAll (·.translate delta)
  let tent ← tent.mapM (·.translated delta)
  let sides ← sides.mapM (·.translated delta)
  let walls ← walls.mapM (·.translated delta)
  let linesB ← translateLines linesB delta
  let linesF ← translateLines linesF delta
  let bosses : BossPos := ⟨bosses.alnumB + delta, bosses.pinkyB + delta, bosses.pinkyF + delta, bosses.thumbF + delta⟩
  let (thumbLine, thumbL) ← thumbCorner l linesF.1
  let r ← ridge cfg.body l tent sides walls thumbL thumbLine
  let points ← referencePoints r tent sides walls thumbL
  pure ⟨side, l, tent, sides, walls, thumbL, points, bosses, linesB, linesF⟩

theorem make_eq_pre (cfg : PlanCfg) (side : Side) : Plan.make cfg side = Plan.pre cfg side >>= finalZ cfg := by
  unfold Plan.make Plan.pre
  simp only [bind_assoc, pure_bind]

theorem pre_height (cfg : PlanCfg) (side : Side) (h : ℝ) : Plan.pre (atHeight cfg h) side = Plan.pre cfg side := rfl

/-- What is known of the plan before it is lifted. -/
structure PreOk (p : Plan) : Prop where
  two : TwoGroups p.layout
  tent : p.tent.Unit
  sides : p.sides.Unit
  walls : p.walls.Unit
  thumb : UnitPlane p.thumbL
  affine : ∀ s, ∀ k ∈ keys p.layout s, Mat.Affine k.matrix

theorem pre_ok {cfg : PlanCfg} {side : Side} {p : Plan} (h : Plan.pre cfg side = .ok p) : PreOk p := by
  unfold Plan.pre at h
  obtain ⟨⟨l, tp, sp⟩, h1, h⟩ := bind_ok h
  dsimp only at h
  obtain ⟨⟨b0, linesB, linesF, w0⟩, h2, h⟩ := bind_ok h
  dsimp only at h
  obtain ⟨delta, h3, h⟩ := bind_ok h
  obtain ⟨tp1, h4, h⟩ := bind_ok h
  obtain ⟨sp1, h5, h⟩ := bind_ok h
  obtain ⟨w1, h6, h⟩ := bind_ok h
  obtain ⟨linesB1, h7, h⟩ := bind_ok h
  obtain ⟨linesF1, h8, h⟩ := bind_ok h
  obtain ⟨⟨tline, thumbL⟩, h9, h⟩ := bind_ok h
  dsimp only at h
  obtain ⟨r, h10, h⟩ := bind_ok h
  obtain ⟨pts, h11, h⟩ := bind_ok h
  obtain ⟨l0, l1, pivot, a, pp, t, t0, s0, har, hto, hso, rfl, hrt, hrs⟩ := arrange_ok h1
  have hmM := tiltSplit_motion cfg.body
  generalize hM : tiltSplitMatrix cfg.body = M at *
  have two1 : TwoGroups l1 := by rw [har.layout]; exact (make_two har.make).moved _ _ _
  have two2 := two1.moved M M M
  have aff1 : ∀ s, ∀ k ∈ keys (l1.moved M M M) s, Mat.Affine k.matrix := fun s =>
    moved_affine hmM.1 (arranged_affine har)
  have ut := hto.unit
  have us : s0.Unit := hso.units
  have utp := TentPlanes.Rel.unit ut hrt
  have usp := SidePlanes.Rel.unit us hrs
  obtain ⟨hwo, hbo⟩ := vertical_ok two2 h2
  have uw : w0.Unit := ⟨hwo.alnumIB.1, hwo.alnumOB.1, hwo.pinkyIF.1, hwo.pinkyOF.1⟩
  rw [translate_fun, mapAll_eq] at h h9 h10
  have r4 := (TentPlanes.mapM_ok h4).mono fun a b hab => CarriedBy.of_translated hab
  have r5 := (SidePlanes.mapM_ok h5).mono fun a b hab => CarriedBy.of_translated hab
  have r6 := (WallPlanes.mapM_ok h6).mono fun a b hab => CarriedBy.of_translated hab
  cases h
  exact ⟨two2.moved _ _ _, TentPlanes.Rel.unit utp r4, SidePlanes.Rel.unit usp r5, WallPlanes.Rel.unit uw r6, thumbCorner_ok h9,
    fun s => moved_affine (shift_motion _).1 (aff1 s)⟩

theorem lift_eq (p : Plane) (d : ℝ) (hp : UnitPlane p) : p.translated ⟨0, 0, d⟩ = .ok (liftPlane d p) := by
  rw [Plane.translated_eq hp]
  congr 2
  ext <;> simp [liftPlane]

theorem pyMin_map_add (l : List ℝ) (d : ℝ) : pyMin (l.map (· + d)) = (pyMin l).map (· + d) := by
  cases l with
  | nil => rfl
  | cons a l =>
    simp only [pyMin, List.map_cons, Except.map]
    congr 1
    induction l generalizing a with
    | nil => rfl
    | cons b l ih => rw [List.map_cons, List.foldl_cons, List.foldl_cons, ← ih, min_add_add_right]

theorem tent_lift {t : TentPlanes} (h : t.Unit) (d : ℝ) : t.mapM (·.translated ⟨0, 0, d⟩) =
    .ok ⟨liftPlane d t.alnumIT, liftPlane d t.alnumOT, liftPlane d t.pivotIB, liftPlane d t.pivotOB,
      liftPlane d t.thumbIT, liftPlane d t.thumbOT, liftPlane d t.pivotIF, liftPlane d t.pivotOF,
      liftPlane d t.pinkyIT, liftPlane d t.pinkyOT⟩ := by
  obtain ⟨h1, h2, h3, h4, h5, h6, h7, h8, h9, h10⟩ := h
  unfold TentPlanes.mapM
  dsimp only
  rw [lift_eq _ d h1, lift_eq _ d h2, lift_eq _ d h3, lift_eq _ d h4, lift_eq _ d h5, lift_eq _ d h6, lift_eq _ d h7,
    lift_eq _ d h8, lift_eq _ d h9, lift_eq _ d h10]
  rfl

theorem sides_lift {t : SidePlanes} (h : t.Unit) (d : ℝ) : t.mapM (·.translated ⟨0, 0, d⟩) =
    .ok ⟨liftPlane d t.alnumIL, liftPlane d t.alnumOL, liftPlane d t.alnumIF, liftPlane d t.alnumOF,
      liftPlane d t.pinkyIR, liftPlane d t.pinkyOR⟩ := by
  obtain ⟨h1, h2, h3, h4, h5, h6⟩ := h
  unfold SidePlanes.mapM
  dsimp only
  rw [lift_eq _ d h1, lift_eq _ d h2, lift_eq _ d h3, lift_eq _ d h4, lift_eq _ d h5, lift_eq _ d h6]
  rfl

theorem walls_lift {t : WallPlanes} (h : t.Unit) (d : ℝ) : t.mapM (·.translated ⟨0, 0, d⟩) =
    .ok ⟨liftPlane d t.alnumIB, liftPlane d t.alnumOB, liftPlane d t.pinkyIF, liftPlane d t.pinkyOF⟩ := by
  obtain ⟨h1, h2, h3, h4⟩ := h
  unfold WallPlanes.mapM
  dsimp only
  rw [lift_eq _ d h1, lift_eq _ d h2, lift_eq _ d h3, lift_eq _ d h4]
  rfl

theorem points_lift (p : Points) (d : ℝ) :
    (p.map (· + (⟨0, 0, d⟩ : Vec)) = p.map fun v => ⟨v.x, v.y, v.z + d⟩) ∧
      (p.map (· + (⟨0, 0, d⟩ : Vec))).toList.map Vec.z = (p.toList.map Vec.z).map (· + d) := by
  constructor
  · congr 1
    funext v
    ext <;> simp
  · rfl

/-- The last step, when it is known that the planes are planes: either the keyboard is too low, or it is lifted. -/
theorem finalZ_eq {p : Plan} (ok : PreOk p) :
    (∀ cfg, ∃ e, finalZ cfg p = .error e) ∨
    ∃ z b c : ℝ, ∀ cfg : PlanCfg, finalZ cfg p =
      if b + (cfg.body.minRoofHeight - z) - cfg.floor.lipHeight - cfg.body.innerChamfer < 0 then .error .valueError
      else if c + (cfg.body.minRoofHeight - z) + cfg.floor.outerHeight - cfg.floor.innerHeight - cfg.switch.floorMargin < 0
      then .error .valueError
      else .ok (liftPlan (cfg.body.minRoofHeight - z) p) := by
  have kk : ∀ d, (((keys (p.layout.moved (shift ⟨0, 0, d⟩) (shift ⟨0, 0, d⟩) (shift ⟨0, 0, d⟩)) (some p.side)).flatMap
      Key.boundsI).map Vec.z) = (((keys p.layout (some p.side)).flatMap Key.boundsI).map Vec.z).map (· + d) := by
    intro d
    have aff := ok.affine (some p.side)
    rw [keys_moved]
    generalize keys p.layout (some p.side) = ks at aff
    induction ks with
    | nil => rfl
    | cons k ks ih =>
      simp only [List.map_cons, List.flatMap_cons, List.map_append]
      rw [ih fun x hx => aff x (by simp [hx]), Key.boundsI_transform (aff k (by simp))]
      congr 1
      simp only [List.map_map]
      apply List.map_congr_left
      intro v _
      simp [shift_apply]
  cases hz : pyMin ((keys p.layout none).map fun k => k.position.z) with
  | error e =>
    left
    intro cfg
    unfold finalZ
    rw [allKeys_ok ok.two]
    unfold keys at hz
    dsimp only [bind, Except.bind]
    rw [hz]
    exact ⟨_, rfl⟩
  | ok z =>
    cases hb : pyMin (p.points.toList.map Vec.z) with
    | error e => exact absurd hb (by simp [Points.toList, pyMin])
    | ok b =>
      cases hc : pyMin (((keys p.layout (some p.side)).flatMap Key.boundsI).map Vec.z) with
      | error e =>
        left
        intro cfg
        unfold finalZ
        rw [allKeys_ok ok.two]
        unfold keys at hz
        dsimp only [bind, Except.bind]
        rw [hz]
        dsimp only
        rw [tent_lift ok.tent, sides_lift ok.sides, walls_lift ok.walls, lift_eq _ _ ok.thumb, (points_lift _ _).2, pyMin_map_add, hb,
          translate_fun, mapAll_eq, allKeys_ok (ok.two.moved _ _ _)]
        dsimp only [Except.map]
        have := kk (cfg.body.minRoofHeight - z)
        unfold keys at this hc
        rw [this, pyMin_map_add, hc]
        exact ⟨_, rfl⟩
      | ok c =>
        refine .inr ⟨z, b, c, fun cfg => ?_⟩
        unfold finalZ
        rw [allKeys_ok ok.two]
        unfold keys at hz
        dsimp only [bind, Except.bind]
        rw [hz]
        dsimp only
        rw [tent_lift ok.tent, sides_lift ok.sides, walls_lift ok.walls, lift_eq _ _ ok.thumb, (points_lift _ _).2, pyMin_map_add, hb,
          translate_fun, mapAll_eq, allKeys_ok (ok.two.moved _ _ _)]
        dsimp only [Except.map]
        have := kk (cfg.body.minRoofHeight - z)
        unfold keys at this hc
        rw [this, pyMin_map_add, hc]
        dsimp only [Except.map]
        rw [(points_lift _ _).1]
        unfold liftPlan
        rw [translate_fun, mapAll_eq]
        rfl

theorem lift_lift (a b : ℝ) (p : Plan) : liftPlan b (liftPlan a p) = liftPlan (a + b) p := by
  have hp : ∀ q, liftPlane b (liftPlane a q) = liftPlane (a + b) q := by
    intro q
    simp [liftPlane, add_assoc]
  unfold liftPlan
  dsimp only
  simp only [hp, translate_fun, mapAll_eq, Layout.moved_moved, shift_mul]
  congr 1
  · have : (⟨0, 0, a⟩ + ⟨0, 0, b⟩ : Vec) = ⟨0, 0, a + b⟩ := by ext <;> simp
    rw [this]
  · simp [Points.map, add_assoc]

/-- **C76** More height lifts the plan and changes nothing else; it never makes a plan fail. -/
theorem C76_raise {cfg : PlanCfg} {side : Side} {plan : Plan} (h : Plan.make cfg side = .ok plan) {d : ℝ} (hd : 0 ≤ d) :
    Plan.make (atHeight cfg (cfg.body.minRoofHeight + d)) side = .ok (liftPlan d plan) := by
  rw [make_eq_pre] at h ⊢
  rw [pre_height]
  obtain ⟨p, hp, h⟩ := bind_ok h
  rw [hp]
  show finalZ _ p = _
  rcases finalZ_eq (pre_ok hp) with he | ⟨z, b, c, he⟩
  · obtain ⟨e, he⟩ := he cfg
    rw [he] at h; cases h
  · have he' : ∀ h : ℝ, finalZ (atHeight cfg h) p =
        if b + (h - z) - cfg.floor.lipHeight - cfg.body.innerChamfer < 0 then .error .valueError
        else if c + (h - z) + cfg.floor.outerHeight - cfg.floor.innerHeight - cfg.switch.floorMargin < 0
        then .error .valueError else .ok (liftPlan (h - z) p) := fun h => he (atHeight cfg h)
    rw [he] at h
    rw [he']
    split_ifs at h with h1 h2
    cases h
    rw [if_neg (by linarith), if_neg (by linarith), lift_lift]
    congr 2
    ring

/-- **C76** The height at which a keyboard becomes possible: either no height helps, or there is a lowest height, and exactly
the heights from there on give a plan; all of these are the same plan, lifted. -/
theorem C76_threshold (cfg : PlanCfg) (side : Side) :
    (∀ h, ∃ e, Plan.make (atHeight cfg h) side = .error e) ∨
    ∃ lowest plan, ∀ h, (lowest ≤ h → Plan.make (atHeight cfg h) side = .ok (liftPlan (h - lowest) plan)) ∧
      (h < lowest → Plan.make (atHeight cfg h) side = .error .valueError) := by
  simp only [make_eq_pre, pre_height]
  cases hp : Plan.pre cfg side with
  | error e => exact .inl fun h => ⟨e, rfl⟩
  | ok p =>
    show (∀ h, ∃ e, finalZ _ p = _) ∨ ∃ lowest plan, ∀ h, (_ → finalZ _ p = _) ∧ (_ → finalZ _ p = _)
    rcases finalZ_eq (pre_ok hp) with he | ⟨z, b, c, he⟩
    · exact .inl fun h => he _
    · right
      have he' : ∀ h : ℝ, finalZ (atHeight cfg h) p =
        if b + (h - z) - cfg.floor.lipHeight - cfg.body.innerChamfer < 0 then .error .valueError
        else if c + (h - z) + cfg.floor.outerHeight - cfg.floor.innerHeight - cfg.switch.floorMargin < 0
        then .error .valueError else .ok (liftPlan (h - z) p) := fun h => he (atHeight cfg h)
      simp only [he']
      refine ⟨max (z - b + cfg.floor.lipHeight + cfg.body.innerChamfer)
        (z - c - cfg.floor.outerHeight + cfg.floor.innerHeight + cfg.switch.floorMargin), liftPlan (max (z - b + cfg.floor.lipHeight + cfg.body.innerChamfer)
        (z - c - cfg.floor.outerHeight + cfg.floor.innerHeight + cfg.switch.floorMargin) - z) p, fun h => ⟨fun hl => ?_, fun hl => ?_⟩⟩
      · obtain ⟨g1, g2⟩ := max_le_iff.mp hl
        rw [if_neg (by linarith), if_neg (by linarith), lift_lift]
        congr 2
        ring
      · rcases lt_max_iff.mp hl with g | g
        · rw [if_pos (by linarith)]
        · split_ifs with g1 g2
          · rfl
          · rfl
          · exfalso; linarith

/-- A configuration with two keys per column, for which there is such a height (`exPlan`). -/
example (side : Side) : ∃ cfg, ∃ plan, Plan.make cfg side = .ok plan ∧ ∃ plan', Plan.make (atHeight cfg (cfg.body.minRoofHeight + 5)) side = .ok plan' := by
  obtain ⟨W, H, plan, h⟩ := exPlan_succeeds side
  exact ⟨_, _, h, _, C76_raise h (by norm_num)⟩

end

end Chrumm.Part
