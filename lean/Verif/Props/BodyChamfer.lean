import Verif.Props.Chamfer
import Verif.Props.BodyMake

/-! C92, C93: the chamfers of the body, and the key plates. -/

namespace Chrumm.Part
open Geo Geo.Spec Spec

/-- The stages of a body. -/
structure Body.Parts (cfg : KeyboardCfg) (fp : FullPlan) (body : Body) : Prop where
  checks : bodyChecks cfg = .ok ()
  keys : bodyKeys fp.plan = .ok body.keys
  corners : bodyCorners cfg fp = .ok body.corners
  step : bodyStep cfg fp = .ok body.step
  outer : outerRim cfg fp body.corners body.step = .ok body.outer
  inner : innerRim cfg fp body.corners body.step = .ok body.inner
  encoder : encoderHole cfg fp.plan.points body.step cfg.encoder = .ok body.encoder
  ridge : ridgeEdges fp.plan.points body.corners body.step body.outer body.inner body.encoder = .ok body.ridge
  joint : makeJoint cfg fp body.step body.inner body.ridge cfg.bracket = .ok body.joint
  faces : body.faces = plateFaces fp.plan.points body.keys body.step body.outer body.inner ++
    [face body.encoder.edgeI, face body.encoder.edgeO] ++ body.joint.faces ++ jointFaces body.joint ++
    floorFaces fp.plan.points body.corners body.inner fp.bosses
  pieces : body.pieces = stepPieces fp.plan.points body.step ++ platePieces fp.plan.points body.keys body.inner ++
    body.encoder.pieces ++ body.joint.pieces ++ jointPieces body.ridge body.joint ++
    wallPieces body.outer body.inner body.joint ++ floorPieces fp.bosses

theorem body_parts {cfg : KeyboardCfg} {fp : FullPlan} {body : Body} (h : Body.make cfg fp = .ok body) :
    Body.Parts cfg fp body := by
  unfold Body.make at h
  dsimp only at h
  obtain ⟨_, h0, h⟩ := bind_ok h
  obtain ⟨_, h1, h⟩ := bind_ok h
  obtain ⟨_, h2, h⟩ := bind_ok h
  obtain ⟨_, h3, h⟩ := bind_ok h
  obtain ⟨_, h4, h⟩ := bind_ok h
  obtain ⟨_, h5, h⟩ := bind_ok h
  obtain ⟨_, h6, h⟩ := bind_ok h
  obtain ⟨_, h7, h⟩ := bind_ok h
  obtain ⟨_, h8, h⟩ := bind_ok h
  obtain ⟨_, -, h⟩ := bind_ok h
  obtain rfl := Except.ok.inj h
  exact ⟨h0, h1, h2, h3, h4, h5, h6, h7, h8, rfl, rfl⟩

theorem above_sub {p : Plane} {a b : Vec} (ha : above p a = 0) (hb : above p b = 0) : (b - a).dot p.normal = 0 := by
  unfold above at ha hb
  simp only [Vec.dot, Vec.sub_x, Vec.sub_y, Vec.sub_z]
  linarith

theorem above_on {p : Plane} {a b : Vec} (ha : above p a = 0) (hb : (b - a).dot p.normal = 0) : above p b = 0 := by
  unfold above at *
  simp only [Vec.dot, Vec.sub_x, Vec.sub_y, Vec.sub_z] at hb
  linarith

theorem projectZ_above {p : Plane} {v r : Vec} (h : p.projectZ v = .ok r) : above p r = 0 ∧ r.x = v.x ∧ r.y = v.y := by
  unfold Plane.projectZ at h
  split at h
  · cases h
  · rename_i hz
    have hne : p.normal.z ≠ 0 := by
      intro h0
      apply hz
      rw [h0]
      unfold isZero
      norm_num
    obtain ⟨d, hd, h⟩ := bind_ok h
    cases h
    unfold pyDiv at hd
    rw [if_neg hne] at hd
    cases hd
    refine ⟨?_, rfl, rfl⟩
    unfold above
    dsimp only
    simp only [Vec.dot, Vec.sub_x, Vec.sub_y, Vec.sub_z]
    field_simp
    ring

theorem edgeProjectZ_on {p : Plane} {e r : List Vec} (h : edgeProjectZ p e = .ok r) :
    List.Forall₂ (fun g t => above p t = 0 ∧ t.x = g.x ∧ t.y = g.y) e r :=
  (mapM_ok h).imp fun _ _ h => projectZ_above h

theorem forall₂_snd {α β : Type} {P : α → β → Prop} {Q : β → Prop} {as : List α} {bs : List β} (h : List.Forall₂ P as bs)
    (hq : ∀ a b, P a b → Q b) : ∀ b ∈ bs, Q b := by
  induction h with
  | nil => simp
  | cons h1 _ ih => exact List.forall_mem_cons.mpr ⟨hq _ _ h1, ih⟩

/-- A rim is in the plane of its corner. -/
theorem insetBy_on {n prev next : Vec} {size : ℝ} {corner rim : List Vec} {p : Plane}
    (h : InsetBy n size (prev :: corner ++ [next]) rim) (hp : p.normal = n ∨ p.normal = -n) (hc : ∀ v ∈ corner, above p v = 0) :
    ∀ q ∈ rim, above p q = 0 := by
  obtain ⟨hl, hi⟩ := h
  intro q hq
  obtain ⟨i, hi', rfl⟩ := List.mem_iff_getElem.mp hq
  simp at hl
  have l0 : i < corner.length := by omega
  have := hi i _ _ _ _ (List.getElem?_eq_getElem (by simp; omega)) (List.getElem?_eq_getElem (by simp; omega))
    (List.getElem?_eq_getElem (by simp; omega)) (List.getElem?_eq_getElem hi')
  have hf := this.flat
  have hb : (prev :: corner ++ [next])[i + 1]'(by simp; omega) = corner[i] := by
    simp [List.getElem_append, l0]
  rw [hb] at hf
  refine above_on (hc _ (List.getElem_mem l0)) ?_
  rcases hp with e | e
  · rw [e]; exact hf
  · rw [e]
    simp only [Vec.dot, Vec.neg_x, Vec.neg_y, Vec.neg_z] at hf ⊢
    linarith

theorem normal_dot {p : Plane} (h : UnitNormal p) : p.normal.dot p.normal = 1 := by
  unfold UnitNormal at h
  simp only [Vec.dot]
  linarith

theorem neg_dot_self (v : Vec) : (-v).dot (-v) = v.dot v := by
  simp only [Vec.dot, Vec.neg_x, Vec.neg_y, Vec.neg_z]
  ring


/-! ### Outside -/

/-- **C92** The corners of the walls are rounded, and lead up to the roof above them. -/
theorem C92_corners {cfg : KeyboardCfg} {fp : FullPlan} {body : Body} (hb : Body.make cfg fp = .ok body) :
    let p := fp.plan.points
    let t := fp.plan.tent
    let c := body.corners
    let r := cfg.outerCornerRadius
    let w := cfg.body.wallThickness
    cornerArc2D cfg.quality r p.thumbOLF.yz p.thumbOLF p.thumbORF = .ok c.OLFG ∧
    cornerArc2D cfg.quality r p.thumbOLF p.pinkyORF p.pinkyORB = .ok c.ORFG ∧
    cornerArc2D cfg.quality r p.pinkyORF p.pinkyORB p.alnumORB = .ok c.ORBG ∧
    cornerArc2D cfg.quality (r - w) p.thumbIRF p.thumbILF p.thumbILF.yz = .ok c.ILFG ∧
    cornerArc2D cfg.quality (r - w) p.pinkyIRB p.pinkyIRF p.thumbILF = .ok c.IRFG ∧
    cornerArc2D cfg.quality (r - w) p.alnumIRB p.pinkyIRB p.pinkyIRF = .ok c.IRBG ∧
    (∀ s ∈ [(t.thumbOT, c.OLFG, c.OLFT), (t.pinkyOT, c.ORFG, c.ORFT), (t.pinkyOT, c.ORBG, c.ORBT),
        (t.thumbIT, c.ILFG, c.ILFT), (t.pinkyIT, c.IRFG, c.IRFT), (t.pinkyIT, c.IRBG, c.IRBT),
        (t.alnumIT, fp.bosses.alnumB.wallEdge, c.bossLB), (t.pinkyIT, fp.bosses.pinkyB.wallEdge, c.bossRB),
        (t.pinkyIT, fp.bosses.pinkyF.wallEdge, c.bossRF), (t.thumbIT, fp.bosses.thumbF.wallEdge, c.bossLF)],
      List.Forall₂ (fun g v => above s.1 v = 0 ∧ v.x = g.x ∧ v.y = g.y) s.2.1 s.2.2) := by
  have h := (body_parts hb).corners
  unfold bodyCorners at h
  dsimp only at h
  obtain ⟨_, h1, h⟩ := bind_ok h
  obtain ⟨_, h2, h⟩ := bind_ok h
  obtain ⟨_, h3, h⟩ := bind_ok h
  obtain ⟨_, h4, h⟩ := bind_ok h
  obtain ⟨_, h5, h⟩ := bind_ok h
  obtain ⟨_, h6, h⟩ := bind_ok h
  obtain ⟨_, h7, h⟩ := bind_ok h
  obtain ⟨_, h8, h⟩ := bind_ok h
  obtain ⟨_, h9, h⟩ := bind_ok h
  obtain ⟨_, h10, h⟩ := bind_ok h
  obtain ⟨_, h11, h⟩ := bind_ok h
  obtain ⟨_, h12, h⟩ := bind_ok h
  obtain ⟨_, h13, h⟩ := bind_ok h
  obtain ⟨_, h14, h⟩ := bind_ok h
  obtain ⟨_, h15, h⟩ := bind_ok h
  obtain ⟨_, h16, h⟩ := bind_ok h
  obtain ⟨_, -, h⟩ := bind_ok h
  have e := Except.ok.inj h
  rw [← e]
  dsimp only
  refine ⟨h4, h5, h6, h1, h2, h3, ?_⟩
  intro s hs
  simp only [List.mem_cons, List.not_mem_nil, or_false] at hs
  rcases hs with rfl | rfl | rfl | rfl | rfl | rfl | rfl | rfl | rfl | rfl
  all_goals exact edgeProjectZ_on (by assumption)

/-- **C92** Outside, the rims of the roofs are the edges above the walls, moved inside by the size of the outer chamfer, and
the walls end this much below these edges. -/
theorem C92_outer {cfg : KeyboardCfg} {side : Side} {fp : FullPlan} {body : Body} (h : FullPlan.make cfg side = .ok fp)
    (hb : Body.make cfg fp = .ok body) :
    let p := fp.plan.points
    let t := fp.plan.tent
    let c := body.corners
    let o := body.outer
    InsetBy t.thumbOT.normal cfg.outerChamfer (p.thumbOLF.yz :: c.OLFT ++ [p.thumbORF]) o.OLFT ∧
    InsetBy t.pinkyOT.normal cfg.outerChamfer (p.thumbORF :: c.ORFT ++ [p.pinkyORB]) o.ORFT ∧
    InsetBy t.pinkyOT.normal cfg.outerChamfer (p.pinkyORF :: c.ORBT ++ [p.alnumORB]) o.ORBT ∧
    o.wall = (c.OLFT ++ [p.thumbORF] ++ c.ORFT ++ c.ORBT ++ [p.alnumORB, p.alnumOLB]).map fun v =>
      (⟨v.x, v.y, v.z - cfg.outerChamfer⟩ : Vec) := by
  have hp := (fullPlan_ok h).1
  have n1 := normal_dot (roof_up hp .thumb).1
  have n2 := normal_dot (roof_up hp .pinky).1
  have h := (body_parts hb).outer
  unfold outerRim at h
  dsimp only at h
  obtain ⟨_, h1, h⟩ := bind_ok h
  obtain ⟨_, h2, h⟩ := bind_ok h
  obtain ⟨_, h3, h⟩ := bind_ok h
  obtain ⟨_, h4, h⟩ := bind_ok h
  obtain ⟨_, h5, h⟩ := bind_ok h
  obtain ⟨_, h6, h⟩ := bind_ok h
  obtain ⟨_, h7, h⟩ := bind_ok h
  obtain ⟨_, h8, h⟩ := bind_ok h
  have e := Except.ok.inj h
  rw [← e]
  dsimp only
  refine ⟨C92_rim n1 h1, C92_rim n2 h2, C92_rim n2 h3, ?_⟩
  have hd : (fun v : Vec => v + ⟨0, 0, -cfg.outerChamfer⟩) = fun v : Vec => (⟨v.x, v.y, v.z - cfg.outerChamfer⟩ : Vec) := by
    funext v
    ext <;> simp [sub_eq_add_neg]
  rw [← hd]
  simp [OuterRim.wall, edgeTranslated]

/-- Where the reference points of a plan are: in the roofs. -/
structure InRoofs (plan : Plan) : Prop where
  alnumO : ∀ v ∈ [plan.points.alnumOLF, plan.points.alnumOLB, plan.points.alnumORF, plan.points.alnumORB], above plan.tent.alnumOT v = 0
  pinkyO : ∀ v ∈ [plan.points.pinkyORF, plan.points.pinkyORB, plan.points.alnumORB, plan.points.thumbORF], above plan.tent.pinkyOT v = 0
  thumbO : ∀ v ∈ [plan.points.thumbOLF, plan.points.thumbOLB, plan.points.thumbORF, plan.points.alnumORF, plan.points.ridgeORF],
    above plan.tent.thumbOT v = 0
  alnumI : ∀ v ∈ [plan.points.alnumILF, plan.points.alnumILB, plan.points.alnumIRF, plan.points.alnumIRB], above plan.tent.alnumIT v = 0
  pinkyI : ∀ v ∈ [plan.points.pinkyIRF, plan.points.pinkyIRB, plan.points.alnumIRB, plan.points.thumbIRF], above plan.tent.pinkyIT v = 0
  thumbI : ∀ v ∈ [plan.points.thumbILF, plan.points.thumbILB, plan.points.thumbIRF, plan.points.alnumIRF, plan.points.ridgeIRF],
    above plan.tent.thumbIT v = 0

theorem in_roofs {cfg : PlanCfg} {side : Side} {plan : Plan} (h : Plan.make cfg side = .ok plan) : InRoofs plan := by
  have k := fun c hc => ((C70_corners h c hc c.1).mpr rfl)
  simp only [Spec.corners, List.forall_mem_cons, List.not_mem_nil, false_imp_iff, implies_true, and_true] at k
  obtain ⟨a1, a2, a3, a4, a5, a6, a7, a8, a9, b1, b2, b3, b4, b5, b6, b7, b8, b9⟩ := k
  obtain ⟨r1, r2, -⟩ := C70_ridge h
  have m := C73_mitre h
  have e1 := (m plan.points.alnumORB).1
  have e2 := (m plan.points.alnumIRB).2.1
  have e3 := (m plan.points.thumbORF).2.2.1
  have e4 := (m plan.points.thumbIRF).2.2.2
  rw [b4.1, b4.2.2] at e1
  rw [a4.1, a4.2.2] at e2
  rw [b9.1, b9.2.2] at e3
  rw [a9.1, a9.2.2] at e4
  constructor
  all_goals simp only [List.forall_mem_cons, List.not_mem_nil, false_imp_iff, implies_true, and_true]
  · exact ⟨b1.2.2, b2.2.2, b3.2.2, b4.2.2⟩
  · exact ⟨b5.2.2, b6.2.2, by linarith, by linarith⟩
  · exact ⟨b7.2.2, b8.2.2, b9.2.2, b3.1, r1⟩
  · exact ⟨a1.2.2, a2.2.2, a3.2.2, a4.2.2⟩
  · exact ⟨a5.2.2, a6.2.2, by linarith, by linarith⟩
  · exact ⟨a7.2.2, a8.2.2, a9.2.2, a3.1, r2⟩

/-- Without a crease between thumb and pinky keys, they have the same roof. -/
theorem same_roof {cfg : PlanCfg} {side : Side} {plan : Plan} (h : Plan.make cfg side = .ok plan)
    (hE : cfg.body.thumbTentAngle = cfg.body.pinkyTentAngle) (v : Vec) :
    above plan.tent.thumbOT v = above plan.tent.pinkyOT v ∧ above plan.tent.thumbIT v = above plan.tent.pinkyIT v := by
  obtain ⟨-, -, e1, e2⟩ := C73_mitre h v
  rw [hE, sub_self, zero_div, Real.sin_zero] at e1 e2
  constructor <;> linarith

/-- The parts of the outer rim. -/
structure OuterRim.Parts (cfg : KeyboardCfg) (fp : FullPlan) (c : BodyCorners) (s : BodyStep) (o : OuterRim) : Prop where
  OLFT : cornerChamfer fp.plan.points.thumbOLF.yz c.OLFT fp.plan.points.thumbORF fp.plan.tent.thumbOT.normal cfg.outerChamfer = .ok o.OLFT
  ORFT : cornerChamfer fp.plan.points.thumbORF c.ORFT fp.plan.points.pinkyORB fp.plan.tent.pinkyOT.normal cfg.outerChamfer = .ok o.ORFT
  ORBT : cornerChamfer fp.plan.points.pinkyORF c.ORBT fp.plan.points.alnumORB fp.plan.tent.pinkyOT.normal cfg.outerChamfer = .ok o.ORBT
  thumbORFT : ∃ q, pyIndex o.ORFT 0 = .ok q ∧
    parallelChamfer fp.plan.points.pinkyORF fp.plan.points.thumbORF fp.plan.points.alnumORF q = .ok o.thumbORFT
  alnumORBT : ∃ q, pyIndex o.ORBT (-1) = .ok q ∧
    parallelChamfer fp.plan.points.pinkyORB fp.plan.points.alnumORB fp.plan.points.alnumORF q = .ok o.alnumORBT
  alnumOLBT : parallelChamfer fp.plan.points.alnumORB fp.plan.points.alnumOLB s.alnumOLF o.alnumORBT = .ok o.alnumOLBT

theorem outer_parts {cfg : KeyboardCfg} {fp : FullPlan} {c : BodyCorners} {s : BodyStep} {o : OuterRim}
    (h : outerRim cfg fp c s = .ok o) : OuterRim.Parts cfg fp c s o := by
  unfold outerRim at h
  dsimp only at h
  obtain ⟨_, h1, h⟩ := bind_ok h
  obtain ⟨_, h2, h⟩ := bind_ok h
  obtain ⟨_, h3, h⟩ := bind_ok h
  obtain ⟨_, h4, h⟩ := bind_ok h
  obtain ⟨_, h5, h⟩ := bind_ok h
  obtain ⟨_, h6, h⟩ := bind_ok h
  obtain ⟨_, h7, h⟩ := bind_ok h
  obtain ⟨_, h8, h⟩ := bind_ok h
  obtain rfl := Except.ok.inj h
  exact ⟨h1, h2, h3, ⟨_, h4, h5⟩, ⟨_, h6, h7⟩, h8⟩

/-- The points of the step that take part in the key plates. -/
theorem step_parts {cfg : KeyboardCfg} {fp : FullPlan} {s : BodyStep} (h : bodyStep cfg fp = .ok s) :
    chamferPoint fp.plan.points.ridgeIRF fp.plan.points.alnumILF fp.plan.points.alnumIRF fp.plan.tent.alnumOT.normal
      (cfg.body.innerChamfer * (125 / 100)) = .ok s.alnumILF ∧
    chamferPoint fp.plan.points.ridgeORF fp.plan.points.alnumOLF fp.plan.points.alnumORF fp.plan.tent.alnumOT.normal
      (cfg.outerChamfer * (125 / 100)) = .ok s.alnumOLF ∧
    (∀ v ∈ s.IG, above fp.plan.tent.thumbIT v = 0) ∧ (∀ v ∈ s.OG, above fp.plan.tent.thumbOT v = 0) := by
  unfold bodyStep at h
  dsimp only at h
  obtain ⟨_, h1, h⟩ := bind_ok h
  obtain ⟨_, h2, h⟩ := bind_ok h
  obtain ⟨_, h3, h⟩ := bind_ok h
  obtain ⟨_, h4, h⟩ := bind_ok h
  obtain ⟨_, h5, h⟩ := bind_ok h
  obtain ⟨_, h6, h⟩ := bind_ok h
  obtain ⟨_, h7, h⟩ := bind_ok h
  obtain ⟨_, h8, h⟩ := bind_ok h
  obtain ⟨_, h9, h⟩ := bind_ok h
  obtain ⟨_, h10, h⟩ := bind_ok h
  obtain ⟨_, h11, h⟩ := bind_ok h
  obtain rfl := Except.ok.inj h
  exact ⟨h2, h3, forall₂_snd (edgeProjectZ_on h8) fun _ _ h => h.1, forall₂_snd (edgeProjectZ_on h9) fun _ _ h => h.1⟩

/-- **C92** The chamfers at the step. -/
theorem C92_step {cfg : KeyboardCfg} {side : Side} {fp : FullPlan} {body : Body} (h : FullPlan.make cfg side = .ok fp)
    (hb : Body.make cfg fp = .ok body) :
    let p := fp.plan.points
    let n := fp.plan.tent.alnumOT.normal
    Inset n (cfg.body.innerChamfer * (125 / 100)) p.ridgeIRF p.alnumILF p.alnumIRF body.step.alnumILF ∧
    Inset n (cfg.outerChamfer * (125 / 100)) p.ridgeORF p.alnumOLF p.alnumORF body.step.alnumOLF := by
  have n1 := normal_dot (roof_up (fullPlan_ok h).1 .alnum).1
  obtain ⟨s1, s2, -⟩ := step_parts (body_parts hb).step
  exact ⟨C92_point n1 s1, C92_point n1 s2⟩

theorem OnLine.above {p : Plane} {a b x : Vec} (ha : Spec.above p a = 0) (hb : Spec.above p b = 0) (h : OnLine a (b - a) x) :
    Spec.above p x = 0 := by
  obtain ⟨t, rfl⟩ := h
  simp only [Spec.above, Vec.add_x, Vec.add_y, Vec.add_z, Vec.mul_x, Vec.mul_y, Vec.mul_z, Vec.sub_x, Vec.sub_y, Vec.sub_z] at *
  linear_combination (1 - t) * ha + t * hb

/-- **C92** Outside, the chamfers of different roofs meet at the crease between them: their ends are on the crease, and the
chamfer leads there in parallel to the edge of the roof. At the ridge, it ends on the edge of the alnum roof. -/
theorem C92_outer_ends {cfg : KeyboardCfg} {side : Side} {fp : FullPlan} {body : Body} (h : FullPlan.make cfg side = .ok fp)
    (hb : Body.make cfg fp = .ok body) (hE : cfg.body.thumbTentAngle = cfg.body.pinkyTentAngle) :
    let p := fp.plan.points
    let o := body.outer
    OnLine (o.ORFT.headD 0) (p.thumbORF - p.pinkyORF) o.thumbORFT ∧ OnLine p.thumbORF (p.alnumORF - p.thumbORF) o.thumbORFT ∧
    OnLine (o.ORBT.getLastD 0) (p.alnumORB - p.pinkyORB) o.alnumORBT ∧ OnLine p.alnumORB (p.alnumORF - p.alnumORB) o.alnumORBT ∧
    OnLine o.alnumORBT (p.alnumOLB - p.alnumORB) o.alnumOLBT ∧ OnLine p.alnumOLB (body.step.alnumOLF - p.alnumOLB) o.alnumOLBT := by
  have hp := (fullPlan_ok h).1
  have nA := normal_dot (roof_up hp .alnum).1
  have nP := normal_dot (roof_up hp .pinky).1
  have r := in_roofs hp
  have e := same_roof hp hE
  have o := outer_parts (body_parts hb).outer
  obtain ⟨-, -, -, -, -, -, k⟩ := C92_corners hb
  simp only [List.forall_mem_cons] at k
  obtain ⟨k1, k2, k3, -⟩ := k
  obtain ⟨rA, rP, rT, -, -, -⟩ := r
  simp only [List.forall_mem_cons, List.not_mem_nil, false_imp_iff, implies_true, and_true] at rA rP rT
  obtain ⟨a1, a2, a3, a4⟩ := rA
  obtain ⟨p1, p2, p3, p4⟩ := rP
  obtain ⟨t1, t2, t3, t4, t5⟩ := rT
  obtain ⟨q0, i0, h0⟩ := o.thumbORFT
  obtain ⟨q1, i1, h1⟩ := o.alnumORBT
  have f0 := insetBy_on (C92_rim nP o.ORFT) (.inl rfl) (forall₂_snd k2 fun _ _ h => h.1) q0 (pyIndex_mem i0)
  have f1 := insetBy_on (C92_rim nP o.ORBT) (.inl rfl) (forall₂_snd k3 fun _ _ h => h.1) q1 (pyIndex_mem i1)
  have pA : above fp.plan.tent.pinkyOT fp.plan.points.alnumORF = 0 := by rw [← (e _).1]; exact t4
  obtain ⟨x1, x2⟩ := C92_parallel nP h0 (above_sub p1 p4) (above_sub p4 pA) (above_sub p4 f0)
  obtain ⟨y1, y2⟩ := C92_parallel nP h1 (above_sub p2 p3) (above_sub p3 pA) (above_sub p3 f1)
  have yA := OnLine.above a4 a3 y2
  have sA : above fp.plan.tent.alnumOT body.step.alnumOLF = 0 := above_on a1 (C92_step h hb).2.flat
  obtain ⟨z1, z2⟩ := C92_parallel nA o.alnumOLBT (above_sub a4 a2) (above_sub a2 sA) (above_sub a2 yA)
  refine ⟨?_, x2, ?_, y2, z1, z2⟩
  · rwa [← (index_zero i0).2]
  · rwa [← (index_last i1).2]

/-! ### Inside -/

/-- The parts of the inner rim. -/
structure InnerRim.Parts (cfg : KeyboardCfg) (fp : FullPlan) (c : BodyCorners) (s : BodyStep) (i : InnerRim) : Prop where
  LBT : cornerChamfer fp.plan.points.alnumILB c.bossLB fp.plan.points.alnumIRB (-fp.plan.tent.alnumOT.normal) cfg.body.innerChamfer = .ok i.LBT
  RBT : cornerChamfer fp.plan.points.alnumIRB c.bossRB fp.plan.points.pinkyIRB (-fp.plan.tent.pinkyOT.normal) cfg.body.innerChamfer = .ok i.RBT
  RFT : cornerChamfer fp.plan.points.pinkyIRF c.bossRF fp.plan.points.thumbIRF (-fp.plan.tent.pinkyOT.normal) cfg.body.innerChamfer = .ok i.RFT
  LFT : cornerChamfer fp.plan.points.thumbIRF c.bossLF fp.plan.points.thumbILF (-fp.plan.tent.thumbOT.normal) cfg.body.innerChamfer = .ok i.LFT
  IRBT : cornerChamfer fp.plan.points.alnumIRB c.IRBT fp.plan.points.pinkyIRF (-fp.plan.tent.pinkyOT.normal) cfg.body.innerChamfer = .ok i.IRBT
  IRFT : cornerChamfer fp.plan.points.pinkyIRB c.IRFT fp.plan.points.thumbIRF (-fp.plan.tent.pinkyOT.normal) cfg.body.innerChamfer = .ok i.IRFT
  ILFT : cornerChamfer fp.plan.points.thumbIRF c.ILFT fp.plan.points.thumbILF.yz (-fp.plan.tent.thumbOT.normal) cfg.body.innerChamfer = .ok i.ILFT
  ends : innerEnds fp.plan.points s.alnumILF i.IRBT i.IRFT (decide (cfg.body.thumbTentAngle = cfg.body.pinkyTentAngle)) =
    .ok (i.alnumIRBT, i.alnumILBT, i.thumbIRFT)
  wall : i.wall = ([fp.plan.points.alnumILB] ++ c.bossLB ++ [fp.plan.points.alnumIRB] ++ c.bossRB ++ c.IRBT ++ c.IRFT ++ c.bossRF ++
    [fp.plan.points.thumbIRF] ++ c.bossLF ++ c.ILFT).map fun v => (⟨v.x, v.y, v.z - cfg.body.innerChamfer⟩ : Vec)

theorem inner_parts {cfg : KeyboardCfg} {fp : FullPlan} {c : BodyCorners} {s : BodyStep} {i : InnerRim}
    (h : innerRim cfg fp c s = .ok i) : InnerRim.Parts cfg fp c s i := by
  unfold innerRim at h
  dsimp only at h
  obtain ⟨_, h1, h⟩ := bind_ok h
  obtain ⟨_, h2, h⟩ := bind_ok h
  obtain ⟨_, h3, h⟩ := bind_ok h
  obtain ⟨_, h4, h⟩ := bind_ok h
  obtain ⟨_, h5, h⟩ := bind_ok h
  obtain ⟨_, h6, h⟩ := bind_ok h
  obtain ⟨_, h7, h⟩ := bind_ok h
  obtain ⟨⟨x, y, z⟩, h8, h⟩ := bind_ok h
  obtain rfl := Except.ok.inj h
  refine ⟨h1, h2, h3, h4, h5, h6, h7, h8, ?_⟩
  have hd : (fun v : Vec => v + ⟨0, 0, -cfg.body.innerChamfer⟩) =
      fun v : Vec => (⟨v.x, v.y, v.z - cfg.body.innerChamfer⟩ : Vec) := by
    funext v
    ext <;> simp [sub_eq_add_neg]
  rw [← hd]
  simp [InnerRim.wall, edgeTranslated]

/-- The normals of a plan's roofs, inside and outside. -/
theorem roof_normals {cfg : PlanCfg} {side : Side} {plan : Plan} (h : Plan.make cfg side = .ok plan) :
    plan.tent.alnumIT.normal = plan.tent.alnumOT.normal ∧ plan.tent.pinkyIT.normal = plan.tent.pinkyOT.normal ∧
    plan.tent.thumbIT.normal = plan.tent.thumbOT.normal := by
  have n := (C74_directions h).1
  exact ⟨(n .alnum).2.trans (n .alnum).1.symm, (n .pinky).2.trans (n .pinky).1.symm, (n .thumb).2.trans (n .thumb).1.symm⟩

/-- **C92** Inside, the rims of the roofs are the edges above the walls and bosses, moved inside by the size of the inner
chamfer, seen from below, and the walls end this much below these edges. -/
theorem C92_inner {cfg : KeyboardCfg} {side : Side} {fp : FullPlan} {body : Body} (h : FullPlan.make cfg side = .ok fp)
    (hb : Body.make cfg fp = .ok body) :
    let p := fp.plan.points
    let t := fp.plan.tent
    let c := body.corners
    let i := body.inner
    let size := cfg.body.innerChamfer
    InsetBy (-t.alnumIT.normal) size (p.alnumILB :: c.bossLB ++ [p.alnumIRB]) i.LBT ∧
    InsetBy (-t.pinkyIT.normal) size (p.alnumIRB :: c.bossRB ++ [p.pinkyIRB]) i.RBT ∧
    InsetBy (-t.pinkyIT.normal) size (p.pinkyIRF :: c.bossRF ++ [p.thumbIRF]) i.RFT ∧
    InsetBy (-t.thumbIT.normal) size (p.thumbIRF :: c.bossLF ++ [p.thumbILF]) i.LFT ∧
    InsetBy (-t.pinkyIT.normal) size (p.alnumIRB :: c.IRBT ++ [p.pinkyIRF]) i.IRBT ∧
    InsetBy (-t.pinkyIT.normal) size (p.pinkyIRB :: c.IRFT ++ [p.thumbIRF]) i.IRFT ∧
    InsetBy (-t.thumbIT.normal) size (p.thumbIRF :: c.ILFT ++ [p.thumbILF.yz]) i.ILFT ∧
    i.wall = ([p.alnumILB] ++ c.bossLB ++ [p.alnumIRB] ++ c.bossRB ++ c.IRBT ++ c.IRFT ++ c.bossRF ++
      [p.thumbIRF] ++ c.bossLF ++ c.ILFT).map fun v => (⟨v.x, v.y, v.z - size⟩ : Vec) := by
  have hp := (fullPlan_ok h).1
  have nA := normal_dot (roof_up hp .alnum).1
  have nP := normal_dot (roof_up hp .pinky).1
  have nT := normal_dot (roof_up hp .thumb).1
  rw [← neg_dot_self] at nA nP nT
  obtain ⟨e1, e2, e3⟩ := roof_normals hp
  have q := inner_parts (body_parts hb).inner
  dsimp only
  rw [e1, e2, e3]
  exact ⟨C92_rim nA q.LBT, C92_rim nP q.RBT, C92_rim nP q.RFT, C92_rim nT q.LFT, C92_rim nP q.IRBT, C92_rim nP q.IRFT,
    C92_rim nT q.ILFT, q.wall⟩

/-- The rims of the inner roofs are in the roofs. -/
theorem inner_on {cfg : KeyboardCfg} {side : Side} {fp : FullPlan} {body : Body} (h : FullPlan.make cfg side = .ok fp)
    (hb : Body.make cfg fp = .ok body) :
    (∀ v ∈ body.inner.LBT, above fp.plan.tent.alnumIT v = 0) ∧
    (∀ v ∈ body.inner.RBT ++ body.inner.IRBT ++ body.inner.IRFT ++ body.inner.RFT, above fp.plan.tent.pinkyIT v = 0) ∧
    ∀ v ∈ body.inner.LFT ++ body.inner.ILFT, above fp.plan.tent.thumbIT v = 0 := by
  obtain ⟨c1, c2, c3, c4, c5, c6, c7, -⟩ := C92_inner h hb
  obtain ⟨-, -, -, -, -, -, k⟩ := C92_corners hb
  simp only [List.forall_mem_cons, List.not_mem_nil, false_imp_iff, implies_true, and_true] at k
  obtain ⟨-, -, -, k4, k5, k6, k7, k8, k9, k10⟩ := k
  have neg : ∀ v : Vec, v = - -v := fun v => by ext <;> simp
  refine ⟨insetBy_on c1 (.inr (neg _)) (forall₂_snd k7 fun _ _ h => h.1), ?_, ?_⟩
  · simp only [List.forall_mem_append]
    exact ⟨⟨⟨insetBy_on c2 (.inr (neg _)) (forall₂_snd k8 fun _ _ h => h.1),
      insetBy_on c5 (.inr (neg _)) (forall₂_snd k6 fun _ _ h => h.1)⟩,
      insetBy_on c6 (.inr (neg _)) (forall₂_snd k5 fun _ _ h => h.1)⟩,
      insetBy_on c3 (.inr (neg _)) (forall₂_snd k9 fun _ _ h => h.1)⟩
  · simp only [List.forall_mem_append]
    exact ⟨insetBy_on c4 (.inr (neg _)) (forall₂_snd k10 fun _ _ h => h.1),
      insetBy_on c7 (.inr (neg _)) (forall₂_snd k4 fun _ _ h => h.1)⟩

/-- **C92** Inside, the chamfers of different roofs meet at the crease between them, too. -/
theorem C92_inner_ends {cfg : KeyboardCfg} {side : Side} {fp : FullPlan} {body : Body} (h : FullPlan.make cfg side = .ok fp)
    (hb : Body.make cfg fp = .ok body) (hE : cfg.body.thumbTentAngle = cfg.body.pinkyTentAngle) :
    let p := fp.plan.points
    let i := body.inner
    OnLine (i.IRFT.getLastD 0) (p.thumbIRF - p.pinkyIRF) i.thumbIRFT ∧ OnLine p.thumbIRF (p.alnumIRF - p.thumbIRF) i.thumbIRFT ∧
    OnLine (i.IRBT.headD 0) (p.alnumIRB - p.pinkyIRB) i.alnumIRBT ∧ OnLine p.alnumIRB (p.alnumIRF - p.alnumIRB) i.alnumIRBT ∧
    OnLine i.alnumIRBT (p.alnumILB - p.alnumIRB) i.alnumILBT ∧ OnLine p.alnumILB (body.step.alnumILF - p.alnumILB) i.alnumILBT := by
  have hp := (fullPlan_ok h).1
  have nA := normal_dot (roof_up hp .alnum).1
  have nP := normal_dot (roof_up hp .pinky).1
  obtain ⟨e1, e2, e3⟩ := roof_normals hp
  simp only [Group.roofO] at nA nP
  rw [← e1] at nA
  rw [← e2] at nP
  have r := in_roofs hp
  have e := same_roof hp hE
  have ends := (inner_parts (body_parts hb).inner).ends
  obtain ⟨-, hP, -⟩ := inner_on h hb
  obtain ⟨-, -, -, rA, rP, rT⟩ := r
  simp only [List.forall_mem_cons, List.forall_mem_append, List.not_mem_nil, false_imp_iff, implies_true, and_true] at rA rP rT hP
  obtain ⟨a1, a2, a3, a4⟩ := rA
  obtain ⟨p1, p2, p3, p4⟩ := rP
  obtain ⟨t1, t2, t3, t4, t5⟩ := rT
  rw [decide_eq_true hE] at ends
  unfold innerEnds at ends
  obtain ⟨q1, i1, ends⟩ := bind_ok ends
  obtain ⟨_, h1, ends⟩ := bind_ok ends
  obtain ⟨_, h2, ends⟩ := bind_ok ends
  obtain ⟨q0, i0, ends⟩ := bind_ok ends
  obtain ⟨_, h0, ends⟩ := bind_ok ends
  have ee := Except.ok.inj ends
  simp only [Prod.mk.injEq] at ee
  obtain ⟨x, y, z⟩ := ee
  rw [x] at h1 h2
  rw [y] at h2
  rw [z] at h0
  have f0 := hP.1.2 q0 (pyIndex_mem i0)
  have f1 := hP.1.1.2 q1 (pyIndex_mem i1)
  have pA : above fp.plan.tent.pinkyIT fp.plan.points.alnumIRF = 0 := by rw [← (e _).2]; exact t4
  obtain ⟨x1, x2⟩ := C92_parallel nP h0 (above_sub p1 p4) (above_sub p4 pA) (above_sub p4 f0)
  obtain ⟨y1, y2⟩ := C92_parallel nP h1 (above_sub p2 p3) (above_sub p3 pA) (above_sub p3 f1)
  have yA := OnLine.above a4 a3 y2
  have sA : above fp.plan.tent.alnumIT body.step.alnumILF = 0 := above_on a1 (by rw [e1]; exact (C92_step h hb).1.flat)
  obtain ⟨z1, z2⟩ := C92_parallel nA h2 (above_sub a4 a2) (above_sub a2 sA) (above_sub a2 yA)
  refine ⟨?_, x2, ?_, y2, z1, z2⟩
  · rwa [← (index_last i0).2]
  · rwa [← (index_zero i1).2]

/-! ### Key plates -/

theorem face_points (edge : List Vec) (holes : List (List Vec)) : Spec.Piece.points (face edge holes) = edge ++ holes.flatten := by
  simp [Spec.Piece.points, Spec.Sheet.points, face]

/-- **C93** The inner side of the pinky plate, with its switch holes, is in the inner side of the roof above the pinky keys. -/
theorem C93_pinky {cfg : KeyboardCfg} {side : Side} {fp : FullPlan} {body : Body} (h : FullPlan.make cfg side = .ok fp)
    (hb : Body.make cfg fp = .ok body) :
    ∃ plate, body.faces[1]? = some plate ∧ ∀ v ∈ Spec.Piece.points plate, above fp.plan.tent.pinkyIT v = 0 := by
  have hp := (fullPlan_ok h).1
  have q := body_parts hb
  obtain ⟨-, -, -, -, rP, -⟩ := in_roofs hp
  obtain ⟨-, hP, -⟩ := inner_on h hb
  simp only [List.forall_mem_cons, List.forall_mem_append, List.not_mem_nil, false_imp_iff, implies_true, and_true] at rP hP
  obtain ⟨p1, p2, p3, p4⟩ := rP
  have ends : above fp.plan.tent.pinkyIT body.inner.alnumIRBT = 0 ∧ above fp.plan.tent.pinkyIT body.inner.thumbIRFT = 0 := by
    by_cases hE : cfg.body.thumbTentAngle = cfg.body.pinkyTentAngle
    · obtain ⟨-, z1, -, z2, -⟩ := C92_inner_ends h hb hE
      obtain ⟨-, -, -, -, -, rT⟩ := in_roofs hp
      simp only [List.forall_mem_cons, List.not_mem_nil, false_imp_iff, implies_true, and_true] at rT
      have e := (same_roof hp hE fp.plan.points.alnumIRF).2
      rw [rT.2.2.2.1] at e
      exact ⟨OnLine.above p3 e.symm z2, OnLine.above p4 e.symm z1⟩
    · have ends := (inner_parts q.inner).ends
      rw [decide_eq_false hE] at ends
      unfold innerEnds at ends
      obtain ⟨q1, i1, ends⟩ := bind_ok ends
      obtain ⟨_, h1, ends⟩ := bind_ok ends
      obtain ⟨_, h2, ends⟩ := bind_ok ends
      obtain ⟨q0, i0, ends⟩ := bind_ok ends
      obtain ⟨_, h0, ends⟩ := bind_ok ends
      have ee := Except.ok.inj ends
      simp only [Prod.mk.injEq] at ee
      obtain ⟨x, y, z⟩ := ee
      rw [x] at h1
      rw [z] at h0
      have f0 := hP.1.2 q0 (pyIndex_mem i0)
      have f1 := hP.1.1.2 q1 (pyIndex_mem i1)
      exact ⟨above_on p3 (parallel_flat h1 (above_sub p2 p3) (above_sub p3 p4) (above_sub p3 f1)),
        above_on p4 (parallel_flat h0 (above_sub p1 p4) (above_sub p4 p3) (above_sub p4 f0))⟩
  refine ⟨_, by rw [q.faces]; rfl, ?_⟩
  rw [face_points]
  obtain ⟨ks, hk, hr⟩ := C68_rims hp .pinky (some fp.plan.side)
  have hk' : fp.plan.layout.pinky (some fp.plan.side) = .ok body.keys.pinky := by
    have := q.keys
    unfold bodyKeys at this
    obtain ⟨_, -, this⟩ := bind_ok this
    obtain ⟨_, k2, this⟩ := bind_ok this
    have := Except.ok.inj this
    rw [← this]
    exact k2
  have : ks = body.keys.pinky := Except.ok.inj (hk.symm.trans hk')
  subst this
  simp only [List.forall_mem_append, List.forall_mem_cons, List.not_mem_nil, false_imp_iff, implies_true, and_true]
  refine ⟨⟨⟨⟨⟨⟨ends.1, hP.1.1.1⟩, hP.1.1.2⟩, hP.1.2⟩, hP.2⟩, ends.2⟩, ?_⟩
  intro v hv
  obtain ⟨l, hl, hv⟩ := List.mem_flatten.mp hv
  obtain ⟨k, hk, rfl⟩ := List.mem_map.mp hl
  exact (hr k hk).2 v hv

/-- **C93** The six key plates are flat: outline and switch holes are in the inner or the outer side of the roof above
the keys. This needs that the thumb keys are tented like the pinky keys; the plates are slightly bent otherwise. -/
theorem C93_plates {cfg : KeyboardCfg} {side : Side} {fp : FullPlan} {body : Body} (h : FullPlan.make cfg side = .ok fp)
    (hb : Body.make cfg fp = .ok body) (hE : cfg.body.thumbTentAngle = cfg.body.pinkyTentAngle) :
    let t := fp.plan.tent
    List.Forall₂ (fun roof plate => ∀ v ∈ Spec.Piece.points plate, above roof v = 0)
      [t.alnumIT, t.pinkyIT, t.thumbIT, t.alnumOT, t.pinkyOT, t.thumbOT] (body.faces.take 6) := by
  have hp := (fullPlan_ok h).1
  have q := body_parts hb
  obtain ⟨oA, oP, oT, rA, rP, rT⟩ := in_roofs hp
  obtain ⟨hA, hP, hT⟩ := inner_on h hb
  obtain ⟨-, z1, -, z2, -, z3⟩ := C92_inner_ends h hb hE
  obtain ⟨-, y1, -, y2, -, y3⟩ := C92_outer_ends h hb hE
  obtain ⟨s1, s2⟩ := C92_step h hb
  obtain ⟨-, -, sI, sO⟩ := step_parts q.step
  obtain ⟨n1, -, -⟩ := roof_normals hp
  obtain ⟨b1, b2, b3, -⟩ := C92_outer h hb
  obtain ⟨-, -, -, -, -, -, k⟩ := C92_corners hb
  simp only [List.forall_mem_cons] at k
  obtain ⟨k1, k2, k3, -⟩ := k
  have c1 := insetBy_on b1 (.inl rfl) (forall₂_snd k1 fun _ _ h => h.1)
  have c2 := insetBy_on b2 (.inl rfl) (forall₂_snd k2 fun _ _ h => h.1)
  have c3 := insetBy_on b3 (.inl rfl) (forall₂_snd k3 fun _ _ h => h.1)
  have e := fun v => same_roof hp hE v
  simp only [List.forall_mem_cons, List.forall_mem_append, List.not_mem_nil, false_imp_iff, implies_true, and_true] at *
  obtain ⟨oA1, oA2, oA3, oA4⟩ := oA
  obtain ⟨oP1, oP2, oP3, oP4⟩ := oP
  obtain ⟨oT1, oT2, oT3, oT4, oT5⟩ := oT
  obtain ⟨rA1, rA2, rA3, rA4⟩ := rA
  obtain ⟨rP1, rP2, rP3, rP4⟩ := rP
  obtain ⟨rT1, rT2, rT3, rT4, rT5⟩ := rT
  have eI := (e fp.plan.points.alnumIRF).2.symm.trans rT4
  have eO := (e fp.plan.points.alnumORF).1.symm.trans oT4
  have sA : above fp.plan.tent.alnumIT body.step.alnumILF = 0 := above_on rA1 (by rw [n1]; exact s1.flat)
  have sB : above fp.plan.tent.alnumOT body.step.alnumOLF = 0 := above_on oA1 s2.flat
  have holes : ∀ (g : Group) (ks : List Key), g.keys fp.plan.layout (some fp.plan.side) = .ok ks →
      (∀ v ∈ (ks.map Key.roofHoleI).flatten, above (g.roofI fp.plan) v = 0) ∧
      ∀ v ∈ (ks.map Key.roofHoleO).flatten, above (g.roofO fp.plan) v = 0 := by
    intro g ks hk
    obtain ⟨ks', hk', hr⟩ := C68_rims hp g (some fp.plan.side)
    obtain rfl := Except.ok.inj (hk'.symm.trans hk)
    constructor <;> intro v hv <;> obtain ⟨l, hl, hv⟩ := List.mem_flatten.mp hv <;> obtain ⟨k, hk, rfl⟩ := List.mem_map.mp hl
    · exact (hr k hk).2 v hv
    · exact (hr k hk).1 v hv
  obtain ⟨g1, g2, g3⟩ : fp.plan.layout.alnum (some fp.plan.side) = .ok body.keys.alnum ∧
      fp.plan.layout.pinky (some fp.plan.side) = .ok body.keys.pinky ∧ fp.plan.layout.thumb (some fp.plan.side) = body.keys.thumb := by
    have := q.keys
    unfold bodyKeys at this
    obtain ⟨_, k1, this⟩ := bind_ok this
    obtain ⟨_, k2, this⟩ := bind_ok this
    have := Except.ok.inj this
    rw [← this]
    exact ⟨k1, k2, rfl⟩
  obtain ⟨kA1, kA2⟩ := holes .alnum _ g1
  obtain ⟨kP1, kP2⟩ := holes .pinky _ g2
  obtain ⟨kT1, kT2⟩ := holes .thumb _ (congrArg Except.ok g3)
  rw [q.faces]
  simp only [plateFaces, List.cons_append, List.nil_append, List.take_succ_cons, List.take_zero, List.forall₂_cons,
    List.Forall₂.nil, and_true, face_points, List.forall_mem_append, List.forall_mem_cons, List.not_mem_nil, false_imp_iff, implies_true]
  have zA := OnLine.above rA4 rA3 z2
  have yA := OnLine.above oA4 oA3 y2
  exact ⟨⟨⟨hA, zA, rA3, sA, OnLine.above rA2 sA z3⟩, kA1⟩,
    ⟨OnLine.above rP3 eI z2, ⟨⟨⟨⟨hP.1.1.1, hP.1.1.2⟩, hP.1.2⟩, hP.2⟩, OnLine.above rP4 eI z1⟩, kP1⟩,
    ⟨OnLine.above rT3 rT4 z1, ⟨⟨⟨⟨hT.1, hT.2⟩, rT5⟩, sI⟩, rT4⟩, kT1⟩,
    ⟨sB, oA3, yA, OnLine.above oA2 sB y3, kA2⟩,
    ⟨⟨⟨c2, c3⟩, OnLine.above oP3 eO y2, eO, OnLine.above oP4 eO y1⟩, kP2⟩,
    ⟨⟨⟨⟨c1, OnLine.above oT3 oT4 y1, oT4⟩, sO⟩, oT5⟩, kT2⟩⟩

end Chrumm.Part
