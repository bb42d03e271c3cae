import Verif.Props.BodyJoint

/-! C83: the body is watertight. -/

namespace Chrumm.Part
open Geo Geo.Spec Spec Classical

theorem edgeProjectZ_xy {plane : Plane} {e e' : List Vec} (h : edgeProjectZ plane e = .ok e') : e'.map Vec.xy = e.map Vec.xy := by
  have := mapM_ok h
  clear h
  induction this with
  | nil => rfl
  | cons h1 _ ih =>
    rw [List.map_cons, List.map_cons, ih]
    congr 1
    unfold Plane.projectZ at h1
    split_ifs at h1
    obtain ⟨z, -, h1⟩ := bind_ok h1
    obtain rfl := Except.ok.inj h1
    rfl

theorem cornerChamfer_length {c n : Vec} {size : ℝ} : ∀ {corner prev : List Vec} {a : Vec}, cornerChamfer a corner c n size = .ok prev →
    prev.length = corner.length
  | [], _, _, h => by
    obtain rfl := Except.ok.inj h
    rfl
  | b :: rest, _, a, h => by
    unfold cornerChamfer at h
    obtain ⟨p, -, h⟩ := bind_ok h
    obtain ⟨ps, h2, h⟩ := bind_ok h
    obtain rfl := Except.ok.inj h
    rw [List.length_cons, List.length_cons, cornerChamfer_length h2]

theorem down_xy (e : List Vec) (z : ℝ) : (edgeTranslated e ⟨0, 0, z⟩).map Vec.xy = e.map Vec.xy := by
  unfold edgeTranslated
  rw [List.map_map]
  apply List.map_congr_left
  intro p _
  ext <;> simp [Vec.xy]

/-- The start and the end of a rounded corner at a side that is parallel to the x axis. -/
theorem corner_straight {q : Quality} {radius : ℝ} {a b c : Vec} {pts : List Vec} (hr : 1 / 1000000 ≤ radius)
    (hq : 0 < q.maxChordAngle) (h : cornerArc2D q radius a b c = .ok pts) :
    (a.y = b.y → (pts.headD 0).y = b.y ∧ (pts.headD 0).z = 0) ∧ (c.y = b.y → (pts.getLastD 0).y = b.y ∧ (pts.getLastD 0).z = 0) := by
  obtain ⟨u, w, -, d, -, ⟨-, k1, l1, e1⟩, ⟨-, k2, l2, e2⟩, h1, h2, -⟩ := C54_tangent hr hq h
  rw [(headD_of_head? h1).2, (getLastD_of_getLast? h2).2]
  have flat : ∀ {v w : Vec} {k : ℝ}, 0 < k → v.xy = w * k → v.y = 0 → w.y = 0 ∧ w.z = 0 := by
    intro v w k hk e hv
    have y := congrArg Vec.y e
    have z := congrArg Vec.z e
    simp only [Vec.xy, Vec.mul_y, Vec.mul_z] at y z
    rw [hv] at y
    exact ⟨(mul_eq_zero.mp y.symm).resolve_right hk.ne', (mul_eq_zero.mp z.symm).resolve_right hk.ne'⟩
  constructor
  · intro hy
    obtain ⟨y, z⟩ := flat l1 e1 (by simp [hy])
    simp [Vec.xy, y, z]
  · intro hy
    obtain ⟨y, z⟩ := flat l2 e2 (by simp [hy])
    simp [Vec.xy, y, z]

theorem ne_of_map_xy {a b : List Vec} (h : a.map Vec.xy = b.map Vec.xy) : a ≠ [] ↔ b ≠ [] := by
  have := congrArg List.length h
  rw [List.length_map, List.length_map] at this
  rw [← List.length_pos_iff, ← List.length_pos_iff, this]

/-- What is known about the rims of a body. -/
theorem rim_ok {cfg : KeyboardCfg} {fp : FullPlan} {c : BodyCorners} {s : BodyStep} {o : OuterRim} {i : InnerRim} {e : EncoderHole}
    {r : Ridge} (hc : bodyCorners cfg fp = .ok c) (ho : outerRim cfg fp c s = .ok o) (hi : innerRim cfg fp c s = .ok i)
    (hr : ridgeEdges fp.plan.points c s o i e = .ok r) :
    RimOk fp.plan.points c o i ∧
    RidgeOk fp.plan.points s o i e (c.OLFG.headD 0) (o.OLFC.headD 0) (o.OLFT.headD 0) r ∧
    r.ilfg = c.ILFG.getLastD 0 ∧ r.ilfc = i.ILFC.getLastD 0 ∧ r.ilft = i.ILFT.getLastD 0 ∧
    c.ILFG ≠ [] ∧ c.OLFG ≠ [] := by
  unfold ridgeEdges at hr
  dsimp only at hr
  obtain ⟨olfg, j1, hr⟩ := bind_ok hr
  obtain ⟨olfc, j2, hr⟩ := bind_ok hr
  obtain ⟨olft, j3, hr⟩ := bind_ok hr
  obtain ⟨ilfg, j4, hr⟩ := bind_ok hr
  obtain ⟨ilfc, j5, hr⟩ := bind_ok hr
  obtain ⟨ilft, j6, hr⟩ := bind_ok hr
  obtain rfl := Except.ok.inj hr
  obtain ⟨n1, rfl⟩ := index_zero j1
  obtain ⟨n2, rfl⟩ := index_zero j2
  obtain ⟨n3, rfl⟩ := index_zero j3
  obtain ⟨n4, rfl⟩ := index_last j4
  obtain ⟨n5, rfl⟩ := index_last j5
  obtain ⟨n6, rfl⟩ := index_last j6
  have xy0 : ∀ (v : Vec) (z : ℝ), (v + ⟨0, 0, z⟩).xy = v.xy := fun v z => by ext <;> simp [Vec.xy]
  have hrim : c.OLFT.map Vec.xy = c.OLFG.map Vec.xy ∧ c.ORFT.map Vec.xy = c.ORFG.map Vec.xy ∧ c.ORBT.map Vec.xy = c.ORBG.map Vec.xy ∧
      c.IRBT.map Vec.xy = c.IRBG.map Vec.xy ∧ c.IRFT.map Vec.xy = c.IRFG.map Vec.xy ∧ c.ILFT.map Vec.xy = c.ILFG.map Vec.xy := by
    unfold bodyCorners at hc
    dsimp only at hc
    obtain ⟨ILFG, -, hc⟩ := bind_ok hc
    obtain ⟨IRFG, -, hc⟩ := bind_ok hc
    obtain ⟨IRBG, -, hc⟩ := bind_ok hc
    obtain ⟨OLFG, -, hc⟩ := bind_ok hc
    obtain ⟨ORFG, -, hc⟩ := bind_ok hc
    obtain ⟨ORBG, -, hc⟩ := bind_ok hc
    obtain ⟨ILFT, k1, hc⟩ := bind_ok hc
    obtain ⟨IRFT, k2, hc⟩ := bind_ok hc
    obtain ⟨IRBT, k3, hc⟩ := bind_ok hc
    obtain ⟨OLFT, k4, hc⟩ := bind_ok hc
    obtain ⟨ORFT, k5, hc⟩ := bind_ok hc
    obtain ⟨ORBT, k6, hc⟩ := bind_ok hc
    obtain ⟨_, -, hc⟩ := bind_ok hc
    obtain ⟨_, -, hc⟩ := bind_ok hc
    obtain ⟨_, -, hc⟩ := bind_ok hc
    obtain ⟨_, -, hc⟩ := bind_ok hc
    obtain ⟨_, -, hc⟩ := bind_ok hc
    obtain rfl := Except.ok.inj hc
    exact ⟨edgeProjectZ_xy k4, edgeProjectZ_xy k5, edgeProjectZ_xy k6, edgeProjectZ_xy k3, edgeProjectZ_xy k2, edgeProjectZ_xy k1⟩
  obtain ⟨r1, r2, r3, r4, r5, r6⟩ := hrim
  refine ⟨?_, ⟨rfl, rfl, rfl, rfl, rfl, rfl, rfl, rfl⟩, rfl, rfl, rfl, n4, n1⟩
  unfold outerRim at ho
  dsimp only at ho
  obtain ⟨OLFT, -, ho⟩ := bind_ok ho
  obtain ⟨ORFT, -, ho⟩ := bind_ok ho
  obtain ⟨ORBT, -, ho⟩ := bind_ok ho
  obtain ⟨_, -, ho⟩ := bind_ok ho
  obtain ⟨_, -, ho⟩ := bind_ok ho
  obtain ⟨_, -, ho⟩ := bind_ok ho
  obtain ⟨_, -, ho⟩ := bind_ok ho
  obtain ⟨_, -, ho⟩ := bind_ok ho
  obtain rfl := Except.ok.inj ho
  unfold innerRim at hi
  dsimp only at hi
  obtain ⟨_, -, hi⟩ := bind_ok hi
  obtain ⟨_, -, hi⟩ := bind_ok hi
  obtain ⟨_, -, hi⟩ := bind_ok hi
  obtain ⟨_, -, hi⟩ := bind_ok hi
  obtain ⟨_, -, hi⟩ := bind_ok hi
  obtain ⟨_, -, hi⟩ := bind_ok hi
  obtain ⟨_, -, hi⟩ := bind_ok hi
  obtain ⟨⟨_, _, _⟩, -, hi⟩ := bind_ok hi
  obtain rfl := Except.ok.inj hi
  refine ⟨?_, ?_, ?_, xy0 _ _, xy0 _ _, xy0 _ _, ?_, ?_, ?_, xy0 _ _, xy0 _ _, xy0 _ _, n2, n3, n5, n6⟩
  · rw [down_xy, r1]
  · rw [down_xy, r2]
  · rw [down_xy, r3]
  · rw [down_xy, r4]
  · rw [down_xy, r5]
  · rw [down_xy, r6]

/-- **C83** The pieces of a body fit together, without a gap: with or without an encoder, brackets and a cable hole. The
holes for the keys and the threads have to be closed by their own triangles (C77, C78). -/
theorem C83_fit {cfg : KeyboardCfg} {fp : FullPlan} {body : Body} (h : Body.make cfg fp = .ok body)
    (hq : 0 < cfg.quality.maxChordAngle) (hw : 0 ≤ cfg.body.wallThickness)
    (hr : 1 / 1000000 ≤ cfg.outerCornerRadius - cfg.body.wallThickness)
    (hk : ∀ key ∈ body.keys.alnum ++ body.keys.pinky ++ body.keys.thumb,
      Closes key.triangles (cycPairs key.roofHoleO ++ cycPairs key.roofHoleI))
    (ht : ∀ boss ∈ [fp.bosses.alnumB, fp.bosses.pinkyB, fp.bosses.pinkyF, fp.bosses.thumbF],
      Closes boss.threadTriangles (cycPairs boss.threadHole))
    (he : ∀ ec ∈ cfg.encoder, SaneEncoder ec ∧ 0 < (body.step.alnumOLF.y - fp.plan.points.ridgeORF.y) * fp.plan.points.ridgeORF.x)
    (hb : ∀ bc ∈ cfg.bracket, body.ridge.ilft.y < fp.plan.points.ridgeIRF.y ∧ body.step.alnumILF.y ≤ body.inner.alnumILBT.y ∧
      CableApart cfg bc (fp.plan.points.alnumOLB.y - fp.plan.points.alnumILB.y)) :
    Fit (body.faces ++ body.pieces) [] := by
  unfold Body.make at h
  dsimp only at h
  obtain ⟨_, -, h⟩ := bind_ok h
  obtain ⟨keys, -, h⟩ := bind_ok h
  obtain ⟨c, h1, h⟩ := bind_ok h
  obtain ⟨s, h2, h⟩ := bind_ok h
  obtain ⟨o, h3, h⟩ := bind_ok h
  obtain ⟨i, h4, h⟩ := bind_ok h
  obtain ⟨e, h5, h⟩ := bind_ok h
  obtain ⟨r, h6, h⟩ := bind_ok h
  obtain ⟨j, h7, h⟩ := bind_ok h
  obtain ⟨_, -, h⟩ := bind_ok h
  obtain rfl := Except.ok.inj h
  dsimp only at hk he hb ⊢
  obtain ⟨rim, ridge, e1, e2, e3, n1, n2⟩ := rim_ok h1 h3 h4 h6
  have enc := encoder_ok hq (fun ec hec => (he ec hec).1) (fun ec hec => (he ec hec).2) h5
  refine fit_total.mpr fun g hg => ?_
  have joint : total g [face e.edgeI, face e.edgeO] + total g e.pieces + total g j.faces + total g (jointFaces j) + total g j.pieces +
      total g (jointPieces r j) + (g j.chamferC i.alnumILBC - g j.chamferT i.alnumILBT - g j.chamferC j.chamferT) +
      ridgeRest g fp.plan.points s o i r (c.OLFG.headD 0) (o.OLFC.headD 0) (o.OLFT.headD 0) = 0 := by
    cases hbr : cfg.bracket with
    | none =>
      rw [hbr] at h7
      exact joint_plain enc ridge h7 hg
    | some bc =>
      rw [hbr] at h7
      obtain ⟨b1, b2, b3⟩ := hb bc hbr
      exact joint_bracket hq enc ridge b1 (not_lt.mpr b2) b3 h7 hg
  have plate := plate_total (p := fp.plan.points) (s := s) (o := o) (i := i) hg hk rim.neIT rim.neOT
  have wall := wall_total (j := j) hg rim ht
  -- the corners at the ridge
  have front : (c.ILFG.getLastD 0).y = fp.plan.points.thumbILF.y ∧ (c.ILFG.getLastD 0).z = 0 ∧
      (c.OLFG.headD 0).y = fp.plan.points.thumbOLF.y ∧ (c.OLFG.headD 0).z = 0 := by
    unfold bodyCorners at h1
    dsimp only at h1
    obtain ⟨ILFG, k1, h1⟩ := bind_ok h1
    obtain ⟨_, -, h1⟩ := bind_ok h1
    obtain ⟨_, -, h1⟩ := bind_ok h1
    obtain ⟨OLFG, k2, h1⟩ := bind_ok h1
    obtain ⟨_, -, h1⟩ := bind_ok h1
    obtain ⟨_, -, h1⟩ := bind_ok h1
    obtain ⟨_, -, h1⟩ := bind_ok h1
    obtain ⟨_, -, h1⟩ := bind_ok h1
    obtain ⟨_, -, h1⟩ := bind_ok h1
    obtain ⟨_, -, h1⟩ := bind_ok h1
    obtain ⟨_, -, h1⟩ := bind_ok h1
    obtain ⟨_, -, h1⟩ := bind_ok h1
    obtain ⟨_, -, h1⟩ := bind_ok h1
    obtain ⟨_, -, h1⟩ := bind_ok h1
    obtain ⟨_, -, h1⟩ := bind_ok h1
    obtain ⟨_, -, h1⟩ := bind_ok h1
    obtain ⟨_, -, h1⟩ := bind_ok h1
    obtain rfl := Except.ok.inj h1
    obtain ⟨y1, z1⟩ := (corner_straight hr hq k1).2 rfl
    obtain ⟨y2, z2⟩ := (corner_straight (by linarith) hq k2).1 rfl
    exact ⟨y1, z1, y2, z2⟩
  obtain ⟨y1, z1, y2, z2⟩ := front
  have f1 : (i.ILFC.getLastD 0).xy = r.ilfg := by
    have := congrArg (fun l => l.getLastD 0) rim.ILFC
    simp only [getLastD_map _ n1, getLastD_map _ rim.neI] at this
    rw [this, e1]
    ext
    · rfl
    · rfl
    · exact z1.symm
  have f2 : (o.OLFC.headD 0).xy = c.OLFG.headD 0 := by
    have := congrArg (fun l => l.headD 0) rim.OLFC
    simp only [headD_map _ n2, headD_map _ rim.neO] at this
    rw [this]
    ext
    · rfl
    · rfl
    · exact z2.symm
  have f3 : fp.plan.points.thumbILF.yz.xy = r.ilfg.yz := by
    rw [e1]
    ext
    · rfl
    · exact y1.symm
    · exact z1.symm
  have f4 : fp.plan.points.thumbOLF.yz.xy = (c.OLFG.headD 0).yz := by
    ext
    · rfl
    · exact y2.symm
    · exact z2.symm
  rw [f1, f2, f3, f4, rim.alnumOLBC, rim.alnumILBC, ← e2, ← e3] at wall
  rw [← e3] at plate
  unfold ridgeRest at joint
  simp only [total_append, esum_nil]
  clear * - joint plate wall hg
  anti hg

end Chrumm.Part
