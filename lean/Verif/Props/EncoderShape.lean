import Verif.Props.PartEdges
import Verif.Props.KnobSucceeds
import Verif.Props.BodyChamfer

/-! The shape of the encoder hole (C98). -/

namespace Chrumm.Part
open Geo Geo.Spec Spec Classical

theorem align_placement {n pos : Vec} {m : Mat} (hn : Upwards n) (hu : NotAlmostUp n) (h : Mat.fromAlignment ⟨0, 0, 1⟩ n = .ok m) :
    Placement (fun p => p.transformed (m.translated pos)) pos n := by
  obtain ⟨-, -, hx⟩ := align_up pos hn h
  have ha : UnitOf (⟨0, 0, 1⟩ : Vec) ⟨0, 0, 1⟩ := ⟨by simp [Vec.dot], 1, one_pos, by ext <;> simp⟩
  have hb : UnitOf n n := ⟨hn.1, 1, one_pos, by ext <;> simp⟩
  have e := fromAlignment_eq ha hb
  have haff := fromAlignment_affine h
  rw [h] at e
  have hd : 1 + (⟨0, 0, 1⟩ : Vec).dot n = 1 + n.z := by simp [Vec.dot]
  have ht : ∀ v : Vec, v.transformed (m.translated pos) = v.transformed m + pos := by
    intro v
    rw [Mat.transformed_translated haff]
  have key : (Rigid fun v : Vec => v.transformed m) ∧ (0 : Vec).transformed m = 0 ∧ ∀ p : Vec, n.dot (p.transformed m) = p.z := by
    by_cases h1 : (⟨0, 0, 1⟩ : Vec).isClose n
    · rw [if_pos h1] at e
      obtain rfl := Except.ok.inj e
      rcases hu with rfl | hu
      · refine ⟨?_, (C21_monoid 1 1 1 0).2.2.2, fun p => ?_⟩
        · have := alignMat_rigid (s := ⟨0, 0, 1⟩) (t := ⟨0, 0, 1⟩) ha.1 ha.1 (by simp [Vec.dot])
          refine ⟨fun p q => by simp only [Vec.transformed_one], fun o p q r => by simp only [Vec.transformed_one]⟩
        · rw [Vec.transformed_one]; simp [Vec.dot]
      · exact absurd ((near_iff _ _).mpr h1) hu
    · have h2 : ¬ (⟨0, 0, 1⟩ : Vec).isClose (-n) := by
        intro h2
        rw [← near_iff] at h2
        have := (abs_lt.mp h2.2.2).2
        simp only [Vec.neg_z] at this
        norm_num at this
        linarith [hn.2]
      rw [if_neg h1, if_neg h2] at e
      obtain rfl := Except.ok.inj e
      have hne : 1 + (⟨0, 0, 1⟩ : Vec).dot n ≠ 0 := by rw [hd]; linarith [hn.2]
      have hz : (0 : Vec).transformed (alignMat ⟨0, 0, 1⟩ n) = 0 := by rw [alignMat_apply]; ext <;> simp [Vec.cross]
      refine ⟨alignMat_rigid ha.1 hb.1 hne, hz, fun p => ?_⟩
      have r := (alignMat_rigid ha.1 hb.1 hne).1
      have r1 := r p ⟨0, 0, 1⟩
      have r2 := r p 0
      beta_reduce at r1 r2
      rw [alignMat_maps ha.1 hb.1 hne] at r1
      rw [hz] at r2
      have h1 := hn.1
      generalize p.transformed (alignMat ⟨0, 0, 1⟩ n) = v at *
      simp only [distSq, Vec.dot, Vec.zero_x, Vec.zero_y, Vec.zero_z] at *
      linarith
  obtain ⟨k1, k2, k3⟩ := key
  refine ⟨⟨fun p q => ?_, fun o p q r => ?_⟩, ?_, fun p => ?_, hx⟩
  · rw [← k1.1 p q]
    simp only [ht, distSq, Vec.add_x, Vec.add_y, Vec.add_z]
    ring
  · rw [← k1.2 o p q r]
    simp only [ht, orient, Vec.add_x, Vec.add_y, Vec.add_z, add_sub_add_right_eq_sub]
  · rw [ht, k2]; ext <;> simp
  · rw [ht, ← k3 p]
    simp only [Vec.dot, Vec.sub_x, Vec.sub_y, Vec.sub_z, Vec.add_x, Vec.add_y, Vec.add_z]
    ring

theorem placement_shift {place : Vec → Vec} {pos n : Vec} (h : Placement place pos n) (hn : n.dot n = 1) (p : Vec) (k : ℝ) :
    place p + n * k = place ⟨p.x, p.y, p.z + k⟩ := by
  have h1 := h.rigid.1 ⟨p.x, p.y, p.z + k⟩ p
  have h2 := h.along ⟨p.x, p.y, p.z + k⟩
  have h3 := h.along p
  generalize place ⟨p.x, p.y, p.z + k⟩ = b at *
  generalize place p = a at *
  simp only [distSq, Vec.dot, Vec.sub_x, Vec.sub_y, Vec.sub_z] at *
  have e : (a.x + n.x * k - b.x) ^ 2 + (a.y + n.y * k - b.y) ^ 2 + (a.z + n.z * k - b.z) ^ 2 = 0 := by
    linear_combination h1 - 2 * k * h2 + 2 * k * h3 + k ^ 2 * hn
  have e1 : a.x + n.x * k - b.x = 0 := by nlinarith [sq_nonneg (a.x + n.x * k - b.x), sq_nonneg (a.y + n.y * k - b.y), sq_nonneg (a.z + n.z * k - b.z)]
  have e2 : a.y + n.y * k - b.y = 0 := by nlinarith [sq_nonneg (a.x + n.x * k - b.x), sq_nonneg (a.y + n.y * k - b.y), sq_nonneg (a.z + n.z * k - b.z)]
  have e3 : a.z + n.z * k - b.z = 0 := by nlinarith [sq_nonneg (a.x + n.x * k - b.x), sq_nonneg (a.y + n.y * k - b.y), sq_nonneg (a.z + n.z * k - b.z)]
  ext
  · simp only [Vec.add_x, Vec.mul_x]; linarith
  · simp only [Vec.add_y, Vec.mul_y]; linarith
  · simp only [Vec.add_z, Vec.mul_z]; linarith

/-- The points of an upright half hole. -/
theorem halfHole_wall {q : Quality} {taper : Option ℝ} {r : ℝ} {hole : List Vec} (hq : 0 < q.maxChordAngle) (hr : 1 / 1000000 ≤ r)
    (ht : ∀ a ∈ taper, a < Real.pi) (h : uprightHalfHole2D q taper r = .ok hole) :
    ∀ p ∈ hole, p.z = 0 ∧ HoleWall taper r ⟨p.y, p.x, 0⟩ := by
  have hr0 : 0 < r := by linarith
  have hpi := Real.pi_pos
  have up : ∀ {span : ℝ} {pts : List Vec}, 0 ≤ span → span ≤ Real.pi → arc2D q r 0 span 0 = .ok pts → ∀ p ∈ pts, p.z = 0 ∧
      p.x ^ 2 + p.y ^ 2 = r ^ 2 ∧ 0 ≤ p.y ∧ p.y ≤ r := by
    intro span pts h0 h1 h p hp
    obtain ⟨s, s0, s1, rfl⟩ := arc_between hr hq (by rw [abs_of_nonneg h0]; exact h1) h p hp
    have a0 : 0 ≤ s * span := mul_nonneg s0 h0
    have a1 : s * span ≤ Real.pi := le_trans (mul_le_of_le_one_left h0 s1) h1
    have n := Real.sin_nonneg_of_nonneg_of_le_pi a0 a1
    simp only [circlePoint, Vec.zero_x, Vec.zero_y, zero_add]
    refine ⟨trivial, ?_, mul_nonneg hr0.le n, mul_le_of_le_one_right hr0.le (Real.sin_le_one _)⟩
    linear_combination r ^ 2 * Real.sin_sq_add_cos_sq (s * span)
  have round : (∀ a ∈ taper, a ≤ 0) → arc2D q r 0 Real.pi 0 = .ok hole → ∀ p ∈ hole, p.z = 0 ∧ HoleWall taper r ⟨p.y, p.x, 0⟩ := by
    intro _ h p hp
    obtain ⟨h1, h2, h3, h4⟩ := up hpi.le le_rfl h p hp
    exact ⟨h1, h3, h4, by simp only; linarith, fun _ => by simp only; linarith, fun _ => abs_le_of_sq_le_sq (by simp only; linarith [sq_nonneg p.y]) hr0.le⟩
  unfold uprightHalfHole2D at h
  cases taper with
  | none => exact round (by simp) h
  | some angle =>
    dsimp only at h
    by_cases ha : 0 < angle
    · rw [if_pos ha] at h
      obtain ⟨arc, h1, h⟩ := bind_ok h
      obtain ⟨t, h2, h⟩ := bind_ok h
      obtain rfl := Except.ok.inj h
      have key : ∀ p ∈ arc ++ [⟨t, r, 0⟩], p.z = 0 ∧ 0 ≤ p.y ∧ p.y ≤ r ∧ r ^ 2 ≤ p.y ^ 2 + p.x ^ 2 ∧
          ((∀ a ∈ some angle, a ≤ Real.pi / 2) → |p.x| ≤ r) := by
        intro p hp
        rw [List.mem_append, List.mem_singleton] at hp
        rcases hp with hp | rfl
        · obtain ⟨h1, h2, h3, h4⟩ := up (by unfold tau; linarith) (by unfold tau; linarith) h1 p hp
          exact ⟨h1, h3, h4, by linarith, fun _ => abs_le_of_sq_le_sq (by linarith [sq_nonneg p.y]) hr0.le⟩
        · refine ⟨rfl, hr0.le, le_rfl, by linarith [sq_nonneg t], fun ht' => ?_⟩
          have ha2 := ht' angle rfl
          obtain ⟨-, rfl⟩ := pyDiv_val h2
          have c0 := Real.cos_pos_of_mem_Ioo ⟨by linarith, by linarith⟩ (x := angle / 2)
          have s0 := Real.sin_nonneg_of_nonneg_of_le_pi (x := angle / 2) (by linarith) (by linarith)
          have sc : Real.sin (angle / 2) ≤ Real.cos (angle / 2) := by
            rw [← Real.cos_pi_div_two_sub]
            exact Real.cos_le_cos_of_nonneg_of_le_pi (by linarith) (by linarith) (by linarith)
          rw [abs_of_nonneg (div_nonneg (mul_nonneg hr0.le s0) c0.le), div_le_iff₀ c0]
          exact mul_le_mul_of_nonneg_left sc hr0.le
      have hno : ¬ ∀ a ∈ some angle, a ≤ 0 := fun h => absurd (h angle rfl) (not_le.mpr ha)
      intro p hp
      rw [List.mem_append, List.mem_reverse, List.mem_map] at hp
      rcases hp with hp | ⟨v, hv, rfl⟩
      · obtain ⟨h1, h2, h3, h4, h5⟩ := key p hp
        exact ⟨h1, h2, h3, h4, fun h => absurd h hno, h5⟩
      · obtain ⟨h1, h2, h3, h4, h5⟩ := key v hv
        refine ⟨h1, h2, h3, ?_, fun h => absurd h hno, fun h => by simpa [Vec.mirroredX] using h5 h⟩
        simp only [Vec.mirroredX, neg_sq]
        exact h4
    · rw [if_neg ha] at h
      exact round (by simpa using ha) h

/-- **C98** The encoder hole has the shape that is configured, at the given position of the outer roof and along its normal. -/
theorem C98_shape {q : Quality} {taper : Option ℝ} {cfg : EncoderCfg} {roofO roofI : Plane} {e : Encoder}
    (hq : 0 < q.maxChordAngle) (hr : 1 / 1000000 ≤ cfg.holeDiameter / 2) (hch : 0 ≤ cfg.holeChamfer) (ht : ∀ a ∈ taper, a < Real.pi)
    (hn : Upwards roofO.normal) (hu : NotAlmostUp roofO.normal)
    (h : Encoder.make q taper cfg roofO roofI = .ok e) :
    EncoderShape taper cfg roofO.pos roofO.normal roofI e.pieces e.roofEdgeI e.roofEdgeO := by
  obtain ⟨m, hm, hole, hh, ratio, κ, ⟨hne, hdiv, hon⟩, rfl⟩ := encoder_data h hn
  have hp := align_placement (pos := roofO.pos) hn hu hm
  have hw := halfHole_wall hq hr ht hh
  obtain ⟨hr0, rfl⟩ := pyDiv_val hdiv
  clear h hm hh hdiv
  generalize hf : (fun p : Vec => p.transformed (m.translated roofO.pos)) = f at *
  have hax := placement_shift hp hn.1
  unfold EncoderShape
  refine ⟨f, hp, ?_⟩
  have hpt : ∀ p ∈ hole.map fun p => (⟨p.y, p.x, 0⟩ : Vec), p.z = 0 ∧ HoleWall taper (cfg.holeDiameter / 2) p := by
    intro p h1
    obtain ⟨v, hv, rfl⟩ := List.mem_map.mp h1
    exact ⟨rfl, (hw v hv).2⟩
  generalize (hole.map fun p => (⟨p.y, p.x, 0⟩ : Vec)) = arc at *
  have aT : ∀ x ∈ (edgeScaled arc (1 + cfg.holeChamfer / (cfg.holeDiameter / 2))).map f,
      ∃ p : Vec, x = f p ∧ p.z = 0 ∧ HoleWall taper (cfg.holeDiameter / 2 + cfg.holeChamfer) p := by
    intro x hx
    obtain ⟨p, hp, rfl⟩ := List.mem_map.mp hx
    refine ⟨p, rfl, ?_⟩
    obtain ⟨v, hv, rfl⟩ := List.mem_map.mp hp
    obtain ⟨z0, w1, w2, w3, w4, w5⟩ := hpt v hv
    have e1 : (1 + cfg.holeChamfer / (cfg.holeDiameter / 2)) * (cfg.holeDiameter / 2) = cfg.holeDiameter / 2 + cfg.holeChamfer := by
      rw [add_mul, one_mul, div_mul_cancel₀ _ hr0]
    have e0 : 0 ≤ 1 + cfg.holeChamfer / (cfg.holeDiameter / 2) := by
      have := div_nonneg hch (by linarith : 0 ≤ cfg.holeDiameter / 2)
      linarith
    generalize 1 + cfg.holeChamfer / (cfg.holeDiameter / 2) = k at *
    simp only [HoleWall, Vec.sub_x, Vec.sub_y, Vec.sub_z, Vec.add_x, Vec.add_y, Vec.add_z, Vec.mul_x, Vec.mul_y, Vec.mul_z, Vec.zero_x, Vec.zero_y,
      Vec.zero_z, sub_zero, add_zero, ← e1, z0, zero_mul, true_and]
    refine ⟨mul_nonneg w1 e0, ?_, ?_, fun hh => ?_, fun hh => ?_⟩
    · linarith [mul_le_mul_of_nonneg_left w2 e0]
    · linarith [mul_le_mul_of_nonneg_left w3 (sq_nonneg k)]
    · linear_combination k ^ 2 * w4 hh
    · rw [abs_mul, abs_of_nonneg (by linarith : 0 ≤ k), mul_comm]
      exact mul_le_mul_of_nonneg_left (w5 hh) (by linarith)
  have aZ : ∀ z : ℝ, ∀ x ∈ (edgeTranslated arc ⟨0, 0, z⟩).map f, ∃ p : Vec, x = f p ∧ p.z = z ∧ HoleWall taper (cfg.holeDiameter / 2) p := by
    intro z x hx
    obtain ⟨p, hp, rfl⟩ := List.mem_map.mp hx
    refine ⟨p, rfl, ?_⟩
    obtain ⟨v, hv, rfl⟩ := List.mem_map.mp hp
    obtain ⟨z0, w⟩ := hpt v hv
    simpa [HoleWall, z0] using w
  have hz : ∀ x y : ℝ, ∃ z, f ⟨x, y, -cfg.holeHeight⟩ + roofO.normal * κ (f ⟨x, y, -cfg.holeHeight⟩) = f ⟨x, y, z⟩ ∧
      OnPlane roofI.pos roofI.normal (f ⟨x, y, z⟩) := by
    intro x y
    refine ⟨-cfg.holeHeight + κ (f ⟨x, y, -cfg.holeHeight⟩), hax _ _, ?_⟩
    rw [← hax ⟨x, y, -cfg.holeHeight⟩]
    exact hon _
  obtain ⟨z0, e0, o0⟩ := hz 0 (cfg.depth / 2)
  obtain ⟨z1, e1, o1⟩ := hz (cfg.width / 2) (cfg.depth / 2)
  obtain ⟨z2, e2, o2⟩ := hz (cfg.width / 2 + cfg.pinNotchDepth) (cfg.depth / 2 - cfg.pinNotchDepth)
  obtain ⟨z3, e3, o3⟩ := hz (cfg.width / 2 + cfg.pinNotchDepth) (-(cfg.depth / 2 - cfg.pinNotchDepth))
  obtain ⟨z4, e4, o4⟩ := hz (cfg.width / 2) (-(cfg.depth / 2))
  obtain ⟨z5, e5, o5⟩ := hz 0 (-(cfg.depth / 2))
  intro r w d nd
  rw [e0, e1, e2, e3, e4, e5]
  refine ⟨_, _, _, z0, z1, z2, z3, z4, z5, rfl, ?_, rfl, aT, ?_, ?_, ?_⟩
  · simp only [List.mem_cons, List.not_mem_nil, or_false, forall_eq_or_imp, forall_eq]
    exact ⟨o0, o1, o2, o3, o4, o5⟩
  · intro x hx
    rw [piece_strip, List.mem_append] at hx
    rcases hx with hx | hx
    · obtain ⟨p, e, w⟩ := aZ _ x hx; exact ⟨p, e, .inr w⟩
    · obtain ⟨p, e, w⟩ := aT x hx; exact ⟨p, e, .inl w⟩
  · intro x hx
    rw [piece_strip, List.mem_append] at hx
    rcases hx with hx | hx
    · obtain ⟨p, e, z, w⟩ := aZ _ x hx; exact ⟨p, e, .inr z, w⟩
    · obtain ⟨p, e, z, w⟩ := aZ _ x hx; exact ⟨p, e, .inl z, w⟩
  · intro x hx
    rw [piece_face, List.flatten_nil, List.append_nil, List.mem_append, List.mem_reverse] at hx
    rcases hx with hx | hx
    · simp only [List.mem_cons, List.not_mem_nil, or_false] at hx
      rcases hx with rfl | rfl | rfl | rfl
      · exact ⟨_, rfl, rfl, .inr ⟨.inl rfl, rfl⟩⟩
      · exact ⟨_, rfl, rfl, .inr ⟨.inr rfl, rfl⟩⟩
      · exact ⟨_, rfl, rfl, .inr ⟨.inr rfl, abs_neg _⟩⟩
      · exact ⟨_, rfl, rfl, .inr ⟨.inl rfl, abs_neg _⟩⟩
    · obtain ⟨p, e, z, w⟩ := aZ _ x hx; exact ⟨p, e, z, .inl w⟩

/-- **C98** In the body, the encoder is in the middle between both halves, in the plate behind the ridge, where `relPosition` says between the ridge (0) and
the step (1); it is perpendicular to the plate; and the part of its box that is not beyond the middle is within the inner side of the plate. -/
theorem C98_body {cfg : KeyboardCfg} {fp : FullPlan} {body : Body} {ec : EncoderCfg} (hb : Body.make cfg fp = .ok body) (he : cfg.encoder = some ec)
    (hq : 0 < cfg.quality.maxChordAngle) (hr : 1 / 1000000 ≤ ec.holeDiameter / 2) (hch : 0 ≤ ec.holeChamfer) (ht : ∀ a ∈ cfg.taper, a < Real.pi)
    (hx : 0 < fp.plan.points.ridgeORF.x) (hy : fp.plan.points.ridgeORF.y < body.step.alnumOLF.y) :
    let a := fp.plan.points.ridgeORF
    let b := body.step.alnumOLF
    ∃ n roofI rimI rimO, UnitOf n ⟨0, a.z - b.z, b.y - a.y⟩ ∧
      OnPlane roofI.pos roofI.normal fp.plan.points.ridgeIRF ∧ OnPlane roofI.pos roofI.normal body.step.alnumILF ∧
      OnPlane roofI.pos roofI.normal ⟨0, fp.plan.points.ridgeIRF.y, fp.plan.points.ridgeIRF.z⟩ ∧
      body.encoder.edgeI = [body.step.alnumILF.yz, body.step.alnumILF, fp.plan.points.ridgeIRF, fp.plan.points.ridgeIRF.yz] ++ rimI ∧
      body.encoder.edgeO = [a.yz, a, b, b.yz] ++ rimO ∧
      (∀ v ∈ rimI, 0 < v.x → Odd ((cycPairs [body.step.alnumILF.yz, body.step.alnumILF, fp.plan.points.ridgeIRF,
        fp.plan.points.ridgeIRF.yz]).countP fun s => decide (RayCross v s.1 s.2))) ∧
      (NotAlmostUp n → EncoderShape cfg.taper ec ⟨0, a.y + (b.y - a.y) * ec.relPosition, a.z + (b.z - a.z) * ec.relPosition⟩ n roofI
        body.encoder.pieces rimI rimO) := by
  intro a b
  have h := (body_parts hb).encoder
  rw [he] at h
  generalize body.encoder = eh at *
  unfold encoderHole at h
  dsimp only at h
  obtain ⟨planeI, i1, h⟩ := bind_ok h
  obtain ⟨planeO, i2, h⟩ := bind_ok h
  obtain ⟨plane, i3, h⟩ := bind_ok h
  obtain ⟨k, i4, h⟩ := bind_ok h
  split_ifs at h with hin
  obtain rfl := Except.ok.inj h
  obtain ⟨o1, o2⟩ := plane_make i2
  obtain ⟨p1, p2⟩ := plane_make i3
  obtain ⟨q1, q2⟩ := plane_make i1
  have hu : UnitOf plane.normal ⟨0, a.z - b.z, b.y - a.y⟩ := by
    have e1 : plane.normal = planeO.normal := p2.unique ⟨o2.1, 1, one_pos, by ext <;> simp⟩
    rw [e1]
    obtain ⟨o2, k, hk, o3⟩ := o2
    refine ⟨o2, k / a.x, div_pos hk hx, ?_⟩
    have x1 := congrArg Vec.x o3
    have y1 := congrArg Vec.y o3
    have z1 := congrArg Vec.z o3
    simp only [Vec.cross, Vec.sub_x, Vec.sub_y, Vec.sub_z, Vec.yz, Vec.mul_x, Vec.mul_y, Vec.mul_z] at x1 y1 z1
    have hx0 : a.x ≠ 0 := hx.ne'
    ext
    · simp only [Vec.mul_x]
      rw [mul_div_assoc', ← x1]
      field_simp
      ring
    · simp only [Vec.mul_y]
      rw [mul_div_assoc', ← y1, eq_div_iff hx0]
      ring
    · simp only [Vec.mul_z]
      rw [mul_div_assoc', ← z1, eq_div_iff hx0]
      ring
  have hup : Upwards plane.normal := by
    refine ⟨hu.1, ?_⟩
    obtain ⟨-, k, hk, o3⟩ := hu
    have z1 := congrArg Vec.z o3
    simp only [Vec.mul_z] at z1
    have : 0 < plane.normal.z * k := by
      rw [← z1]; change 0 < body.step.alnumOLF.y - fp.plan.points.ridgeORF.y; linarith
    exact pos_of_mul_pos_left this hk.le
  have hon : ∀ v : Vec, (v - body.step.alnumILF).dot ((body.step.alnumILF - fp.plan.points.ridgeIRF).cross
      (fp.plan.points.ridgeIRF.yz - fp.plan.points.ridgeIRF)) = 0 → OnPlane planeI.pos planeI.normal v := by
    intro v hv
    obtain ⟨-, k, hk, q3⟩ := q2
    rw [q3] at hv
    have : (v - body.step.alnumILF).dot planeI.normal * k = 0 := by
      rw [← hv]; simp only [Vec.dot, Vec.mul_x, Vec.mul_y, Vec.mul_z]; ring
    have := (mul_eq_zero.mp this).resolve_right hk.ne'
    rw [q1]
    simp only [OnPlane, Vec.dot] at this ⊢
    linarith
  have hpos : plane.pos = ⟨0, a.y + (b.y - a.y) * ec.relPosition, a.z + (b.z - a.z) * ec.relPosition⟩ := by
    rw [p1]
    ext <;> simp only [Vec.add_x, Vec.add_y, Vec.add_z, Vec.mul_x, Vec.mul_y, Vec.mul_z, Vec.yz] <;> ring
  refine ⟨plane.normal, planeI, k.roofEdgeI, k.roofEdgeO, hu, hon _ ?_, hon _ ?_, hon _ ?_, rfl, rfl, ?_, fun hh => ?_⟩
  · simp only [Vec.dot, Vec.cross, Vec.sub_x, Vec.sub_y, Vec.sub_z, Vec.yz]; ring
  · simp only [Vec.dot, Vec.cross, Vec.sub_x, Vec.sub_y, Vec.sub_z, Vec.yz]; ring
  · simp only [Vec.dot, Vec.cross, Vec.sub_x, Vec.sub_y, Vec.sub_z, Vec.yz]; ring
  · intro v hv h0
    rw [← C34_even_odd]
    by_contra hc
    apply hin
    rw [List.any_eq_true]
    exact ⟨v, hv, by simp [h0, hc]⟩
  · have := C98_shape hq hr hch ht hup hh i4
    rw [hpos] at this
    exact this

theorem index_some {α : Type} {l : List α} (h : l ≠ []) : (∃ x, pyIndex l 0 = .ok x) ∧ ∃ x, pyIndex l (-1) = .ok x := by
  constructor
  · obtain ⟨a, t, rfl⟩ := List.exists_cons_of_ne_nil h
    exact ⟨a, pyIndex_zero.mpr rfl⟩
  · exact ⟨_, pyIndex_last.mpr (List.getLast?_eq_some_getLast h)⟩

/-- **C98** Encoder holes can be made if both sides of the roof are not perpendicular and the allowed deviation is smaller than the hole. -/
theorem C98_succeeds {q : Quality} {taper : Option ℝ} {cfg : EncoderCfg} {roofO roofI : Plane}
    (hq : 0 < q.maxChordAngle) (hh : 0 < q.maxChordHeight) (hr : 1 / 1000000 ≤ cfg.holeDiameter / 2) (hf : q.maxChordHeight ≤ cfg.holeDiameter)
    (ht : ∀ a ∈ taper, a < Real.pi) (hn : Upwards roofO.normal) (hd : 1e-6 ≤ roofI.normal.dot roofO.normal) :
    ∃ e, Encoder.make q taper cfg roofO roofI = .ok e := by
  obtain ⟨m, hm⟩ : ∃ m, Mat.fromAlignment ⟨0, 0, 1⟩ roofO.normal = .ok m := by
    have ha : UnitOf (⟨0, 0, 1⟩ : Vec) ⟨0, 0, 1⟩ := ⟨by simp [Vec.dot], 1, one_pos, by ext <;> simp⟩
    have hb : UnitOf roofO.normal roofO.normal := ⟨hn.1, 1, one_pos, by ext <;> simp⟩
    rw [fromAlignment_eq ha hb]
    split_ifs <;> exact ⟨_, rfl⟩
  have hpi := Real.pi_pos
  obtain ⟨hole, h1, hne⟩ : ∃ hole, uprightHalfHole2D q taper (cfg.holeDiameter / 2) = .ok hole ∧ hole ≠ [] := by
    have : ∃ hole, uprightHalfHole2D q taper (cfg.holeDiameter / 2) = .ok hole := by
      cases taper with
      | none =>
        rw [(C67_round q _ none (by simp)).2]
        exact ((C53_succeeds q _ 0 Real.pi 0 hq hh).2.1 hr).mpr ⟨by linarith, hpi.ne'⟩
      | some angle => exact (C67_succeeds q _ angle hq hh hr (by linarith) (ht angle rfl)).2
    obtain ⟨hole, h1⟩ := this
    refine ⟨hole, h1, ?_⟩
    rintro rfl
    cases taper with
    | none =>
      rw [(C67_round q _ none (by simp)).2] at h1
      have := (C53_ends hr hq h1).1
      simp at this
    | some angle =>
      unfold uprightHalfHole2D at h1
      dsimp only at h1
      split_ifs at h1
      · obtain ⟨arc, -, h1⟩ := bind_ok h1
        obtain ⟨t, -, h1⟩ := bind_ok h1
        have := Except.ok.inj h1
        simp at this
      · have := (C53_ends hr hq h1).1
        simp at this
  have h2 : pyDiv cfg.holeChamfer (cfg.holeDiameter / 2) = .ok (cfg.holeChamfer / (cfg.holeDiameter / 2)) := by
    unfold pyDiv; rw [if_neg (by linarith)]
  have hdrop : ∀ p : Vec, ∃ v, (do let line ← Line.make p roofO.normal; roofI.intersectLine line) = .ok v := by
    intro p
    have hu : UnitOf roofO.normal roofO.normal := ⟨hn.1, 1, one_pos, by ext <;> simp⟩
    unfold Line.make
    rw [hu.normalized]
    change ∃ v, roofI.intersectLine ⟨p, roofO.normal⟩ = .ok v
    unfold Plane.intersectLine
    dsimp only
    rw [if_neg]
    · unfold pyDiv
      rw [if_neg (by norm_num at hd; intro h; linarith)]
      exact ⟨_, rfl⟩
    · rw [isZero_iff, not_lt]
      exact le_trans hd (le_abs_self _)
  unfold Encoder.make
  dsimp only
  have na : (hole.map fun p => (⟨p.y, p.x, 0⟩ : Vec)) ≠ [] := by simpa using hne
  rw [hm, value_bind, h1, value_bind, h2, value_bind]
  generalize (hole.map fun p => (⟨p.y, p.x, 0⟩ : Vec)) = arc at *
  obtain ⟨boxG, h3⟩ := mapM_ok_of (edgeTransformed (encoderBox cfg) (m.translated roofO.pos))
    (f := fun p => do let line ← Line.make p roofO.normal; roofI.intersectLine line) fun p _ => hdrop p
  rw [h3, value_bind]
  have n0 : boxG ≠ [] := by
    rintro rfl
    have := (mapM_ok h3).length_eq
    simp [edgeTransformed, encoderBox] at this
  have hi : ∀ i : ℤ, (i = 0 ∨ i = 1 ∨ i = 4 ∨ i = 5) → ∃ t, pyIndex (edgeTransformed (encoderBox cfg) (m.translated roofO.pos)) i = .ok t := by
    rintro i (rfl | rfl | rfl | rfl) <;> exact ⟨_, rfl⟩
  obtain ⟨t0, k0⟩ := hi 0 (by simp)
  obtain ⟨t1, k1⟩ := hi 1 (by simp)
  obtain ⟨t4, k4⟩ := hi 4 (by simp)
  obtain ⟨t5, k5⟩ := hi 5 (by simp)
  rw [k0, value_bind, k1, value_bind, k4, value_bind, k5, value_bind]
  have n1 : edgeTransformed (edgeTranslated arc ⟨0, 0, -cfg.holeHeight⟩) (m.translated roofO.pos) ≠ [] := by simpa [edgeTransformed, edgeTranslated] using na
  have n2 : edgeTransformed (edgeTranslated arc ⟨0, 0, -cfg.holeChamfer⟩) (m.translated roofO.pos) ≠ [] := by simpa [edgeTransformed, edgeTranslated] using na
  have n3 : edgeTransformed (edgeScaled arc (1 + cfg.holeChamfer / (cfg.holeDiameter / 2))) (m.translated roofO.pos) ≠ [] := by simpa [edgeTransformed, edgeScaled] using na
  have hall : ∀ es : List (List Vec), (∀ e ∈ es, e ≠ []) → (∃ F, es.mapM (fun e => pyIndex e (-1)) = .ok F) ∧ ∃ F, es.mapM (fun e => pyIndex e 0) = .ok F :=
    fun es h => ⟨mapM_ok_of es (f := fun e => pyIndex e (-1)) fun e he => (index_some (h e he)).2,
      mapM_ok_of es (f := fun e => pyIndex e 0) fun e he => (index_some (h e he)).1⟩
  have h5 : ∀ e ∈ [boxG, [t0, t1, t1, t4, t4, t5], edgeTransformed (edgeTranslated arc ⟨0, 0, -cfg.holeHeight⟩) (m.translated roofO.pos),
      edgeTransformed (edgeTranslated arc ⟨0, 0, -cfg.holeChamfer⟩) (m.translated roofO.pos),
      edgeTransformed (edgeScaled arc (1 + cfg.holeChamfer / (cfg.holeDiameter / 2))) (m.translated roofO.pos)], e ≠ [] := by
    intro e he
    simp only [List.mem_cons, List.not_mem_nil, or_false] at he
    rcases he with rfl | rfl | rfl | rfl | rfl
    · exact n0
    · exact List.cons_ne_nil _ _
    · exact n1
    · exact n2
    · exact n3
  obtain ⟨F, hF⟩ := (hall _ fun e he => h5 e (List.mem_reverse.mp he)).1
  obtain ⟨B, hB⟩ := (hall _ h5).2
  rw [hF, value_bind]
  rw [hB, value_bind]
  exact ⟨_, rfl⟩

/-- The encoder of the default configuration fits on a plate that is inclined by some angle. -/
example : ∃ e, Encoder.make ⟨0.01, 30 * Real.pi / 180⟩ (some (Real.pi / 4)) ⟨14, 12.5, 7.3, 3, 0.2, 0.8, 1 / 2⟩ ⟨⟨0, 10, 20⟩, ⟨0, -3 / 5, 4 / 5⟩⟩
      ⟨⟨0, 9, 16⟩, ⟨0, -3 / 5, 4 / 5⟩⟩ = .ok e ∧
    EncoderShape (some (Real.pi / 4)) ⟨14, 12.5, 7.3, 3, 0.2, 0.8, 1 / 2⟩ ⟨0, 10, 20⟩ ⟨0, -3 / 5, 4 / 5⟩ ⟨⟨0, 9, 16⟩, ⟨0, -3 / 5, 4 / 5⟩⟩
      e.pieces e.roofEdgeI e.roofEdgeO := by
  have hpi := Real.pi_pos
  have hup : Upwards ⟨0, -3 / 5, 4 / 5⟩ := by constructor <;> norm_num [Vec.dot]
  have ht : ∀ a ∈ some (Real.pi / 4), a < Real.pi := by
    intro a ha
    obtain rfl := Option.some.inj ha
    linarith
  have hq : 0 < 30 * Real.pi / 180 := by positivity
  obtain ⟨e, he⟩ := C98_succeeds (q := ⟨0.01, 30 * Real.pi / 180⟩) (taper := some (Real.pi / 4)) (cfg := ⟨14, 12.5, 7.3, 3, 0.2, 0.8, 1 / 2⟩)
    (roofO := ⟨⟨0, 10, 20⟩, ⟨0, -3 / 5, 4 / 5⟩⟩) (roofI := ⟨⟨0, 9, 16⟩, ⟨0, -3 / 5, 4 / 5⟩⟩) hq (by norm_num) (by norm_num) (by norm_num) ht hup
    (by norm_num [Vec.dot])
  refine ⟨e, he, C98_shape hq (by norm_num) (by norm_num) ht hup (.inr ?_) he⟩
  rintro ⟨-, h, -⟩
  norm_num at h

end Chrumm.Part
