import Verif.Props.PlanFinal

/-! **C68**–**C74** The finished plan. -/

namespace Chrumm.Part
open Geo Geo.Spec Spec

variable {cfg : PlanCfg} {side : Side} {plan : Plan}

theorem Made.motionD (h : Made cfg side plan) : Motion h.D := by rw [h.hD]; exact shift_motion _
theorem Made.motionM (h : Made cfg side plan) : Motion h.M := by rw [h.hM]; exact tiltSplit_motion _

/-- All keys of the plan, in terms of the flat layout. -/
theorem Made.layout0 (h : Made cfg side plan) :
    plan.layout = h.l0.moved (h.a * (h.M * h.D)) (h.p * (h.M * h.D)) (h.t * (h.M * h.D)) := by
  rw [h.layout, h.hL, h.arranged.layout, Layout.moved_moved, Layout.moved_moved]

theorem Made.two (h : Made cfg side plan) : TwoGroups plan.layout := by
  rw [h.layout0]; exact (make_two h.arranged.make).moved _ _ _

/-- The keys of a group. -/
noncomputable def groupOf (l : Layout) (s : Option Side) : Group → List Key
  | .alnum => fingers l 0 s
  | .pinky => fingers l 1 s
  | .thumb => thumbs l s

theorem groupOf_ok {l : Layout} (h : TwoGroups l) (s : Option Side) (g : Group) : g.keys l s = .ok (groupOf l s g) := by
  cases g
  · exact alnum_ok h s
  · exact pinky_ok h s
  · exact congrArg _ (thumbs_eq l s)

noncomputable def Made.motionOf (h : Made cfg side plan) : Group → Mat
  | .alnum => h.a
  | .pinky => h.p
  | .thumb => h.t

theorem Made.groupOf (h : Made cfg side plan) (s : Option Side) (g : Group) :
    groupOf plan.layout s g = (Part.groupOf h.l0 s g).map (·.transform (h.motionOf g * (h.M * h.D))) := by
  rw [h.layout0]
  cases g
  · exact fingers_moved _ _ _ _ _ (by norm_num) s
  · exact fingers_moved _ _ _ _ _ (by norm_num) s
  · exact thumbs_moved _ _ _ _ s

theorem Made.flat (h : Made cfg side plan) : ∃ f, KeyFactory.make cfg.switch cfg.body.roofThickness = .ok f ∧
    ∀ s g, ∀ k ∈ Part.groupOf h.l0 s g, Flat f k := by
  obtain ⟨f, hf, h1, h2⟩ := make_flat h.arranged.make
  refine ⟨f, hf, fun s g k hk => ?_⟩
  cases g
  · exact h1 0 (by norm_num) s k hk
  · exact h1 1 (by norm_num) s k hk
  · exact h2 s k hk

/-- What the motions do to points: tenting in terms of the tent's rotation. -/
theorem Made.tentZ (h : Made cfg side plan) (g : Group) :
    (∀ v : Vec, (g.roofO plan).distance (v.transformed (h.motionOf g * (h.M * h.D))) = v.z) ∧
    (∀ v : Vec, (g.roofI plan).distance (v.transformed (h.motionOf g * (h.M * h.D))) = v.z + cfg.body.roofThickness) ∧
    UnitPlane (g.roofO plan) ∧ UnitPlane (g.roofI plan) := by
  obtain ⟨off, kA, kP, dy, hoff, ea, ep, et, -⟩ := h.arranged.parts
  have hz : off.z = 0 := by
    unfold tentCreaseOffset at hoff
    dsimp only at hoff
    obtain ⟨_, -, hoff⟩ := bind_ok hoff
    obtain ⟨_, -, hoff⟩ := bind_ok hoff
    cases hoff
    rfl
  obtain ⟨t1, t2, t3, t4, t5, t6, t7, t8, t9, t10⟩ := h.tent
  have tok := h.tentOk
  obtain ⟨aa, ap, at'⟩ := arranged_motions h.arranged
  cases g
  · refine ⟨fun v => ?_, fun v => ?_, (t2 tok.alnumOT.1).1, (t1 tok.alnumIT.1).1⟩
    · show plan.tent.alnumOT.distance _ = _
      rw [show h.motionOf .alnum = h.a from rfl, Mat.transformed_mul aa.1, (t2 tok.alnumOT.1).2, ea,
        Mat.transformed_mul (shift_motion _).1, tok.alnumOT.2, shift_apply]
      simp [hz]
    · show plan.tent.alnumIT.distance _ = _
      rw [show h.motionOf .alnum = h.a from rfl, Mat.transformed_mul aa.1, (t1 tok.alnumIT.1).2, ea,
        Mat.transformed_mul (shift_motion _).1, tok.alnumIT.2, shift_apply]
      simp [hz]
  · refine ⟨fun v => ?_, fun v => ?_, (t10 tok.pinkyOT.1).1, (t9 tok.pinkyIT.1).1⟩
    · show plan.tent.pinkyOT.distance _ = _
      rw [show h.motionOf .pinky = h.p from rfl, Mat.transformed_mul ap.1, (t10 tok.pinkyOT.1).2, ep, tok.pinkyOT.2]
    · show plan.tent.pinkyIT.distance _ = _
      rw [show h.motionOf .pinky = h.p from rfl, Mat.transformed_mul ap.1, (t9 tok.pinkyIT.1).2, ep, tok.pinkyIT.2]
  · have slide : ∀ w : Vec, (w.transformed (turn cfg.body.thumbTentAngle h.pivot)) + ⟨0, dy, 0⟩ =
        (w + ⟨0, dy, 0⟩).transformed (turn cfg.body.thumbTentAngle h.pivot) := by
      intro w
      rw [turn_apply, turn_apply]
      ext <;> simp
    refine ⟨fun v => ?_, fun v => ?_, (t6 tok.thumbOT.1).1, (t5 tok.thumbIT.1).1⟩
    · show plan.tent.thumbOT.distance _ = _
      rw [show h.motionOf .thumb = h.t from rfl, Mat.transformed_mul at'.1, (t6 tok.thumbOT.1).2, et,
        Mat.transformed_mul ((shift_motion _).mul (turn_motion _ _)).1, Mat.transformed_mul (shift_motion _).1,
        shift_apply ⟨0, dy, 0⟩, slide, tok.thumbOT.2, shift_apply]
      simp [hz]
    · show plan.tent.thumbIT.distance _ = _
      rw [show h.motionOf .thumb = h.t from rfl, Mat.transformed_mul at'.1, (t5 tok.thumbIT.1).2, et,
        Mat.transformed_mul ((shift_motion _).mul (turn_motion _ _)).1, Mat.transformed_mul (shift_motion _).1,
        shift_apply ⟨0, dy, 0⟩, slide, tok.thumbIT.2, shift_apply]
      simp [hz]

/-- **C68** Every switch sits flush in the roof of its group: a point of the switch that is `z` above the top of the switch
hole, in the coordinates of the key, is `z` above the outer roof, and `z` plus the roof's thickness above the inner roof. -/
theorem C68_flush (h : Plan.make cfg side = .ok plan) (g : Group) (s : Option Side) :
    ∃ ks, g.keys plan.layout s = .ok ks ∧ UnitNormal (g.roofO plan) ∧ UnitNormal (g.roofI plan) ∧ ∀ k ∈ ks, ∀ v : Vec,
      above (g.roofO plan) (v.transformed k.matrix) = v.z ∧
      above (g.roofI plan) (v.transformed k.matrix) = v.z + cfg.body.roofThickness := by
  obtain ⟨hm⟩ := make_made h
  obtain ⟨z1, z2, u1, u2⟩ := hm.tentZ g
  obtain ⟨f, -, hflat⟩ := hm.flat
  refine ⟨_, groupOf_ok hm.two s g, (unitNormal_iff _).mpr u1, (unitNormal_iff _).mpr u2, fun k hk v => ?_⟩
  rw [hm.groupOf] at hk
  obtain ⟨k0, hk0, rfl⟩ := List.mem_map.mp hk
  have fl := hflat s g k0 hk0
  rw [Key.point_transform fl.motion.1, above_eq, above_eq, z1, z2, fl.level]
  exact ⟨rfl, rfl⟩

theorem Made.layout1 (h : Made cfg side plan) : plan.layout = h.l1.moved (h.M * h.D) (h.M * h.D) (h.M * h.D) := by
  rw [h.layout, h.hL, Layout.moved_moved]

theorem Made.affine1 (h : Made cfg side plan) (s : Option Side) : ∀ k ∈ keys h.l1 s, Mat.Affine k.matrix :=
  arranged_affine h.arranged

theorem Made.affineL (h : Made cfg side plan) (s : Option Side) : ∀ k ∈ keys h.L s, Mat.Affine k.matrix := by
  rw [h.hL]; exact moved_affine h.motionM.1 (h.affine1 s)

/-- Bounds and planes that are moved together. -/
theorem carried_keys {m : Mat} {p p' : Plane} (hu : UnitPlane p) (hc : CarriedBy m p p') {ks ks' : List Key}
    (ha : ∀ k ∈ ks, Mat.Affine k.matrix) (hk : ks' = ks.map (·.transform m)) (P : ℝ → Prop) :
    ((∀ k ∈ ks, ∀ v ∈ k.boundsI, P (p.distance v)) → ∀ k ∈ ks', ∀ v ∈ k.boundsI, P (above p' v)) ∧
    ((∀ k ∈ ks, ∀ v ∈ k.boundsO, P (p.distance v)) → ∀ k ∈ ks', ∀ v ∈ k.boundsO, P (above p' v)) ∧
    ((∀ k ∈ ks, ∀ v ∈ k.bounds, P (p.distance v)) → ∀ k ∈ ks', ∀ v ∈ k.bounds, P (above p' v)) := by
  subst hk
  refine ⟨fun h k hk v hv => ?_, fun h k hk v hv => ?_, fun h k hk v hv => ?_⟩ <;>
    obtain ⟨k0, hk0, rfl⟩ := List.mem_map.mp hk
  · rw [Key.boundsI_transform (ha k0 hk0)] at hv
    obtain ⟨v0, hv0, rfl⟩ := List.mem_map.mp hv
    rw [above_eq, (hc hu).2]; exact h k0 hk0 v0 hv0
  · rw [Key.boundsO_transform (ha k0 hk0)] at hv
    obtain ⟨v0, hv0, rfl⟩ := List.mem_map.mp hv
    rw [above_eq, (hc hu).2]; exact h k0 hk0 v0 hv0
  · rw [Key.bounds_transform (ha k0 hk0)] at hv
    obtain ⟨v0, hv0, rfl⟩ := List.mem_map.mp hv
    rw [above_eq, (hc hu).2]; exact h k0 hk0 v0 hv0

theorem rotX_transformed (a : ℝ) (v : Vec) : v.transformed ((1 : Mat).rotatedX a) =
    ⟨v.x, v.y * Real.cos a - v.z * Real.sin a, v.y * Real.sin a + v.z * Real.cos a⟩ := by
  unfold Mat.rotatedX Mat.rotateBy
  dsimp only
  rw [one_mul_mat]
  ext <;> simp [Vec.transformed] <;> ring

theorem tiltSplit_apply (body : BodyCfg) (v : Vec) : v.transformed (tiltSplitMatrix body) =
    (v.transformed ((1 : Mat).rotatedX body.tiltAngle)).transformed ((1 : Mat).rotatedZ body.splitAngle) := by
  rw [tiltSplit_eq, Mat.transformed_mul (rotX_motion _ _).1]

theorem tiltSplit_onto (body : BodyCfg) (v : Vec) : ∃ w : Vec, w.transformed (tiltSplitMatrix body) = v := by
  obtain ⟨x, y, z⟩ := v
  have h1 := Real.sin_sq_add_cos_sq body.tiltAngle
  have h2 := Real.sin_sq_add_cos_sq body.splitAngle
  refine ⟨⟨x * Real.cos body.splitAngle + y * Real.sin body.splitAngle,
    (y * Real.cos body.splitAngle - x * Real.sin body.splitAngle) * Real.cos body.tiltAngle + z * Real.sin body.tiltAngle,
    z * Real.cos body.tiltAngle - (y * Real.cos body.splitAngle - x * Real.sin body.splitAngle) * Real.sin body.tiltAngle⟩, ?_⟩
  rw [tiltSplit_apply, rotX_transformed, rotZ_transformed]
  generalize Real.sin body.splitAngle = s at *
  generalize Real.cos body.splitAngle = c at *
  generalize Real.sin body.tiltAngle = s' at *
  generalize Real.cos body.tiltAngle = c' at *
  ext
  · dsimp only
    linear_combination x * h2 - s * (y * c - x * s) * h1
  · dsimp only
    linear_combination y * h2 + c * (y * c - x * s) * h1
  · dsimp only
    linear_combination z * h1

theorem Made.onto (h : Made cfg side plan) (v : Vec) : ∃ w : Vec, w.transformed (h.M * h.D) = v := by
  obtain ⟨w, hw⟩ := tiltSplit_onto cfg.body (v - ⟨h.dx, 0, h.dz⟩)
  refine ⟨w, ?_⟩
  rw [Mat.transformed_mul h.motionM.1, h.hM, hw, h.hD, shift_apply]
  ext <;> simp

theorem Made.ontoD (h : Made cfg side plan) (v : Vec) : ∃ w : Vec, w.transformed h.D = v := by
  refine ⟨v - ⟨h.dx, 0, h.dz⟩, ?_⟩
  rw [h.hD, shift_apply]
  ext <;> simp

/-- Distances of planes that are moved together. -/
theorem carried_gap {m : Mat} (hm : ∀ v : Vec, ∃ w : Vec, w.transformed m = v) {p p' q q' : Plane} (hp : UnitPlane p) (hq : UnitPlane q) (hc : CarriedBy m p p')
    (hd : CarriedBy m q q') {c : ℝ} (h : ∀ v, p.distance v = q.distance v + c) (v : Vec) : above p' v = above q' v + c := by
  obtain ⟨w, rfl⟩ := hm v
  rw [above_eq, above_eq, (hc hp).2 w, (hd hq).2 w, h]

/-- **C69** The walls enclose the keys: seen from the front, back and sides, no key (its switch inside of the body, its cap
outside of the body, with the configured margins) sticks through a wall. -/
theorem C69_front_back (h : Plan.make cfg side = .ok plan) :
    ∃ all, plan.layout.all none = .ok all ∧ ∀ k ∈ all,
      (∀ p ∈ k.boundsI, 0 ≤ above plan.walls.alnumIB p ∧ 0 ≤ above plan.walls.pinkyIF p) ∧
      ∀ p ∈ k.boundsO, 0 ≤ above plan.walls.alnumOB p ∧ 0 ≤ above plan.walls.pinkyOF p := by
  obtain ⟨hm⟩ := make_made h
  have w := hm.wallsOk
  obtain ⟨w1, w2, w3, w4⟩ := hm.walls
  have e : keys plan.layout none = (keys hm.L none).map (·.transform hm.D) := by rw [hm.layout, keys_moved]
  have aff := hm.affineL none
  refine ⟨keys plan.layout none, allKeys_ok hm.two none, fun k hk => ⟨fun p hp => ⟨?_, ?_⟩, fun p hp => ⟨?_, ?_⟩⟩⟩
  · exact (carried_keys w.alnumIB.1 w1 aff e (0 ≤ ·)).1 w.keysIB k hk p hp
  · exact (carried_keys w.pinkyIF.1 w3 aff e (0 ≤ ·)).1 w.keysIF k hk p hp
  · exact (carried_keys w.alnumOB.1 w2 aff e (0 ≤ ·)).2.1 w.keysOB k hk p hp
  · exact (carried_keys w.pinkyOF.1 w4 aff e (0 ≤ ·)).2.1 w.keysOF k hk p hp

theorem mem_keys {l : Layout} {s : Option Side} (g : Group) {k : Key} (h : k ∈ groupOf l s g) : k ∈ keys l s := by
  unfold keys
  cases g <;> simp only [groupOf] at h <;> simp [h]

theorem Made.group1 (h : Made cfg side plan) (s : Option Side) (g : Group) :
    Part.groupOf plan.layout s g = (Part.groupOf h.l1 s g).map (·.transform (h.M * h.D)) := by
  rw [h.layout1]
  cases g
  · exact fingers_moved _ _ _ _ _ (by norm_num) s
  · exact fingers_moved _ _ _ _ _ (by norm_num) s
  · exact thumbs_moved _ _ _ _ s

/-- **C69** The alnum keys stay right of the plane of their left edge, which is the leftmost bound of the keys, and behind
the wall between the alnum and the thumb keys; the thumb keys stay in front of it. -/
theorem C69_alnum (h : Plan.make cfg side = .ok plan) :
    ∃ alnum, plan.layout.alnum none = .ok alnum ∧
      (∀ k ∈ alnum, (∀ p ∈ k.bounds, 0 ≤ above plan.sides.alnumIL p ∧ 0 ≤ above plan.sides.alnumOL p) ∧
        (∀ p ∈ k.boundsI, 0 ≤ above plan.sides.alnumIF p) ∧ ∀ p ∈ k.boundsO, 0 ≤ above plan.sides.alnumOF p) ∧
      (∃ k ∈ alnum, ∃ p ∈ k.bounds, above plan.sides.alnumIL p = 0) ∧
      (0 < Real.cos cfg.body.alnumFrontAngle → ∀ k ∈ plan.layout.thumb, ∀ p ∈ k.boundsO, above plan.sides.alnumOF p ≤ 0) := by
  obtain ⟨hm⟩ := make_made h
  have so := hm.sideOk
  obtain ⟨u1, u2, u3, u4, u5, u6⟩ := so.units
  obtain ⟨s1, s2, s3, s4, s5, s6⟩ := hm.sides
  have e := hm.group1 none .alnum
  have eT := hm.group1 none .thumb
  have aff : ∀ g, ∀ k ∈ groupOf hm.l1 none g, Mat.Affine k.matrix := fun g k hk => hm.affine1 none k (mem_keys g hk)
  refine ⟨groupOf plan.layout none .alnum, groupOf_ok hm.two none .alnum, fun k hk => ⟨fun p hp => ⟨?_, ?_⟩, fun p hp => ?_, fun p hp => ?_⟩,
    ?_, ?_⟩
  · exact (carried_keys u1 s1 (aff .alnum) e (0 ≤ ·)).2.2 so.left_keys k hk p hp
  · exact (carried_keys u2 s2 (aff .alnum) e (0 ≤ ·)).2.2 (so.left_same ▸ so.left_keys) k hk p hp
  · exact (carried_keys u3 s3 (aff .alnum) e (0 ≤ ·)).1 so.frontI_keys k hk p hp
  · exact (carried_keys u4 s4 (aff .alnum) e (0 ≤ ·)).2.1 so.frontO_keys k hk p hp
  · obtain ⟨k, hk, p, hp, e0⟩ := so.left_tight
    rw [e]
    refine ⟨_, List.mem_map.mpr ⟨k, hk, rfl⟩, p.transformed (hm.M * hm.D), ?_, ?_⟩
    · rw [Key.bounds_transform (aff .alnum k hk)]
      exact List.mem_map.mpr ⟨p, hp, rfl⟩
    · rw [above_eq, (s1 u1).2, e0]
  · intro hc
    rw [thumbs_eq]
    exact (carried_keys u4 s4 (aff .thumb) eT (· ≤ 0)).2.1 (so.front_thumbs hc)

/-- **C69** The pinky keys of the plan's side stay left of its right wall. -/
theorem C69_right (h : Plan.make cfg side = .ok plan) :
    ∃ pinky, plan.layout.pinky (some side) = .ok pinky ∧ ∀ k ∈ pinky,
      (∀ p ∈ k.boundsI, 0 ≤ above plan.sides.pinkyIR p) ∧ ∀ p ∈ k.boundsO, 0 ≤ above plan.sides.pinkyOR p := by
  obtain ⟨hm⟩ := make_made h
  have so := hm.sideOk
  obtain ⟨u1, u2, u3, u4, u5, u6⟩ := so.units
  obtain ⟨s1, s2, s3, s4, s5, s6⟩ := hm.sides
  have e := hm.group1 (some side) .pinky
  have aff : ∀ k ∈ groupOf hm.l1 (some side) .pinky, Mat.Affine k.matrix := fun k hk => hm.affine1 _ k (mem_keys _ hk)
  refine ⟨groupOf plan.layout (some side) .pinky, groupOf_ok hm.two _ .pinky, fun k hk => ⟨fun p hp => ?_, fun p hp => ?_⟩⟩
  · exact (carried_keys u5 s5 aff e (0 ≤ ·)).1 so.rightI_keys k hk p hp
  · exact (carried_keys u6 s6 aff e (0 ≤ ·)).2.1 so.rightO_keys k hk p hp

/-- **C69** Walls have the configured thickness: the outer side of a wall is that far from the inner side. Front and back
walls are vertical. -/
theorem C69_thickness (h : Plan.make cfg side = .ok plan) (v : Vec) :
    above plan.walls.alnumOB v = above plan.walls.alnumIB v + cfg.body.wallThickness ∧
    above plan.walls.pinkyOF v = above plan.walls.pinkyIF v + cfg.body.wallThickness ∧
    above plan.sides.pinkyOR v = above plan.sides.pinkyIR v + cfg.body.wallThickness ∧
    above plan.sides.alnumOF v = above plan.sides.alnumIF v + cfg.body.alnumFrontThickness ∧
    above plan.sides.alnumOL v = above plan.sides.alnumIL v ∧
    (∀ g : Group, above (g.roofI plan) v = above (g.roofO plan) v + cfg.body.roofThickness) ∧
    (∀ p ∈ [plan.walls.alnumIB, plan.walls.alnumOB, plan.walls.pinkyIF, plan.walls.pinkyOF, plan.sides.pinkyIR,
      plan.sides.pinkyOR, plan.sides.alnumIF, plan.sides.alnumOF, plan.sides.alnumIL, plan.sides.alnumOL], UnitNormal p) := by
  obtain ⟨hm⟩ := make_made h
  have so := hm.sideOk
  have w := hm.wallsOk
  obtain ⟨w1, w2, w3, w4⟩ := hm.walls
  obtain ⟨u1, u2, u3, u4, u5, u6⟩ := so.units
  obtain ⟨s1, s2, s3, s4, s5, s6⟩ := hm.sides
  obtain ⟨t1, t2, t3, t4, t5, t6, t7, t8, t9, t10⟩ := hm.tent
  have tok := hm.tentOk
  refine ⟨carried_gap hm.ontoD w.alnumOB.1 w.alnumIB.1 w2 w1 w.gapB v, carried_gap hm.ontoD w.pinkyOF.1 w.pinkyIF.1 w4 w3 w.gapF v,
    carried_gap hm.onto u6 u5 s6 s5 so.right_gap v, carried_gap hm.onto u4 u3 s4 s3 so.front_gap v, ?_, ?_, ?_⟩
  · have := carried_gap hm.onto u2 u1 s2 s1 (c := 0) (fun v => by rw [so.left_same]; ring) v
    linarith
  · have onto : ∀ a p (v : Vec), ∃ w : Vec, w.transformed (turn a p) = v := by
      intro a p v
      refine ⟨⟨p.x + (v.x - p.x) * Real.cos a - (v.z - p.z) * Real.sin a, v.y,
        p.z + (v.x - p.x) * Real.sin a + (v.z - p.z) * Real.cos a⟩, ?_⟩
      rw [turn_apply]
      have h1 := Real.sin_sq_add_cos_sq a
      ext
      · dsimp only; linear_combination (v.x - p.x) * h1
      · rfl
      · dsimp only; linear_combination (v.z - p.z) * h1
    intro g
    cases g
    · refine carried_gap hm.onto tok.alnumIT.1 tok.alnumOT.1 t1 t2 (fun v => ?_) v
      obtain ⟨u, rfl⟩ := onto cfg.body.alnumTentAngle hm.pivot v
      rw [tok.alnumIT.2, tok.alnumOT.2]
    · refine carried_gap hm.onto tok.pinkyIT.1 tok.pinkyOT.1 t9 t10 (fun v => ?_) v
      obtain ⟨u, rfl⟩ := onto cfg.body.pinkyTentAngle hm.pivot v
      rw [tok.pinkyIT.2, tok.pinkyOT.2]
    · refine carried_gap hm.onto tok.thumbIT.1 tok.thumbOT.1 t5 t6 (fun v => ?_) v
      obtain ⟨u, rfl⟩ := onto cfg.body.thumbTentAngle hm.pivot v
      rw [tok.thumbIT.2, tok.thumbOT.2]
  · intro p hp
    rw [unitNormal_iff]
    simp only [List.mem_cons, List.not_mem_nil, or_false] at hp
    rcases hp with rfl | rfl | rfl | rfl | rfl | rfl | rfl | rfl | rfl | rfl
    · exact (w1 w.alnumIB.1).1
    · exact (w2 w.alnumOB.1).1
    · exact (w3 w.pinkyIF.1).1
    · exact (w4 w.pinkyOF.1).1
    · exact (s5 u5).1
    · exact (s6 u6).1
    · exact (s3 u3).1
    · exact (s4 u4).1
    · exact (s1 u1).1
    · exact (s2 u2).1

/-- **C70** The corners of the body: each reference point is the one and only point in its three planes. -/
theorem C70_corners (h : Plan.make cfg side = .ok plan) :
    ∀ c ∈ corners plan, ∀ x, (above c.2.1 x = 0 ∧ above c.2.2.1 x = 0 ∧ above c.2.2.2 x = 0) ↔ x = c.1 := by
  obtain ⟨hm⟩ := make_made h
  intro c hc x
  simp only [above_eq]
  exact (hm.corners c hc).2.2.2 x

/-- **C70** The ridge ends on the thumb roof: its outer point is on the outer side, its inner point on the inner side. -/
theorem C70_ridge (h : Plan.make cfg side = .ok plan) :
    above plan.tent.thumbOT plan.points.ridgeORF = 0 ∧ above plan.tent.thumbIT plan.points.ridgeIRF = 0 ∧
    plan.points.ridgeIRF - plan.points.ridgeORF = plan.points.thumbILB - plan.points.thumbOLB := by
  obtain ⟨hm⟩ := make_made h
  have hI := hm.ridgeI.2
  have hO := hm.ridgeO.2
  have gap := fun v => (C69_thickness h v).2.2.2.2.2.1 .thumb
  have c1 := (C70_corners h (plan.points.thumbILB, plan.sides.alnumIL, plan.sides.alnumIF, plan.tent.thumbIT)
    (by simp [corners]) plan.points.thumbILB).mpr rfl
  have c2 := (C70_corners h (plan.points.thumbOLB, plan.sides.alnumOL, plan.sides.alnumOF, plan.tent.thumbOT)
    (by simp [corners]) plan.points.thumbOLB).mpr rfl
  refine ⟨by rw [above_eq]; exact hO, ?_, ?_⟩
  · have g1 := gap plan.points.thumbILB
    have g2 := gap plan.points.ridgeIRF
    simp only [Group.roofI, Group.roofO] at g1 g2
    rw [c1.2.2] at g1
    rw [g2, hI]
    rw [← above_eq] at hO
    have c2 := c2.2.2
    dsimp only at c2
    unfold above at *
    simp only [Vec.add_x, Vec.add_y, Vec.add_z, Vec.sub_x, Vec.sub_y, Vec.sub_z]
    linear_combination hO - c2 - g1
  · rw [hI]
    ext <;> simp only [Vec.add_x, Vec.add_y, Vec.add_z, Vec.sub_x, Vec.sub_y, Vec.sub_z] <;> ring

/-- **C71** The keyboard stands at the configured height: the lowest key is at the minimal roof height. -/
theorem C71_height (h : Plan.make cfg side = .ok plan) :
    ∃ all, plan.layout.all none = .ok all ∧ (∀ k ∈ all, cfg.body.minRoofHeight ≤ k.position.z) ∧
      ∃ k ∈ all, k.position.z = cfg.body.minRoofHeight := by
  obtain ⟨hm⟩ := make_made h
  exact ⟨keys plan.layout none, allKeys_ok hm.two none, hm.keysZ⟩

/-- **C71** The body leaves room for the floor's lip below all of its reference points, and the pins of the switches of the
plan's side stay above the floor. -/
theorem C71_floor (h : Plan.make cfg side = .ok plan) :
    (∀ v ∈ allPoints plan, cfg.floor.lipHeight + cfg.body.innerChamfer ≤ v.z) ∧
    ∃ all, plan.layout.all (some side) = .ok all ∧ ∀ k ∈ all, ∀ v ∈ k.boundsI,
      cfg.floor.innerHeight - cfg.floor.outerHeight + cfg.switch.floorMargin ≤ v.z := by
  obtain ⟨hm⟩ := make_made h
  refine ⟨fun v hv => hm.lip v ?_, keys plan.layout (some side), allKeys_ok hm.two _, fun k hk v hv => ?_⟩
  · simp only [allPoints, corners, List.map_cons, List.map_nil] at hv
    simp only [Points.toList]
    exact hv
  · have := hm.pins k hk v hv
    linarith

/-- **C71** The halves do not overlap: all keys are right of the middle plane, the ridge has at least half of the configured
width on this side, and it is not wider than needed. -/
theorem C71_middle (h : Plan.make cfg side = .ok plan) :
    ∃ all, plan.layout.all none = .ok all ∧ (∀ k ∈ all, ∀ p ∈ k.bounds, 0 ≤ p.x) ∧
      cfg.body.minRidgeWidth / 2 ≤ plan.points.alnumILB.x ∧ cfg.body.minRidgeWidth / 2 ≤ plan.points.alnumOLB.x ∧
      0 ≤ plan.points.ridgeIRF.x ∧ 0 ≤ plan.points.ridgeORF.x ∧
      ((∃ k ∈ all, ∃ p ∈ k.bounds, p.x = 0) ∨ plan.points.alnumILB.x = cfg.body.minRidgeWidth / 2 ∨
        plan.points.alnumOLB.x = cfg.body.minRidgeWidth / 2) := by
  obtain ⟨hm⟩ := make_made h
  exact ⟨keys plan.layout none, allKeys_ok hm.two none, hm.keysX, hm.cornersX.1, hm.cornersX.2, hm.ridgeI.1, hm.ridgeO.1,
    hm.tightX⟩

/-! ### Bosses -/

theorem fits_moved {b : BossFit} {w : Line × Line} {p p' : Plane} {dx dz : ℝ} (hu : UnitPlane p)
    (hp : ∀ v, p.distance v = left w.2.pos (w.2.pos + w.2.dir) v) (hc : CarriedBy (shift ⟨dx, 0, dz⟩) p p') {k0 k1 : Key}
    (h0 : Mat.Affine k0.matrix) (h1 : Mat.Affine k1.matrix) {x : Vec} (h : Fits b w k0 k1 x) :
    BossFits b p' [k0.transform (shift ⟨dx, 0, dz⟩), k1.transform (shift ⟨dx, 0, dz⟩)] (x + ⟨dx, 0, 0⟩) ∧
      above p' (x + ⟨dx, 0, 0⟩) = left w.2.pos (w.2.pos + w.2.dir) x := by
  obtain ⟨-, h2, h3⟩ := h
  have e : above p' (x + ⟨dx, 0, 0⟩) = left w.2.pos (w.2.pos + w.2.dir) x := by
    have : x + ⟨dx, 0, 0⟩ = (x + ⟨0, 0, -dz⟩).transformed (shift ⟨dx, 0, dz⟩) := by
      rw [shift_apply]; ext <;> simp
    rw [this, above_eq, (hc hu).2, hp]
    simp [left]
  refine ⟨⟨by rw [e]; exact h2, ?_⟩, e⟩
  have key : ∀ k : Key, Mat.Affine k.matrix → k ∈ [k0, k1] → ∀ q, InHull2D (k.transform (shift ⟨dx, 0, dz⟩)).boundsI q →
      b.diameter / 2 ≤ dist2D (x + ⟨dx, 0, 0⟩) q := by
    intro k hk hmem q hq
    have := h3 k hmem (q + ⟨-dx, 0, 0⟩) (by
      intro a b c hle
      have := hq a b (c + a * dx) (by
        intro u hu
        rw [Key.boundsI_transform hk] at hu
        obtain ⟨u0, hu0, rfl⟩ := List.mem_map.mp hu
        rw [shift_apply]
        have := hle u0 hu0
        simp only [Vec.add_x, Vec.add_y, add_zero]
        linarith)
      simp only [Vec.add_x, Vec.add_y, add_zero]
      linarith)
    have e2 : dist2D (x + ⟨dx, 0, 0⟩) q = dist2D x (q + ⟨-dx, 0, 0⟩) := by
      unfold dist2D distSq2D
      congr 1
      simp only [Vec.add_x, Vec.add_y]
      ring
    rw [e2]; exact this
  intro k hk
  simp only [List.mem_cons, List.not_mem_nil, or_false] at hk
  rcases hk with rfl | rfl
  · exact key k0 h0 (by simp)
  · exact key k1 h1 (by simp)

/-- **C72** The bosses of the finished plan fit between the walls and the keys beside them: the back ones beside two keys of
the first row, the front ones beside two keys of the last row and the first two thumb keys. The bosses at the left are as far
outside as possible. -/
theorem C72_bosses (h : Plan.make cfg side = .ok plan) (hd : 0 ≤ cfg.boss.diameter) :
    (∃ keys k0 k1 rest, plan.layout.perAlnumCol 0 (some side) = .ok keys ∧ keys.Perm (k0 :: k1 :: rest) ∧
      BossFits cfg.boss plan.walls.alnumOB [k0, k1] plan.bossPos.alnumB) ∧
    (∃ keys k0 k1, plan.layout.perPinkyCol 0 (some side) = .ok keys ∧ pyIndex keys (-1) = .ok k0 ∧ pyIndex keys (-2) = .ok k1 ∧
      BossFits cfg.boss plan.walls.alnumOB [k0, k1] plan.bossPos.pinkyB) ∧
    (∃ keys k0 k1, plan.layout.perPinkyCol (-1) (some side) = .ok keys ∧ pyIndex keys (-1) = .ok k0 ∧ pyIndex keys (-2) = .ok k1 ∧
      BossFits cfg.boss plan.walls.pinkyOF [k0, k1] plan.bossPos.pinkyF) ∧
    (∃ k0 k1, (plan.layout.thumb (some side))[0]? = some k0 ∧ (plan.layout.thumb (some side))[1]? = some k1 ∧
      BossFits cfg.boss plan.walls.pinkyOF [k0, k1] plan.bossPos.thumbF) ∧
    above plan.walls.alnumOB plan.bossPos.alnumB = cfg.boss.diameter / 2 + cfg.boss.outerWallMargin ∧
    above plan.walls.pinkyOF plan.bossPos.thumbF = cfg.boss.diameter / 2 + cfg.boss.outerWallMargin ∧
    plan.bossPos.alnumB.z = 0 ∧ plan.bossPos.pinkyB.z = 0 ∧ plan.bossPos.pinkyF.z = 0 ∧ plan.bossPos.thumbF.z = 0 := by
  obtain ⟨hm⟩ := make_made h
  have w := hm.wallsOk
  obtain ⟨w1, w2, w3, w4⟩ := hm.walls
  have hb := hm.bosses hd
  have two : TwoGroups hm.L := by
    rw [hm.hL, hm.arranged.layout]; exact ((make_two hm.arranged.make).moved _ _ _).moved _ _ _
  have aff := hm.affineL (some side)
  have affF : ∀ g < 2, ∀ k ∈ fingers hm.L g (some side), Mat.Affine k.matrix := by
    intro g hg k hk
    refine aff k ?_
    have : g = 0 ∨ g = 1 := by omega
    rcases this with rfl | rfl <;> simp [keys, hk]
  have hD := hm.hD
  rw [hD] at w2 w4
  obtain ⟨kA, a0, a1, rest, hA1, hA2, hA3⟩ := hb.alnumB
  obtain ⟨kB, b0, b1, hB1, hB2, hB3, hB4⟩ := hb.pinkyB
  obtain ⟨kF, f0, f1, hF1, hF2, hF3, hF4⟩ := hb.pinkyF
  obtain ⟨t0, t1, hT1, hT2, hT3⟩ := hb.thumbF
  have col : ∀ g < 2, ∀ i ks, hm.L.perCol g i (some side) = .ok ks →
      plan.layout.perCol g i (some side) = .ok (ks.map fun k : Key => k.transform (shift ⟨hm.dx, 0, hm.dz⟩)) := by
    intro g hg i ks hk
    rw [hm.layout, perCol_moved _ _ _ _ _ hg, hk, hD]
    unfold ofGroup
    rw [ite_self]
    rfl
  have memA := mem_perCol two (by norm_num) hA1
  have memB := mem_perCol two (by norm_num) hB1
  have memF := mem_perCol two (by norm_num) hF1
  have thumbAff : ∀ k ∈ hm.L.thumb (some side), Mat.Affine k.matrix := by
    intro k hk
    rw [thumbs_eq] at hk
    exact aff k (by simp [keys, hk])
  have sA := fits_moved w.alnumOB.1 w.alnumOB.2 w2 (affF 0 (by norm_num) a0 (memA a0 (hA2.mem_iff.mpr (by simp))))
    (affF 0 (by norm_num) a1 (memA a1 (hA2.mem_iff.mpr (by simp)))) hA3
  have sB := fits_moved w.alnumOB.1 w.alnumOB.2 w2 (affF 1 (by norm_num) b0 (memB b0 (pyIndex_mem hB2)))
    (affF 1 (by norm_num) b1 (memB b1 (pyIndex_mem hB3))) hB4
  have sF := fits_moved w.pinkyOF.1 w.pinkyOF.2 w4 (affF 1 (by norm_num) f0 (memF f0 (pyIndex_mem hF2)))
    (affF 1 (by norm_num) f1 (memF f1 (pyIndex_mem hF3))) hF4
  have sT := fits_moved w.pinkyOF.1 w.pinkyOF.2 w4 (thumbAff t0 (List.mem_of_getElem? hT1))
    (thumbAff t1 (List.mem_of_getElem? hT2)) hT3
  have eb := hm.bossPos
  have eth : plan.layout.thumb (some side) = (hm.L.thumb (some side)).map fun k : Key => k.transform (shift ⟨hm.dx, 0, hm.dz⟩) := by
    rw [thumbs_eq, thumbs_eq, hm.layout, thumbs_moved, hD]
  rw [eb]
  refine ⟨⟨_, _, _, rest.map fun k : Key => k.transform (shift ⟨hm.dx, 0, hm.dz⟩), col 0 (by norm_num) _ _ hA1, ?_, sA.1⟩, ⟨_, _, _, col 1 (by norm_num) _ _ hB1, ?_, ?_, sB.1⟩,
    ⟨_, _, _, col 1 (by norm_num) _ _ hF1, ?_, ?_, sF.1⟩, ⟨_, _, ?_, ?_, sT.1⟩, ?_, ?_, ?_, ?_, ?_, ?_⟩
  · exact hA2.map _
  · rw [pyIndex_map, hB2]; rfl
  · rw [pyIndex_map, hB3]; rfl
  · rw [pyIndex_map, hF2]; rfl
  · rw [pyIndex_map, hF3]; rfl
  · rw [eth, List.getElem?_map, hT1]; rfl
  · rw [eth, List.getElem?_map, hT2]; rfl
  · rw [sA.2]; exact hb.alnumB_eq
  · rw [sT.2]; exact hb.thumbF_eq
  · simp [hA3.1]
  · simp [hB4.1]
  · simp [hF4.1]
  · simp [hT3.1]

/-! ### Orientation -/

/-- The normal of a moved plane. -/
theorem normal_of {m : Mat} (hm : Motion m) {p : Plane} (hu : UnitPlane p) {a : Vec} {c : ℝ} (ha : a.dot a = 1)
    (h : ∀ v : Vec, p.distance (v.transformed m) = v.dot a + c) : p.normal = a.transformed m - (0 : Vec).transformed m := by
  have h1 := h a
  have h2 := h 0
  have hd := hm.2.1 a 0
  simp only [distSq] at hd
  generalize a.transformed m = A at *
  generalize (0 : Vec).transformed m = O at *
  simp only [Plane.distance, Vec.dot, Vec.sub_x, Vec.sub_y, Vec.sub_z, Vec.zero_x, Vec.zero_y, Vec.zero_z, UnitPlane] at *
  have z : (p.normal.x - (A.x - O.x)) ^ 2 + (p.normal.y - (A.y - O.y)) ^ 2 + (p.normal.z - (A.z - O.z)) ^ 2 = 0 := by
    linear_combination hu + hd - 2 * h1 + 2 * h2 - ha
  have z1 : (p.normal.x - (A.x - O.x)) ^ 2 = 0 := by nlinarith [sq_nonneg (p.normal.x - (A.x - O.x)), sq_nonneg (p.normal.y - (A.y - O.y)), sq_nonneg (p.normal.z - (A.z - O.z))]
  have z2 : (p.normal.y - (A.y - O.y)) ^ 2 = 0 := by nlinarith [sq_nonneg (p.normal.x - (A.x - O.x)), sq_nonneg (p.normal.y - (A.y - O.y)), sq_nonneg (p.normal.z - (A.z - O.z))]
  have z3 : (p.normal.z - (A.z - O.z)) ^ 2 = 0 := by nlinarith [sq_nonneg (p.normal.x - (A.x - O.x)), sq_nonneg (p.normal.y - (A.y - O.y)), sq_nonneg (p.normal.z - (A.z - O.z))]
  have z1 := pow_eq_zero_iff (two_ne_zero) |>.mp z1
  have z2 := pow_eq_zero_iff (two_ne_zero) |>.mp z2
  have z3 := pow_eq_zero_iff (two_ne_zero) |>.mp z3
  ext
  · simp only [Vec.sub_x]; linarith
  · simp only [Vec.sub_y]; linarith
  · simp only [Vec.sub_z]; linarith

/-- The linear part of a group's motion. -/
theorem Made.moves (h : Made cfg side plan) (g : Group) :
    ∃ d : Vec, ∀ v : Vec, v.transformed (h.motionOf g * (h.M * h.D)) = oriented cfg.body (g.angle cfg.body) v + d := by
  obtain ⟨off, kA, kP, dy, hoff, ea, ep, et, -⟩ := h.arranged.parts
  obtain ⟨aa, ap, at'⟩ := arranged_motions h.arranged
  refine ⟨(0 : Vec).transformed (h.motionOf g * (h.M * h.D)), fun v => ?_⟩
  have hg : Motion (h.motionOf g) := by cases g <;> assumption
  rw [Mat.transformed_mul hg.1, Mat.transformed_mul h.motionM.1, Mat.transformed_mul hg.1, Mat.transformed_mul h.motionM.1, h.hM,
    h.hD, shift_apply, shift_apply, tiltSplit_apply, tiltSplit_apply, rotX_transformed, rotZ_transformed, rotX_transformed,
    rotZ_transformed]
  have hv : ∀ v : Vec, v.transformed (h.motionOf g) - (0 : Vec).transformed (h.motionOf g) =
      ⟨v.x * Real.cos (g.angle cfg.body) + v.z * Real.sin (g.angle cfg.body), v.y,
        v.z * Real.cos (g.angle cfg.body) - v.x * Real.sin (g.angle cfg.body)⟩ := by
    intro v
    cases g
    · simp only [motionOf, ea]
      rw [Mat.transformed_mul (shift_motion _).1, Mat.transformed_mul (shift_motion _).1, turn_apply, turn_apply, shift_apply,
        shift_apply]
      ext <;> simp only [Group.angle, Vec.sub_x, Vec.sub_y, Vec.sub_z, Vec.add_x, Vec.add_y, Vec.add_z, Vec.zero_x, Vec.zero_y,
        Vec.zero_z] <;> ring
    · simp only [motionOf, ep]
      rw [turn_apply, turn_apply]
      ext <;> simp only [Group.angle, Vec.sub_x, Vec.sub_y, Vec.sub_z, Vec.add_x, Vec.add_y, Vec.add_z, Vec.zero_x, Vec.zero_y,
        Vec.zero_z] <;> ring
    · simp only [motionOf, et]
      rw [Mat.transformed_mul ((shift_motion _).mul (turn_motion _ _)).1, Mat.transformed_mul (shift_motion _).1,
        Mat.transformed_mul ((shift_motion _).mul (turn_motion _ _)).1, Mat.transformed_mul (shift_motion _).1, shift_apply ⟨0, dy, 0⟩,
        shift_apply ⟨0, dy, 0⟩, turn_apply, turn_apply, shift_apply, shift_apply]
      ext <;> simp only [Group.angle, Vec.sub_x, Vec.sub_y, Vec.sub_z, Vec.add_x, Vec.add_y, Vec.add_z, Vec.zero_x, Vec.zero_y,
        Vec.zero_z] <;> ring
  have hx := congrArg Vec.x (hv v)
  have hy := congrArg Vec.y (hv v)
  have hz := congrArg Vec.z (hv v)
  simp only [Vec.sub_x, Vec.sub_y, Vec.sub_z] at hx hy hz
  unfold Spec.oriented
  dsimp only
  rw [← hx, ← hy, ← hz]
  ext <;> simp only [Vec.add_x, Vec.add_y, Vec.add_z] <;> ring

/-- **C74** Each group of keys of the flat layout is moved as one rigid body to its place: all of its points are turned by the
group's tent angle, the tilt and the split, and then shifted, by the same vector for all keys of the group and both sides. The
order of keys, rows and columns stays the same. -/
theorem C74_rigid (h : Plan.make cfg side = .ok plan) :
    ∃ l0, Layout.make cfg.layout cfg.switch cfg.body.roofThickness = .ok l0 ∧
    ∀ g : Group, ∃ d : Vec, ∀ s, ∃ ks ks0, g.keys plan.layout s = .ok ks ∧ g.keys l0 s = .ok ks0 ∧
      List.Forall₂ (fun k k0 : Key => k.factory = k0.factory ∧ k.capBounds0 = k0.capBounds0 ∧
        ∀ v : Vec, v.transformed k.matrix = oriented cfg.body (g.angle cfg.body) (v.transformed k0.matrix) + d) ks ks0 := by
  obtain ⟨hm⟩ := make_made h
  refine ⟨hm.l0, hm.arranged.make, fun g => ?_⟩
  obtain ⟨d, hd⟩ := hm.moves g
  obtain ⟨f, -, hflat⟩ := hm.flat
  refine ⟨d, fun s => ⟨_, _, groupOf_ok hm.two s g, groupOf_ok (make_two hm.arranged.make) s g, ?_⟩⟩
  rw [hm.groupOf, List.forall₂_map_left_iff, List.forall₂_same]
  intro k hk
  refine ⟨rfl, rfl, fun v => ?_⟩
  rw [Key.point_transform (hflat s g k hk).motion.1, hd]

/-- **C74** The grid of the keys is the one of the flat layout. -/
theorem C74_grid (h : Plan.make cfg side = .ok plan) :
    ∃ l0, Layout.make cfg.layout cfg.switch cfg.body.roofThickness = .ok l0 ∧ ∃ dA dP : Vec, ∀ s row col,
      (∀ v : Vec, (keyAt (halfOf plan.layout s) row 0 col).map (fun k => v.transformed k.matrix) =
        (keyAt (halfOf l0 s) row 0 col).map fun k => oriented cfg.body cfg.body.alnumTentAngle (v.transformed k.matrix) + dA) ∧
      (∀ v : Vec, (keyAt (halfOf plan.layout s) row 1 col).map (fun k => v.transformed k.matrix) =
        (keyAt (halfOf l0 s) row 1 col).map fun k => oriented cfg.body cfg.body.pinkyTentAngle (v.transformed k.matrix) + dP) := by
  obtain ⟨hm⟩ := make_made h
  refine ⟨hm.l0, hm.arranged.make, ?_⟩
  obtain ⟨dA, hA⟩ := hm.moves .alnum
  obtain ⟨dP, hP⟩ := hm.moves .pinky
  obtain ⟨f, -, hflat⟩ := hm.flat
  have mem : ∀ (s : Side) (row g col : ℕ) (k : Key), g < 2 → keyAt (halfOf hm.l0 s) row g col = some k → k ∈ fingers hm.l0 g none := by
    intro s row g col k hg hk
    unfold keyAt at hk
    obtain ⟨r, hr, hk⟩ := Option.bind_eq_some_iff.mp hk
    obtain ⟨gk, hgk, hk⟩ := Option.bind_eq_some_iff.mp hk
    obtain ⟨o, ho, hk⟩ := Option.bind_eq_some_iff.mp hk
    unfold fingers
    refine List.mem_flatMap.mpr ⟨halfOf hm.l0 s, by cases s <;> simp [selected, halfOf], ?_⟩
    unfold keysOf
    refine List.mem_flatMap.mpr ⟨r, List.mem_of_getElem? hr, ?_⟩
    rw [List.getD_eq_getElem?_getD, hgk]
    exact List.mem_filterMap.mpr ⟨o, List.mem_of_getElem? ho, hk⟩
  refine ⟨dA, dP, fun s row col => ⟨fun v => ?_, fun v => ?_⟩⟩
  · rw [hm.layout0, keyAt_moved _ _ _ _ _ _ _ _ (by norm_num), Option.map_map]
    cases hk : keyAt (halfOf hm.l0 s) row 0 col with
    | none => rfl
    | some k =>
      simp only [Option.map_some, Function.comp]
      rw [if_pos trivial, Key.point_transform (hflat none .alnum k (mem s row 0 col k (by norm_num) hk)).motion.1]
      exact congrArg some (hA _)
  · rw [hm.layout0, keyAt_moved _ _ _ _ _ _ _ _ (by norm_num), Option.map_map]
    cases hk : keyAt (halfOf hm.l0 s) row 1 col with
    | none => rfl
    | some k =>
      simp only [Option.map_some, Function.comp]
      rw [if_neg one_ne_zero, Key.point_transform (hflat none .pinky k (mem s row 1 col k (by norm_num) hk)).motion.1]
      exact congrArg some (hP _)

theorem oriented_zero (body : BodyCfg) (a : ℝ) : oriented body a 0 = 0 := by
  ext <;> simp [Spec.oriented]

theorem oriented_tilt (body : BodyCfg) (v : Vec) : v.transformed (tiltSplitMatrix body) = oriented body 0 v := by
  rw [tiltSplit_apply, rotX_transformed, rotZ_transformed]
  ext <;> simp [Spec.oriented]

theorem Made.sideNormal (h : Made cfg side plan) {p p' : Plane} (hu : UnitPlane p) (hc : CarriedBy (h.M * h.D) p p') :
    p'.normal = oriented cfg.body 0 p.normal := by
  rw [normal_of (h.motionM.mul h.motionD) (hc hu).1 (a := p.normal) (c := p.distance 0) hu (fun v => by
    rw [(hc hu).2]
    simp only [Plane.distance, Vec.dot, Vec.sub_x, Vec.sub_y, Vec.sub_z, Vec.zero_x, Vec.zero_y, Vec.zero_z]
    ring)]
  rw [Mat.transformed_mul h.motionM.1, Mat.transformed_mul h.motionM.1, h.hD, shift_apply, shift_apply, h.hM, oriented_tilt,
    oriented_tilt, oriented_zero]
  ext <;> simp

theorem shift_normal {d : Vec} {p p' : Plane} (hu : UnitPlane p) (hc : CarriedBy (shift d) p p') : p'.normal = p.normal := by
  rw [normal_of (shift_motion d) (hc hu).1 (a := p.normal) (c := p.distance 0) hu (fun v => by
    rw [(hc hu).2]
    simp only [Plane.distance, Vec.dot, Vec.sub_x, Vec.sub_y, Vec.sub_z, Vec.zero_x, Vec.zero_y, Vec.zero_z]
    ring)]
  rw [shift_apply, shift_apply]
  ext <;> simp

theorem left_normal {p : Plane} {a d : Vec} (h : ∀ v, p.distance v = left a (a + d) v) : p.normal = ⟨-d.y, d.x, 0⟩ := by
  have h0 := h 0
  have h1 := h ⟨1, 0, 0⟩
  have h2 := h ⟨0, 1, 0⟩
  have h3 := h ⟨0, 0, 1⟩
  simp only [Plane.distance, Vec.dot, left, Vec.sub_x, Vec.sub_y, Vec.sub_z, Vec.add_x, Vec.add_y, Vec.zero_x, Vec.zero_y, Vec.zero_z] at *
  ext
  · dsimp only; linear_combination h1 - h0
  · dsimp only; linear_combination h2 - h0
  · dsimp only; linear_combination h3 - h0

/-- **C74** The directions of roofs and walls: each roof is turned like the keys of its group; the side walls are turned by
tilt and split only; front and back are vertical and at the configured angles to the split. -/
theorem C74_directions (h : Plan.make cfg side = .ok plan) :
    (∀ g : Group, (g.roofO plan).normal = oriented cfg.body (g.angle cfg.body) ⟨0, 0, 1⟩ ∧
      (g.roofI plan).normal = oriented cfg.body (g.angle cfg.body) ⟨0, 0, 1⟩) ∧
    plan.sides.alnumIL.normal = oriented cfg.body 0 ⟨1, 0, 0⟩ ∧
    plan.sides.alnumOL.normal = oriented cfg.body 0 ⟨1, 0, 0⟩ ∧
    plan.sides.pinkyIR.normal = oriented cfg.body 0 ⟨-1, 0, 0⟩ ∧
    plan.sides.pinkyOR.normal = oriented cfg.body 0 ⟨-1, 0, 0⟩ ∧
    plan.sides.alnumIF.normal = oriented cfg.body 0 ⟨-Real.sin cfg.body.alnumFrontAngle, Real.cos cfg.body.alnumFrontAngle, 0⟩ ∧
    plan.sides.alnumOF.normal = oriented cfg.body 0 ⟨-Real.sin cfg.body.alnumFrontAngle, Real.cos cfg.body.alnumFrontAngle, 0⟩ ∧
    (∀ p ∈ [plan.walls.alnumIB, plan.walls.alnumOB], p.normal = ⟨Real.sin (cfg.body.alnumBackAngle + cfg.body.splitAngle),
      -Real.cos (cfg.body.alnumBackAngle + cfg.body.splitAngle), 0⟩) ∧
    (∀ p ∈ [plan.walls.pinkyIF, plan.walls.pinkyOF], p.normal = ⟨-Real.sin (cfg.body.thumbFrontAngle + cfg.body.splitAngle),
      Real.cos (cfg.body.thumbFrontAngle + cfg.body.splitAngle), 0⟩) := by
  obtain ⟨hm⟩ := make_made h
  have so := hm.sideOk
  have w := hm.wallsOk
  obtain ⟨w1, w2, w3, w4⟩ := hm.walls
  rw [hm.hD] at w1 w2 w3 w4
  obtain ⟨u1, u2, u3, u4, u5, u6⟩ := so.units
  obtain ⟨s1, s2, s3, s4, s5, s6⟩ := hm.sides
  refine ⟨fun g => ?_, ?_, ?_, ?_, ?_, ?_, ?_, ?_, ?_⟩
  · obtain ⟨d, hd⟩ := hm.moves g
    obtain ⟨z1, z2, v1, v2⟩ := hm.tentZ g
    have hmo : Motion (hm.motionOf g * (hm.M * hm.D)) := by
      obtain ⟨aa, ap, at'⟩ := arranged_motions hm.arranged
      refine Motion.mul ?_ (hm.motionM.mul hm.motionD)
      cases g <;> assumption
    constructor
    · rw [normal_of hmo v1 (a := ⟨0, 0, 1⟩) (c := 0) (by simp [Vec.dot]) (fun v => by rw [z1]; simp [Vec.dot]), hd, hd, oriented_zero]
      ext <;> simp
    · rw [normal_of hmo v2 (a := ⟨0, 0, 1⟩) (c := cfg.body.roofThickness) (by simp [Vec.dot]) (fun v => by rw [z2]; simp [Vec.dot]),
        hd, hd, oriented_zero]
      ext <;> simp
  · rw [hm.sideNormal u1 s1, so.left_normal]
  · rw [hm.sideNormal u2 s2, ← so.left_same, so.left_normal]
  · rw [hm.sideNormal u5 s5, so.rightI_normal]
  · rw [hm.sideNormal u6 s6, so.rightO_normal]
  · rw [hm.sideNormal u3 s3, so.frontI_normal]
  · rw [hm.sideNormal u4 s4, so.frontO_normal]
  · intro p hp
    simp only [List.mem_cons, List.not_mem_nil, or_false] at hp
    rcases hp with rfl | rfl
    · rw [shift_normal w.alnumIB.1 w1, left_normal w.alnumIB.2, w.pairB.2.2, w.dirB]
      ext <;> simp [dirAt, Real.sin_add_pi, Real.cos_add_pi]
    · rw [shift_normal w.alnumOB.1 w2, left_normal w.alnumOB.2, w.dirB]
      ext <;> simp [dirAt, Real.sin_add_pi, Real.cos_add_pi]
  · intro p hp
    simp only [List.mem_cons, List.not_mem_nil, or_false] at hp
    rcases hp with rfl | rfl
    · rw [shift_normal w.pinkyIF.1 w3, left_normal w.pinkyIF.2, w.pairF.2.2, w.dirF]; rfl
    · rw [shift_normal w.pinkyOF.1 w4, left_normal w.pinkyOF.2, w.dirF]; rfl

/-! ### The crease -/

theorem mitre {a p m : ℝ} {c : Vec} {A P Q : Plane} {r : ℝ}
    (hA : ∀ v : Vec, A.distance (v.transformed (turn a c)) = v.z + r) (hP : ∀ v : Vec, P.distance (v.transformed (turn p c)) = v.z + r)
    (hQ : ∀ v : Vec, Q.distance (v.transformed (turn m c)) = v.x - c.x) (hm : m = p + (a - p) / 2) (v : Vec) :
    A.distance v - P.distance v = 2 * Real.sin ((a - p) / 2) * Q.distance v := by
  have onto : ∀ a : ℝ, v = (⟨c.x + (v.x - c.x) * Real.cos a - (v.z - c.z) * Real.sin a, v.y,
        c.z + (v.x - c.x) * Real.sin a + (v.z - c.z) * Real.cos a⟩ : Vec).transformed (turn a c) := by
    intro a
    rw [turn_apply]
    have h1 := Real.sin_sq_add_cos_sq a
    ext
    · dsimp only; linear_combination -(v.x - c.x) * h1
    · rfl
    · dsimp only; linear_combination -(v.z - c.z) * h1
  have eA : A.distance v = c.z + (v.x - c.x) * Real.sin a + (v.z - c.z) * Real.cos a + r := by
    conv_lhs => rw [onto a]
    exact hA _
  have eP : P.distance v = c.z + (v.x - c.x) * Real.sin p + (v.z - c.z) * Real.cos p + r := by
    conv_lhs => rw [onto p]
    exact hP _
  have eQ : Q.distance v = (v.x - c.x) * Real.cos m - (v.z - c.z) * Real.sin m := by
    conv_lhs => rw [onto m]
    rw [hQ]; ring
  have e1 : a = m + (a - p) / 2 := by rw [hm]; ring
  have e2 : p = m - (a - p) / 2 := by rw [hm]; ring
  rw [eA, eP, eQ]
  have sA : Real.sin a = Real.sin m * Real.cos ((a - p) / 2) + Real.cos m * Real.sin ((a - p) / 2) := by
    conv_lhs => rw [e1]
    exact Real.sin_add _ _
  have cA : Real.cos a = Real.cos m * Real.cos ((a - p) / 2) - Real.sin m * Real.sin ((a - p) / 2) := by
    conv_lhs => rw [e1]
    exact Real.cos_add _ _
  have sP : Real.sin p = Real.sin m * Real.cos ((a - p) / 2) - Real.cos m * Real.sin ((a - p) / 2) := by
    conv_lhs => rw [e2]
    exact Real.sin_sub _ _
  have cP : Real.cos p = Real.cos m * Real.cos ((a - p) / 2) + Real.sin m * Real.sin ((a - p) / 2) := by
    conv_lhs => rw [e2]
    exact Real.cos_sub _ _
  rw [sA, cA, sP, cP]
  ring

/-- **C73** The roofs of two groups meet in the pivot plane between them: in this plane, both roofs have the same height, on
the outer and on the inner side, so both sides meet in one mitred edge. If the groups are tented differently, they meet
nowhere else. -/
theorem C73_mitre (h : Plan.make cfg side = .ok plan) (v : Vec) :
    above plan.tent.alnumOT v - above plan.tent.pinkyOT v =
      2 * Real.sin ((cfg.body.alnumTentAngle - cfg.body.pinkyTentAngle) / 2) * above plan.tent.pivotOB v ∧
    above plan.tent.alnumIT v - above plan.tent.pinkyIT v =
      2 * Real.sin ((cfg.body.alnumTentAngle - cfg.body.pinkyTentAngle) / 2) * above plan.tent.pivotIB v ∧
    above plan.tent.thumbOT v - above plan.tent.pinkyOT v =
      2 * Real.sin ((cfg.body.thumbTentAngle - cfg.body.pinkyTentAngle) / 2) * above plan.tent.pivotOF v ∧
    above plan.tent.thumbIT v - above plan.tent.pinkyIT v =
      2 * Real.sin ((cfg.body.thumbTentAngle - cfg.body.pinkyTentAngle) / 2) * above plan.tent.pivotIF v := by
  obtain ⟨hm⟩ := make_made h
  obtain ⟨t1, t2, t3, t4, t5, t6, t7, t8, t9, t10⟩ := hm.tent
  have tok := hm.tentOk
  obtain ⟨w, rfl⟩ := hm.onto v
  simp only [above_eq]
  rw [(t1 tok.alnumIT.1).2, (t2 tok.alnumOT.1).2, (t3 tok.pivotIB.1).2, (t4 tok.pivotOB.1).2, (t5 tok.thumbIT.1).2,
    (t6 tok.thumbOT.1).2, (t7 tok.pivotIF.1).2, (t8 tok.pivotOF.1).2, (t9 tok.pinkyIT.1).2, (t10 tok.pinkyOT.1).2]
  refine ⟨mitre (r := 0) (by simpa using tok.alnumOT.2) (by simpa using tok.pinkyOT.2) tok.pivotOB.2 rfl w,
    mitre tok.alnumIT.2 tok.pinkyIT.2 tok.pivotIB.2 rfl w,
    mitre (r := 0) (by simpa using tok.thumbOT.2) (by simpa using tok.pinkyOT.2) tok.pivotOF.2 rfl w,
    mitre tok.thumbIT.2 tok.pinkyIT.2 tok.pivotIF.2 rfl w⟩

/-- **C73** So the edge is the meet of the roofs. -/
theorem C73_edge (h : Plan.make cfg side = .ok plan)
    (hs : Real.sin ((cfg.body.alnumTentAngle - cfg.body.pinkyTentAngle) / 2) ≠ 0) (v : Vec)
    (hv : above plan.tent.alnumOT v = 0) : above plan.tent.pinkyOT v = 0 ↔ above plan.tent.pivotOB v = 0 := by
  have := (C73_mitre h v).1
  rw [hv] at this
  constructor
  · intro h0
    rw [h0] at this
    have h2 : 2 * Real.sin ((cfg.body.alnumTentAngle - cfg.body.pinkyTentAngle) / 2) ≠ 0 := by simpa using hs
    rcases mul_eq_zero.mp (show 2 * Real.sin ((cfg.body.alnumTentAngle - cfg.body.pinkyTentAngle) / 2) *
      above plan.tent.pivotOB v = 0 by linarith) with h3 | h3
    · exact absurd h3 h2
    · exact h3
  · intro h0
    rw [h0] at this
    linarith

/-- **C73** The gap of the crease: the tops of two keycaps on both sides of the crease, that are one column pitch apart in
the flat layout, keep their distance. -/
theorem C73_caps (h : Plan.make cfg side = .ok plan) :
    ∃ l0 alnum0 pinky0, Layout.make cfg.layout cfg.switch cfg.body.roofThickness = .ok l0 ∧
      l0.alnum = .ok alnum0 ∧ l0.pinky = .ok pinky0 ∧
    ∀ (sA sP : Side) (rA cA rP cP : ℕ) (kA kP kA' kP' : Key),
      keyAt (halfOf l0 sA) rA 0 cA = some kA → keyAt (halfOf l0 sP) rP 1 cP = some kP →
      keyAt (halfOf plan.layout sA) rA 0 cA = some kA' → keyAt (halfOf plan.layout sP) rP 1 cP = some kP' →
      (∀ k ∈ alnum0, k.position.x ≤ kA.position.x) → (∀ k ∈ pinky0, kP.position.x ≤ k.position.x) →
      kP.position.x = kA.position.x + cfg.layout.columnPitch →
      Spec.dist (capTop cfg.layout kA') (capTop cfg.layout kP') = Spec.dist (capTop cfg.layout kA) (capTop cfg.layout kP) := by
  obtain ⟨hm⟩ := make_made h
  have two0 := make_two hm.arranged.make
  refine ⟨hm.l0, _, _, hm.arranged.make, alnum_ok two0 none, pinky_ok two0 none, ?_⟩
  intro sA sP rA cA rP cP kA kP kA' kP' hkA hkP hkA' hkP' maxA minP hx
  obtain ⟨f, -, hf, -⟩ := make_fingers hm.arranged.make
  obtain ⟨off, qA, qP, dy, hoff, ea, ep, -, -, mA, xA, mP, xP, hpiv⟩ := hm.arranged.parts
  have mem : ∀ (s : Side) (row g col : ℕ) (k : Key), keyAt (halfOf hm.l0 s) row g col = some k → k ∈ fingers hm.l0 g none := by
    intro s row g col k hk
    unfold keyAt at hk
    obtain ⟨r, hr, hk⟩ := Option.bind_eq_some_iff.mp hk
    obtain ⟨gk, hgk, hk⟩ := Option.bind_eq_some_iff.mp hk
    obtain ⟨o, ho, hk⟩ := Option.bind_eq_some_iff.mp hk
    unfold fingers
    refine List.mem_flatMap.mpr ⟨halfOf hm.l0 s, by cases s <;> simp [selected, halfOf], ?_⟩
    unfold keysOf
    refine List.mem_flatMap.mpr ⟨r, List.mem_of_getElem? hr, ?_⟩
    rw [List.getD_eq_getElem?_getD, hgk]
    exact List.mem_filterMap.mpr ⟨o, List.mem_of_getElem? ho, hk⟩
  have mkA := mem _ _ _ _ _ hkA
  have mkP := mem _ _ _ _ _ hkP
  obtain ⟨vA, zA, rfl⟩ := hf 0 (by norm_num) none kA mkA
  obtain ⟨vP, zP, rfl⟩ := hf 1 (by norm_num) none kP mkP
  obtain ⟨wA, zwA, rfl⟩ := hf 0 (by norm_num) none qA mA
  obtain ⟨wP, zwP, rfl⟩ := hf 1 (by norm_num) none qP mP
  have pt : ∀ (u v : Vec), u.transformed ((Key.make cfg.layout f 1).translate v).matrix = u + v := fun u v => by
    rw [Key.translate_make]
  have pos : ∀ v : Vec, ((Key.make cfg.layout f 1).translate v).position = v := by
    intro v
    show (0 : Vec).transformed _ = v
    rw [pt]
    ext <;> simp
  simp only [pos] at maxA minP xA xP hx hpiv
  have e1 : wA.x = vA.x := by
    have h1 := maxA _ mA
    rw [pos] at h1
    have h2 := xA _ mkA
    rw [pos, Vec.lt_iff] at h2
    push Not at h2
    exact le_antisymm h1 h2.1
  have e2 : wP.x = vP.x := by
    have h1 := minP _ mP
    rw [pos] at h1
    have h2 := xP _ mkP
    rw [pos, Vec.lt_iff] at h2
    push Not at h2
    exact le_antisymm h2.1 h1
  have aff : ∀ v : Vec, Mat.Affine ((Key.make cfg.layout f 1).translate v).matrix := fun v => (shift_motion v).1
  obtain ⟨aa, ap, -⟩ := arranged_motions hm.arranged
  rw [hm.layout0, keyAt_moved _ _ _ _ _ _ _ _ (by norm_num), hkA] at hkA'
  rw [hm.layout0, keyAt_moved _ _ _ _ _ _ _ _ (by norm_num), hkP] at hkP'
  simp only [Option.map_some, if_true, one_ne_zero, if_false, Option.some.injEq] at hkA' hkP'
  subst hkA'
  subst hkP'
  have rig := (hm.motionM.mul hm.motionD).2.1
  have dist_eq : ∀ p q : Vec, Spec.dist (p.transformed (hm.M * hm.D)) (q.transformed (hm.M * hm.D)) = Spec.dist p q := by
    intro p q
    unfold Spec.dist
    rw [rig p q]
  unfold capTop
  rw [Key.point_transform (aff _), Key.point_transform (aff _), Mat.transformed_mul aa.1, Mat.transformed_mul ap.1, dist_eq, pt, pt,
    ea, ep, Mat.transformed_mul (shift_motion _).1, shift_apply, turn_apply, turn_apply]
  unfold Spec.dist
  congr 1
  unfold tentCreaseOffset at hoff
  dsimp only at hoff
  obtain ⟨p1, h1, hoff⟩ := bind_ok hoff
  obtain ⟨p2, h2, hoff⟩ := bind_ok hoff
  cases hoff
  unfold pyDiv at h1 h2
  split_ifs at h1 h2 with hc
  cases h1
  cases h2
  have hpx := congrArg Vec.x hpiv
  have hpz := congrArg Vec.z hpiv
  simp only [Vec.mul_x, Vec.mul_z, Vec.add_x, Vec.add_z, zwA, zwP] at hpx hpz
  have hpz : hm.pivot.z = 0 := by rw [hpz]; ring
  simp only [distSq, Vec.add_x, Vec.add_y, Vec.add_z, zA, zP, hpz]
  rw [e1, e2] at hpx
  rw [hpx, hx]
  generalize hh : (cfg.body.alnumTentAngle - cfg.body.pinkyTentAngle) / 2 = t at *
  generalize hmm : cfg.body.pinkyTentAngle + t = m
  have e1 : cfg.body.alnumTentAngle = m + t := by rw [← hmm, ← hh]; ring
  have e2 : cfg.body.pinkyTentAngle = m - t := by rw [← hmm]; ring
  rw [e1, e2, Real.sin_add, Real.cos_add, Real.sin_sub, Real.cos_sub]
  have h1 := Real.sin_sq_add_cos_sq t
  have h2 := Real.sin_sq_add_cos_sq m
  generalize Real.sin t = s at *
  generalize Real.cos t = c at *
  generalize Real.sin m = S at *
  generalize Real.cos m = C at *
  generalize cfg.layout.columnPitch = P at *
  generalize cfg.layout.capTopToPlate = H at *
  generalize hX : P / 2 / c = X
  generalize hY : H / c = Y
  have eX : P = 2 * (X * c) := by rw [← hX]; field_simp
  have eY : H = Y * c := by rw [← hY]; field_simp
  subst eX
  subst eY
  linear_combination (4 * X ^ 2 * c ^ 2) * h2

end Chrumm.Part
