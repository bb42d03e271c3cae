import Verif.Props.PlanExample
import Verif.Spec.Halves
import Verif.Props.PlanMore
import Verif.Props.BodyMake

/-! Both halves of the keyboard meet. -/

namespace Chrumm.Part
open Geo Geo.Spec Spec

/-- If both succeed, the results are related. -/
def Rel {α : Type} (R : α → α → Prop) (x y : Py α) : Prop := ∀ a b, x = .ok a → y = .ok b → R a b

theorem rel_bind {α β : Type} {x : Py α} {f g : α → Py β} {R : β → β → Prop} (h : ∀ a, x = .ok a → Rel R (f a) (g a)) :
    Rel R (x >>= f) (x >>= g) := by
  intro a b ha hb
  cases x with
  | error e => cases ha
  | ok c => exact h c rfl a b ha hb

theorem rel_bind2 {α β : Type} {x y : Py α} {f g : α → Py β} {S : α → α → Prop} {R : β → β → Prop} (hs : Rel S x y)
    (h : ∀ a b, S a b → Rel R (f a) (g b)) : Rel R (x >>= f) (y >>= g) := by
  intro a b ha hb
  cases x with
  | error e => cases ha
  | ok c =>
    cases y with
    | error e => cases hb
    | ok d => exact h c d (hs c d rfl rfl) a b ha hb

theorem rel_pure {α : Type} {R : α → α → Prop} {a b : α} (h : R a b) : Rel R (pure a) (pure b) := by
  intro x y hx hy
  cases hx
  cases hy
  exact h

theorem rel_error {α : Type} {R : α → α → Prop} {e : Exn} {x : Py α} : Rel R (.error e) x := by
  intro a b ha
  cases ha

/-- The hole of the screw is the same for the nut and the head. -/
theorem screwHole_rel (q : Quality) (taper : Option ℝ) (cfg : BracketCfg) (c : Vec) (n n' u : Bool) :
    Rel (fun x y => x.2.1 = y.2.1) (screwHole q taper cfg c n u) (screwHole q taper cfg c n' u) := by
  unfold screwHole
  refine rel_bind fun hole _ => ?_
  dsimp only
  refine rel_bind2 (S := fun _ _ => True) (fun _ _ _ _ => trivial) fun a b _ => ?_
  exact rel_pure rfl

/-- Corner brackets with the same edges. -/
def SameCorner (x y : CornerBracket) : Prop :=
  x.wallEdge = y.wallEdge ∧ x.roofEdge = y.roofEdge ∧ x.splitEdge = y.splitEdge ∧ x.splitHoles = y.splitHoles

theorem cornerFinish_rel (q : Quality) (cfg : BracketCfg) (s : CornerSketch) (L R : List Vec) (aR : Vec) (x y : CornerBracket)
    (h : SameCorner x y) (zip : Option CableCfg) : Rel SameCorner (cornerFinish q cfg s L R aR x zip) (cornerFinish q cfg s L R aR y zip) := by
  obtain ⟨h1, h2, h3, h4⟩ := h
  unfold cornerFinish
  cases zip with
  | none => exact rel_pure ⟨h1, h2, h3, h4⟩
  | some cable =>
    dsimp only
    refine rel_bind fun a _ => ?_
    obtain ⟨_, _, _, _, _, _⟩ := a
    exact rel_pure ⟨h1, rfl, rfl, by dsimp only; rw [h4]⟩

theorem cornerForward_rel (q : Quality) (taper : Option ℝ) (cfg : BracketCfg) (zip : Option CableCfg) (a b c : Vec) (m i : ℝ)
    (n n' : Bool) : Rel SameCorner (cornerForward q taper cfg zip a b c m i n) (cornerForward q taper cfg zip a b c m i n') := by
  unfold cornerForward
  refine rel_bind fun s _ => ?_
  dsimp only
  refine rel_bind fun l0 _ => rel_bind fun l1 _ => rel_bind fun r0 _ => rel_bind fun r1 _ => ?_
  refine rel_bind2 (screwHole_rel q taper cfg _ n n' false) fun x y hxy => ?_
  obtain ⟨p, hL, hR⟩ := x
  obtain ⟨p', hL', hR'⟩ := y
  dsimp only at hxy
  subst hxy
  refine cornerFinish_rel _ _ _ _ _ _ _ _ ?_ _
  exact ⟨rfl, rfl, rfl, rfl⟩

theorem corner_rel (q : Quality) (taper : Option ℝ) (cfg : BracketCfg) (cable : Option CableCfg) (a b c : Vec) (n n' : Bool) :
    Rel SameCorner (CornerBracket.make q taper cfg cable a b c n) (CornerBracket.make q taper cfg cable a b c n') := by
  unfold CornerBracket.make
  dsimp only
  split
  · refine rel_bind2 (cornerForward_rel _ _ _ _ _ _ _ _ _ n n') fun x y hxy => ?_
    obtain ⟨h1, h2, h3, h4⟩ := hxy
    refine rel_pure ⟨?_, ?_, ?_, ?_⟩ <;> unfold CornerBracket.mirrored <;> dsimp only
    · rw [h1]
    · rw [h2]
    · rw [h3]
    · rw [h4]
  · exact cornerForward_rel _ _ _ _ _ _ _ _ _ n n'

/-- Roof brackets with the same edges. -/
def SameRoof (x y : RoofBracket) : Prop := x.roofEdge = y.roofEdge ∧ x.splitEdge = y.splitEdge ∧ x.splitHole = y.splitHole

theorem roofFinish_rel (q : Quality) (taper : Option ℝ) (cfg : BracketCfg) (n n' : Bool) (m : Mat) (L R f e : List Vec)
    (ps : List Piece) : Rel SameRoof (roofFinish q taper cfg n m L R f e ps) (roofFinish q taper cfg n' m L R f e ps) := by
  unfold roofFinish
  refine rel_bind2 (screwHole_rel q taper cfg _ n n' false) fun x y hxy => ?_
  obtain ⟨p, hL, hR⟩ := x
  obtain ⟨p', hL', hR'⟩ := y
  dsimp only at hxy
  subst hxy
  exact rel_pure ⟨rfl, rfl, rfl⟩

theorem roof_rel (q : Quality) (taper : Option ℝ) (cfg : BracketCfg) (mount : Option MountBoss) (sa ih : ℝ) (a b : Vec) (m : Mat)
    (n n' : Bool) : Rel SameRoof (RoofBracket.make q taper cfg mount sa ih a b m n) (RoofBracket.make q taper cfg mount sa ih a b m n') := by
  unfold RoofBracket.make
  dsimp only
  refine rel_bind fun x _ => ?_
  obtain ⟨LF, LB, T, G⟩ := x
  dsimp only
  refine rel_bind fun d _ => ?_
  cases mount with
  | none =>
    dsimp only
    unfold roofPlain
    dsimp only
    refine rel_bind fun _ _ => rel_bind fun _ _ => rel_bind fun _ _ => rel_bind fun _ _ => rel_bind fun _ _ => rel_bind fun _ _ => ?_
    exact roofFinish_rel _ _ _ _ _ _ _ _ _ _ _
  | some mt =>
    dsimp only
    unfold roofMounted
    dsimp only
    refine rel_bind fun x _ => ?_
    obtain ⟨_, _, _, _, _⟩ := x
    dsimp only
    iterate 16 refine rel_bind fun _ _ => ?_
    exact roofFinish_rel _ _ _ _ _ _ _ _ _ _ _

/-- Floor brackets with the same edges. -/
def SameFloor (x y : FloorBracket) : Prop :=
  x.taperEdge = y.taperEdge ∧ x.splitEdge = y.splitEdge ∧ x.splitHole = y.splitHole ∧ x.lipEdge = y.lipEdge

theorem floorForward_rel (q : Quality) (taper : Option ℝ) (cfg : BracketCfg) (a c d e : Vec) (m : ℝ) (n n' : Bool) :
    Rel SameFloor (floorForward q taper cfg a c d e m n) (floorForward q taper cfg a c d e m n') := by
  unfold floorForward
  refine rel_bind fun x _ => ?_
  obtain ⟨arch, z⟩ := x
  dsimp only
  refine rel_bind fun _ _ => ?_
  refine rel_bind2 (screwHole_rel q taper cfg _ n n' true) fun x y hxy => ?_
  obtain ⟨p, hL, hR⟩ := x
  obtain ⟨p', hL', hR'⟩ := y
  dsimp only at hxy ⊢
  subst hxy
  refine rel_bind fun _ _ => rel_bind fun _ _ => rel_bind fun _ _ => ?_
  exact rel_pure ⟨rfl, rfl, rfl, rfl⟩

theorem floor_rel (q : Quality) (taper : Option ℝ) (cfg : BracketCfg) (a b c d e : Vec) (n n' : Bool) :
    Rel SameFloor (FloorBracket.make q taper cfg a b c d e n) (FloorBracket.make q taper cfg a b c d e n') := by
  unfold FloorBracket.make
  dsimp only
  split
  · refine rel_bind2 (floorForward_rel _ _ _ _ _ _ _ _ n n') fun x y hxy => ?_
    obtain ⟨h1, h2, h3, h4⟩ := hxy
    refine rel_pure ⟨?_, ?_, ?_, ?_⟩ <;> unfold FloorBracket.mirrored <;> dsimp only
    · rw [h1]
    · rw [h2]
    · rw [h3]
    · rw [h4]
  · exact floorForward_rel _ _ _ _ _ _ _ _ n n'

/-! ### Both sides -/

variable {cfg : KeyboardCfg} {fL fR : FullPlan}

theorem fullPlan_layout (hs : SymmetricCfg cfg.layout) {side : Side} {f : FullPlan} (h : FullPlan.make cfg side = .ok f) :
    Same f.plan.layout := by
  obtain ⟨hm⟩ := make_made (fullPlan_ok h).1
  rw [hm.layout, hm.hL, hm.arranged.layout]
  have h0 : Same hm.l0 := C51_symmetric (cfg := cfg.plan.layout) hs hm.arranged.make
  exact ((h0.moved _ _ _).moved _ _ _).moved _ _ _

/-- **C91** For layouts whose sides mirror each other, both halves have the same plan, with the same bosses and hitch. -/
theorem C91_plan (hs : SymmetricCfg cfg.layout) (hL : FullPlan.make cfg .left = .ok fL) (hR : FullPlan.make cfg .right = .ok fR) :
    fR = fL.onSide .right := by
  obtain ⟨l1, l2, l3⟩ := fullPlan_ok hL
  obtain ⟨r1, r2, r3⟩ := fullPlan_ok hR
  have e := C75_symmetric (cfg := cfg.plan) hs
  rw [l1, r1] at e
  have e := Except.ok.inj e
  obtain ⟨pR, bR, tR⟩ := fR
  dsimp only at e r2 r3
  subst e
  have e2 : (.ok fL.bosses : Py Bosses) = .ok bR := l2.symm.trans r2
  have e3 : (.ok fL.hitch : Py (Option Hitch)) = .ok tR := l3.symm.trans r3
  rw [← Except.ok.inj e2, ← Except.ok.inj e3]
  rfl

/-- Joints with the same edges. -/
def SameJoint (x y : Joint) : Prop := x.splitF = y.splitF ∧ x.splitB = y.splitB ∧ x.holesF = y.holesF ∧ x.holesB = y.holesB ∧
  x.faces = y.faces ∧ x.OB = y.OB

theorem joint_rel (f : FullPlan) (s : BodyStep) (i : InnerRim) (r : Ridge) (bc : Option BracketCfg) :
    Rel SameJoint (makeJoint cfg f s i r bc) (makeJoint cfg (f.onSide .right) s i r bc) := by
  unfold makeJoint
  cases bc with
  | none => exact rel_pure ⟨rfl, rfl, rfl, rfl, rfl, rfl⟩
  | some bc =>
    dsimp only [FullPlan.onSide]
    refine rel_bind2 (corner_rel _ _ _ _ _ _ _ _ _) fun x x' hx => ?_
    refine rel_bind2 (corner_rel _ _ _ _ _ _ _ _ _) fun y y' hy => ?_
    refine rel_bind fun _ _ => rel_bind fun _ _ => ?_
    refine rel_bind2 (roof_rel _ _ _ _ _ _ _ _ _ _ _) fun z z' hz => ?_
    refine rel_bind2 (S := fun _ _ => True) (fun _ _ _ _ => trivial) fun _ _ _ => ?_
    obtain ⟨x1, x2, x3, x4⟩ := hx
    obtain ⟨y1, y2, y3, y4⟩ := hy
    obtain ⟨z1, z2, z3⟩ := hz
    rw [y1]
    refine rel_bind fun c _ => ?_
    obtain ⟨c1, c2, c3, c4, c5⟩ := c
    dsimp only
    rw [y2]
    refine rel_bind fun _ _ => rel_bind fun _ _ => ?_
    refine rel_pure ⟨?_, ?_, ?_, ?_, rfl, rfl⟩ <;> dsimp only
    · rw [x3]
    · rw [y3, z2]
    · rw [x4]
    · rw [y4, z3]

/-- Bodies that have the same joint and the same outlines. -/
def SameBody (x y : Body) : Prop := x.splitFaces = y.splitFaces ∧ x.joint.faces = y.joint.faces ∧ x.outlineI = y.outlineI ∧
  x.outlineO = y.outlineO

theorem body_rel (f : FullPlan) (hl : Same f.plan.layout) (hside : f.plan.side = .left) :
    Rel SameBody (Body.make cfg f) (Body.make cfg (f.onSide .right)) := by
  have hk : bodyKeys f.plan = bodyKeys (f.onSide .right).plan := by
    unfold bodyKeys FullPlan.onSide
    dsimp only
    rw [hside]
    unfold Layout.alnum Layout.pinky
    rw [hl.groupKeys, hl.groupKeys, hl.thumb]
  unfold Body.make
  rw [hk]
  refine rel_bind fun _ _ => rel_bind fun _ _ => ?_
  refine rel_bind (x := bodyCorners cfg f) fun c _ => ?_
  refine rel_bind (x := bodyStep cfg f) fun s _ => ?_
  refine rel_bind (x := outerRim cfg f c s) fun o _ => ?_
  refine rel_bind (x := innerRim cfg f c s) fun i _ => ?_
  refine rel_bind (x := encoderHole cfg f.plan.points s cfg.encoder) fun e _ => ?_
  refine rel_bind (x := ridgeEdges f.plan.points c s o i e) fun r _ => ?_
  refine rel_bind2 (joint_rel f s i r cfg.bracket) fun j j' hj => ?_
  obtain ⟨h1, h2, h3, h4, h5, -⟩ := hj
  refine rel_bind (x := hitchOutline cfg f.plan.points c cfg.palm f.hitch) fun t _ => ?_
  refine rel_pure ⟨?_, h5, rfl, rfl⟩
  unfold Body.splitFaces
  dsimp only
  rw [h1, h2, h3, h4]

/-- Bracket stages of the floor with the same edges. -/
def SameFloorJoint (x y : FloorJoint) : Prop :=
  x.profile = y.profile ∧ x.innerEdge = y.innerEdge ∧ x.splitEdge = y.splitEdge ∧ x.splitHoles = y.splitHoles

theorem floorJoint_rel (side side' : Side) (body body' : Body) (p : Profile) (bc : Option BracketCfg) :
    Rel SameFloorJoint (floorJoint cfg side body p bc) (floorJoint cfg side' body' p bc) := by
  unfold floorJoint
  cases bc with
  | none =>
    dsimp only
    refine rel_bind fun e _ => ?_
    obtain ⟨a, b⟩ := e
    exact rel_pure ⟨rfl, rfl, rfl, rfl⟩
  | some bc =>
    dsimp only
    iterate 5 refine rel_bind fun _ _ => ?_
    refine rel_bind2 (floor_rel _ _ _ _ _ _ _ _ _ _) fun x x' hx => ?_
    iterate 3 refine rel_bind fun _ _ => ?_
    refine rel_bind2 (floor_rel _ _ _ _ _ _ _ _ _ _) fun y y' hy => ?_
    refine rel_bind2 (S := fun _ _ => True) (fun _ _ _ _ => trivial) fun _ _ _ => ?_
    obtain ⟨x1, x2, x3, x4⟩ := hx
    obtain ⟨y1, y2, y3, y4⟩ := hy
    rw [x4, y4]
    iterate 14 refine rel_bind fun _ _ => ?_
    refine rel_pure ⟨rfl, ?_, ?_, ?_⟩ <;> dsimp only
    · rw [x1, y1]
    · rw [x2, y2]
    · rw [x3, y3]

/-- Floors with the same surfaces, except for the brackets. -/
def SameFloors (x y : Floor) : Prop := x.splitFace = y.splitFace ∧ x.faces = y.faces ∧ x.sketch = y.sketch ∧
  x.joint.profile = y.joint.profile

theorem floors_rel (f : FullPlan) (x y : Body) (h : SameBody x y) :
    Rel SameFloors (Floor.make cfg f x) (Floor.make cfg (f.onSide .right) y) := by
  obtain ⟨-, -, h1, h2⟩ := h
  unfold Floor.make
  rw [h1, h2]
  refine rel_bind fun sk _ => ?_
  refine rel_bind2 (floorJoint_rel f.plan.side _ x y sk cfg.bracket) fun j j' hj => ?_
  obtain ⟨e1, e2, e3, e4⟩ := hj
  dsimp only
  rw [e1]
  refine rel_bind fun hx _ => ?_
  obtain ⟨hI, hO⟩ := hx
  dsimp only
  refine rel_bind (x := floorBumpers cfg f.plan.points j'.profile.p0 cfg.bumper) fun b _ => ?_
  refine rel_bind (x := floorBosses f cfg.palm) fun bs _ => ?_
  refine rel_bind fun _ _ => rel_bind fun _ _ => ?_
  refine rel_pure ⟨?_, ?_, rfl, e1⟩
  · unfold Floor.splitFace
    dsimp only
    rw [e3, e4]
  · dsimp only
    unfold floorFaceList
    rw [e1, e2, e3, e4]

/-- **C91** For layouts whose sides mirror each other, both halves of the body meet: the faces between them have the same
outlines and the same screw holes (and the part below the cable is the same), although only one side has room for the nuts.
Both bodies have the same outlines at the bottom. -/
theorem C91_body (hs : SymmetricCfg cfg.layout) (hL : FullPlan.make cfg .left = .ok fL) (hR : FullPlan.make cfg .right = .ok fR)
    {bL bR : Body} (bodyL : Body.make cfg fL = .ok bL) (bodyR : Body.make cfg fR = .ok bR) :
    bL.splitFaces = bR.splitFaces ∧ bL.joint.faces = bR.joint.faces ∧ bL.outlineI = bR.outlineI ∧ bL.outlineO = bR.outlineO := by
  have hside : fL.plan.side = .left := by
    obtain ⟨hm⟩ := make_made (fullPlan_ok hL).1
    exact hm.side_eq
  rw [C91_plan hs hL hR] at bodyR
  exact body_rel fL (fullPlan_layout hs hL) hside bL bR bodyL bodyR

/-- **C91** The same for the floors: all faces are the same, in particular the face between both halves with its screw holes. -/
theorem C91_floor (hs : SymmetricCfg cfg.layout) (hL : FullPlan.make cfg .left = .ok fL) (hR : FullPlan.make cfg .right = .ok fR)
    {bL bR : Body} (bodyL : Body.make cfg fL = .ok bL) (bodyR : Body.make cfg fR = .ok bR)
    {gL gR : Floor} (floorL : Floor.make cfg fL bL = .ok gL) (floorR : Floor.make cfg fR bR = .ok gR) :
    gL.splitFace = gR.splitFace ∧ gL.faces = gR.faces := by
  have hb := C91_body hs hL hR bodyL bodyR
  rw [C91_plan hs hL hR] at floorR
  obtain ⟨h1, h2, -⟩ := floors_rel fL bL bR hb gL gR floorL floorR
  exact ⟨h1, h2⟩

/-! ### The plane between both halves -/

theorem joint_plane {f : FullPlan} {s : BodyStep} {i : InnerRim} {r : Ridge} {bc : Option BracketCfg} {j : Joint}
    (h : makeJoint cfg f s i r bc = .ok j) : ∀ e ∈ j.holesF ++ j.holesB, ∀ v ∈ e, v.x = 0 := by
  unfold makeJoint at h
  cases bc with
  | none =>
    cases Except.ok.inj h
    intro e he
    cases he
  | some bc =>
    dsimp only at h
    obtain ⟨x, h1, h⟩ := bind_ok h
    obtain ⟨y, h2, h⟩ := bind_ok h
    obtain ⟨pk, -, h⟩ := bind_ok h
    obtain ⟨ref, -, h⟩ := bind_ok h
    obtain ⟨z, h3, h⟩ := bind_ok h
    obtain ⟨_, -, h⟩ := bind_ok h
    obtain ⟨⟨c1, c2, c3, c4, c5⟩, -, h⟩ := bind_ok h
    dsimp only at h
    obtain ⟨_, -, h⟩ := bind_ok h
    obtain ⟨_, -, h⟩ := bind_ok h
    cases Except.ok.inj h
    obtain ⟨-, -, -, -, -, -, -, -, x1⟩ := C82_corner_fit h1
    obtain ⟨-, -, -, -, -, -, -, -, y1⟩ := C82_corner_fit h2
    obtain ⟨-, -, -, -, -, -, z1⟩ := C82_roof_fit h3
    intro e he
    rcases List.mem_append.mp he with he | he
    · exact x1 e he
    rcases List.mem_append.mp he with he | he
    · exact y1 e he
    · rw [List.mem_singleton.mp he]
      exact z1

/-- **C91** The faces between both halves, and the starts of the screw holes, are in the plane x = 0, and they are faces of
the body. -/
theorem C91_plane {f : FullPlan} {b : Body} (h : Body.make cfg f = .ok b) :
    ∀ s ∈ b.splitFaces, neat s.1 s.2 ∈ b.faces ∧ (∀ v ∈ s.1, v.x = 0) ∧ ∀ e ∈ s.2, ∀ v ∈ e, v.x = 0 := by
  unfold Body.make at h
  obtain ⟨_, -, h⟩ := bind_ok h
  obtain ⟨_, -, h⟩ := bind_ok h
  obtain ⟨_, -, h⟩ := bind_ok h
  obtain ⟨_, -, h⟩ := bind_ok h
  obtain ⟨_, -, h⟩ := bind_ok h
  obtain ⟨_, -, h⟩ := bind_ok h
  obtain ⟨_, -, h⟩ := bind_ok h
  obtain ⟨_, -, h⟩ := bind_ok h
  obtain ⟨j, hj, h⟩ := bind_ok h
  obtain ⟨_, -, h⟩ := bind_ok h
  cases Except.ok.inj h
  have hp := joint_plane hj
  have hyz : ∀ (l : List Vec), ∀ v ∈ l.map Vec.yz, v.x = 0 := by
    intro l v hv
    obtain ⟨w, -, rfl⟩ := List.mem_map.mp hv
    rfl
  intro s hs
  unfold Body.splitFaces at hs
  dsimp only at hs
  rcases List.mem_cons.mp hs with rfl | hs
  · refine ⟨?_, hyz _, fun e he => hp e (List.mem_append_left _ he)⟩
    simp [jointFaces]
  · rw [List.mem_singleton.mp hs]
    refine ⟨?_, hyz _, fun e he => hp e (List.mem_append_right _ he)⟩
    simp [jointFaces]

/-- Layouts that satisfy the hypothesis, with plans for both halves. -/
example : SymmetricCfg (exPlan 0 0).layout ∧ ∀ side, ∃ W H plan, Plan.make (exPlan W H) side = .ok plan := by
  refine ⟨⟨?_, rfl, rfl, rfl⟩, exPlan_succeeds⟩
  intro row hrow
  rw [List.eq_of_mem_replicate hrow]
  simp [mirrorStagger, List.replicate]

end Chrumm.Part
