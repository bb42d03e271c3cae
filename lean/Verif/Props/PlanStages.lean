import Verif.Props.PlanBase

/-! The stages of the plan. -/

namespace Chrumm.Part
open Geo Geo.Spec Spec

/-! ### Planes that are carried along -/

def UnitPlane (p : Plane) : Prop := p.normal.dot p.normal = 1

/-- The plane `p'` is the plane `p`, moved by the matrix. -/
def CarriedBy (m : Mat) (p p' : Plane) : Prop :=
  UnitPlane p → UnitPlane p' ∧ ∀ v : Vec, p'.distance (v.transformed m) = p.distance v

theorem CarriedBy.trans {a b : Mat} {p q r : Plane} (ha : Mat.Affine a) (h : CarriedBy a p q) (h' : CarriedBy b q r) :
    CarriedBy (a * b) p r := by
  intro hp
  obtain ⟨hq, e⟩ := h hp
  obtain ⟨hr, e'⟩ := h' hq
  refine ⟨hr, fun v => ?_⟩
  rw [Mat.transformed_mul ha, e', e]

theorem CarriedBy.of_transformed {m : Mat} (hm : Motion m) {p p' : Plane} (h : p.transformed m = .ok p') :
    CarriedBy m p p' := fun hn => Plane.transformed_ok hn hm h

theorem CarriedBy.of_translated {v : Vec} {p p' : Plane} (h : p.translated v = .ok p') : CarriedBy (shift v) p p' :=
  fun hn => Plane.translated_ok hn h

/-- A relation between all corresponding planes. -/
def TentPlanes.Rel (R : Plane → Plane → Prop) (p q : TentPlanes) : Prop :=
  R p.alnumIT q.alnumIT ∧ R p.alnumOT q.alnumOT ∧ R p.pivotIB q.pivotIB ∧ R p.pivotOB q.pivotOB ∧ R p.thumbIT q.thumbIT ∧
  R p.thumbOT q.thumbOT ∧ R p.pivotIF q.pivotIF ∧ R p.pivotOF q.pivotOF ∧ R p.pinkyIT q.pinkyIT ∧ R p.pinkyOT q.pinkyOT

def SidePlanes.Rel (R : Plane → Plane → Prop) (p q : SidePlanes) : Prop :=
  R p.alnumIL q.alnumIL ∧ R p.alnumOL q.alnumOL ∧ R p.alnumIF q.alnumIF ∧ R p.alnumOF q.alnumOF ∧
  R p.pinkyIR q.pinkyIR ∧ R p.pinkyOR q.pinkyOR

def WallPlanes.Rel (R : Plane → Plane → Prop) (p q : WallPlanes) : Prop :=
  R p.alnumIB q.alnumIB ∧ R p.alnumOB q.alnumOB ∧ R p.pinkyIF q.pinkyIF ∧ R p.pinkyOF q.pinkyOF

theorem TentPlanes.mapM_ok {f : Plane → Py Plane} {p q : TentPlanes} (h : p.mapM f = .ok q) :
    TentPlanes.Rel (fun a b => f a = .ok b) p q := by
  unfold TentPlanes.mapM at h
  obtain ⟨_, h1, h⟩ := bind_ok h
  obtain ⟨_, h2, h⟩ := bind_ok h
  obtain ⟨_, h3, h⟩ := bind_ok h
  obtain ⟨_, h4, h⟩ := bind_ok h
  obtain ⟨_, h5, h⟩ := bind_ok h
  obtain ⟨_, h6, h⟩ := bind_ok h
  obtain ⟨_, h7, h⟩ := bind_ok h
  obtain ⟨_, h8, h⟩ := bind_ok h
  obtain ⟨_, h9, h⟩ := bind_ok h
  obtain ⟨_, h10, h⟩ := bind_ok h
  cases h
  exact ⟨h1, h2, h3, h4, h5, h6, h7, h8, h9, h10⟩

theorem SidePlanes.mapM_ok {f : Plane → Py Plane} {p q : SidePlanes} (h : p.mapM f = .ok q) :
    SidePlanes.Rel (fun a b => f a = .ok b) p q := by
  unfold SidePlanes.mapM at h
  obtain ⟨_, h1, h⟩ := bind_ok h
  obtain ⟨_, h2, h⟩ := bind_ok h
  obtain ⟨_, h3, h⟩ := bind_ok h
  obtain ⟨_, h4, h⟩ := bind_ok h
  obtain ⟨_, h5, h⟩ := bind_ok h
  obtain ⟨_, h6, h⟩ := bind_ok h
  cases h
  exact ⟨h1, h2, h3, h4, h5, h6⟩

theorem WallPlanes.mapM_ok {f : Plane → Py Plane} {p q : WallPlanes} (h : p.mapM f = .ok q) :
    WallPlanes.Rel (fun a b => f a = .ok b) p q := by
  unfold WallPlanes.mapM at h
  obtain ⟨_, h1, h⟩ := bind_ok h
  obtain ⟨_, h2, h⟩ := bind_ok h
  obtain ⟨_, h3, h⟩ := bind_ok h
  obtain ⟨_, h4, h⟩ := bind_ok h
  cases h
  exact ⟨h1, h2, h3, h4⟩

theorem TentPlanes.Rel.mono {R S : Plane → Plane → Prop} {p q : TentPlanes} (h : ∀ a b, R a b → S a b) (hr : Rel R p q) :
    Rel S p q := by
  obtain ⟨h1, h2, h3, h4, h5, h6, h7, h8, h9, h10⟩ := hr
  exact ⟨h _ _ h1, h _ _ h2, h _ _ h3, h _ _ h4, h _ _ h5, h _ _ h6, h _ _ h7, h _ _ h8, h _ _ h9, h _ _ h10⟩

theorem SidePlanes.Rel.mono {R S : Plane → Plane → Prop} {p q : SidePlanes} (h : ∀ a b, R a b → S a b) (hr : Rel R p q) :
    Rel S p q := by
  obtain ⟨h1, h2, h3, h4, h5, h6⟩ := hr
  exact ⟨h _ _ h1, h _ _ h2, h _ _ h3, h _ _ h4, h _ _ h5, h _ _ h6⟩

theorem WallPlanes.Rel.mono {R S : Plane → Plane → Prop} {p q : WallPlanes} (h : ∀ a b, R a b → S a b) (hr : Rel R p q) :
    Rel S p q := by
  obtain ⟨h1, h2, h3, h4⟩ := hr
  exact ⟨h _ _ h1, h _ _ h2, h _ _ h3, h _ _ h4⟩

theorem TentPlanes.Rel.trans {R S T : Plane → Plane → Prop} {p q r : TentPlanes} (h : ∀ a b c, R a b → S b c → T a c)
    (hr : Rel R p q) (hs : Rel S q r) : Rel T p r := by
  obtain ⟨h1, h2, h3, h4, h5, h6, h7, h8, h9, h10⟩ := hr
  obtain ⟨k1, k2, k3, k4, k5, k6, k7, k8, k9, k10⟩ := hs
  exact ⟨h _ _ _ h1 k1, h _ _ _ h2 k2, h _ _ _ h3 k3, h _ _ _ h4 k4, h _ _ _ h5 k5, h _ _ _ h6 k6, h _ _ _ h7 k7,
    h _ _ _ h8 k8, h _ _ _ h9 k9, h _ _ _ h10 k10⟩

theorem SidePlanes.Rel.trans {R S T : Plane → Plane → Prop} {p q r : SidePlanes} (h : ∀ a b c, R a b → S b c → T a c)
    (hr : Rel R p q) (hs : Rel S q r) : Rel T p r := by
  obtain ⟨h1, h2, h3, h4, h5, h6⟩ := hr
  obtain ⟨k1, k2, k3, k4, k5, k6⟩ := hs
  exact ⟨h _ _ _ h1 k1, h _ _ _ h2 k2, h _ _ _ h3 k3, h _ _ _ h4 k4, h _ _ _ h5 k5, h _ _ _ h6 k6⟩

theorem WallPlanes.Rel.trans {R S T : Plane → Plane → Prop} {p q r : WallPlanes} (h : ∀ a b c, R a b → S b c → T a c)
    (hr : Rel R p q) (hs : Rel S q r) : Rel T p r := by
  obtain ⟨h1, h2, h3, h4⟩ := hr
  obtain ⟨k1, k2, k3, k4⟩ := hs
  exact ⟨h _ _ _ h1 k1, h _ _ _ h2 k2, h _ _ _ h3 k3, h _ _ _ h4 k4⟩

/-! ### Tent -/

theorem lt_trans3 : (∀ a : Vec, ¬ Vec.lt a a) ∧ (∀ a b c : Vec, Vec.lt a b → Vec.lt b c → Vec.lt a c) ∧
    ∀ a b c : Vec, Vec.lt a c → Vec.lt a b ∨ Vec.lt b c := by
  obtain ⟨h1, h2, h3, h4⟩ := C19_strict_total_order
  refine ⟨h1, h2, fun a b c h => ?_⟩
  by_cases hab : a = b
  · subst hab; exact Or.inr h
  · rcases (h3 a b).mp hab with h' | h'
    · exact Or.inl h'
    · exact Or.inr (h2 _ _ _ h' h)

theorem tentPivot_ok {cfg : PlanCfg} {l l' : Layout} {pivot : Vec} (h2 : TwoGroups l)
    (h : tentPivot cfg l = .ok (l', pivot)) :
    ∃ off kA kP, tentCreaseOffset cfg.layout cfg.body.alnumTentAngle cfg.body.pinkyTentAngle = .ok off ∧
      l' = l.moved (shift off) 1 (shift off) ∧
      kA ∈ fingers l' 0 none ∧ (∀ k ∈ fingers l' 0 none, ¬ kA.position < k.position) ∧
      kP ∈ fingers l' 1 none ∧ (∀ k ∈ fingers l' 1 none, ¬ k.position < kP.position) ∧
      pivot = (kA.position + kP.position) * (1 / 2 : ℝ) := by
  unfold tentPivot at h
  obtain ⟨off, h1, h⟩ := bind_ok h
  obtain ⟨_, -, h⟩ := bind_ok h
  have e : (l.mapGroup 0 (·.translate off)).mapThumb (·.translate off) = l.moved (shift off) 1 (shift off) := by
    rw [translate_fun, mapGroup0_eq, mapThumb_eq, Layout.moved_moved]
    simp only [one_mul_mat, (C21_monoid (shift off) 1 1 0).2.2.1]
  dsimp only at h
  rw [e] at h
  obtain ⟨kA, hA, h⟩ := bind_ok h
  obtain ⟨kP, hP, h⟩ := bind_ok h
  obtain ⟨pos, hpos, h⟩ := bind_ok h
  cases h
  have h2' := h2.moved (shift off) 1 (shift off)
  unfold Layout.maxAlnum at hA
  rw [alnum_ok h2'] at hA
  unfold Layout.minPinky at hP
  rw [pinky_ok h2'] at hP
  obtain ⟨a1, a2⟩ := maxBy_ok hA lt_trans3.2.1 lt_trans3.1 lt_trans3.2.2
  obtain ⟨p1, p2⟩ := minBy_ok hP lt_trans3.2.1 lt_trans3.1 lt_trans3.2.2
  refine ⟨off, kA, kP, h1, rfl, a1, a2, p1, p2, ?_⟩
  unfold Vec.div at hpos
  rw [if_neg (by norm_num)] at hpos
  cases hpos
  ext <;> simp only [Vec.mul_x, Vec.mul_y, Vec.mul_z] <;> ring

/-- A plane that is moved by a matrix. -/
theorem tentPlane_ok {z : ℝ} {m : Mat} (hm : Motion m) {p : Plane} (h : tentPlane z m = .ok p) :
    UnitPlane p ∧ ∀ v : Vec, p.distance (v.transformed m) = v.z - z := by
  unfold tentPlane at h
  rw [Plane.fromZ_eq] at h
  obtain ⟨h1, h2⟩ := Plane.transformed_ok (by simp [Vec.dot]) hm h
  refine ⟨h1, fun v => ?_⟩
  rw [h2]
  simp [Plane.distance, Vec.dot]

theorem pivotPlane_ok {x : ℝ} {m : Mat} (hm : Motion m) {p : Plane} (h : pivotPlane x m = .ok p) :
    UnitPlane p ∧ ∀ v : Vec, p.distance (v.transformed m) = v.x - x := by
  unfold pivotPlane at h
  rw [Plane.fromX_eq] at h
  obtain ⟨h1, h2⟩ := Plane.transformed_ok (by simp [Vec.dot]) hm h
  refine ⟨h1, fun v => ?_⟩
  rw [h2]
  simp [Plane.distance, Vec.dot]

/-- A rotation around the pivot. -/
noncomputable def turn (angle : ℝ) (pivot : Vec) : Mat := (1 : Mat).rotatedY angle (some pivot)

theorem turn_motion (a : ℝ) (c : Vec) : Motion (turn a c) := rotY_motion a (some c)

theorem turn_apply (a : ℝ) (c v : Vec) : v.transformed (turn a c) =
    ⟨c.x + (v.x - c.x) * Real.cos a + (v.z - c.z) * Real.sin a, v.y,
     c.z - (v.x - c.x) * Real.sin a + (v.z - c.z) * Real.cos a⟩ := by
  unfold turn Mat.rotatedY
  rw [Mat.transformed_rotateBy Mat.Affine.one ⟨rfl, rfl, rfl, rfl⟩, Vec.transformed_one]
  ext <;> simp [Vec.transformed] <;> ring

/-- What the planes of the roof are, in terms of the flat layout. -/
structure TentOk (body : BodyCfg) (pivot : Vec) (t : TentPlanes) : Prop where
  alnumIT : UnitPlane t.alnumIT ∧ ∀ v : Vec, t.alnumIT.distance (v.transformed (turn body.alnumTentAngle pivot)) = v.z + body.roofThickness
  alnumOT : UnitPlane t.alnumOT ∧ ∀ v : Vec, t.alnumOT.distance (v.transformed (turn body.alnumTentAngle pivot)) = v.z
  thumbIT : UnitPlane t.thumbIT ∧ ∀ v : Vec, t.thumbIT.distance (v.transformed (turn body.thumbTentAngle pivot)) = v.z + body.roofThickness
  thumbOT : UnitPlane t.thumbOT ∧ ∀ v : Vec, t.thumbOT.distance (v.transformed (turn body.thumbTentAngle pivot)) = v.z
  pinkyIT : UnitPlane t.pinkyIT ∧ ∀ v : Vec, t.pinkyIT.distance (v.transformed (turn body.pinkyTentAngle pivot)) = v.z + body.roofThickness
  pinkyOT : UnitPlane t.pinkyOT ∧ ∀ v : Vec, t.pinkyOT.distance (v.transformed (turn body.pinkyTentAngle pivot)) = v.z
  pivotIB : UnitPlane t.pivotIB ∧ ∀ v : Vec, t.pivotIB.distance
    (v.transformed (turn (body.pinkyTentAngle + (body.alnumTentAngle - body.pinkyTentAngle) / 2) pivot)) = v.x - pivot.x
  pivotOB : UnitPlane t.pivotOB ∧ ∀ v : Vec, t.pivotOB.distance
    (v.transformed (turn (body.pinkyTentAngle + (body.alnumTentAngle - body.pinkyTentAngle) / 2) pivot)) = v.x - pivot.x
  pivotIF : UnitPlane t.pivotIF ∧ ∀ v : Vec, t.pivotIF.distance
    (v.transformed (turn (body.pinkyTentAngle + (body.thumbTentAngle - body.pinkyTentAngle) / 2) pivot)) = v.x - pivot.x
  pivotOF : UnitPlane t.pivotOF ∧ ∀ v : Vec, t.pivotOF.distance
    (v.transformed (turn (body.pinkyTentAngle + (body.thumbTentAngle - body.pinkyTentAngle) / 2) pivot)) = v.x - pivot.x

theorem tent_ok {body : BodyCfg} {pivot : Vec} {l l' : Layout} {t : TentPlanes}
    (h : tent body pivot l = .ok (l', t)) :
    l' = l.moved (turn body.alnumTentAngle pivot) (turn body.pinkyTentAngle pivot) (turn body.thumbTentAngle pivot) ∧
    TentOk body pivot t := by
  unfold tent at h
  dsimp only at h
  obtain ⟨_, h1, h⟩ := bind_ok h
  obtain ⟨_, h2, h⟩ := bind_ok h
  obtain ⟨_, h3, h⟩ := bind_ok h
  obtain ⟨_, h4, h⟩ := bind_ok h
  obtain ⟨_, h5, h⟩ := bind_ok h
  obtain ⟨_, h6, h⟩ := bind_ok h
  obtain ⟨_, h7, h⟩ := bind_ok h
  obtain ⟨_, h8, h⟩ := bind_ok h
  obtain ⟨_, h9, h⟩ := bind_ok h
  obtain ⟨_, h10, h⟩ := bind_ok h
  cases h
  have neg : ∀ {p : Plane} {m : Mat}, (UnitPlane p ∧ ∀ v : Vec, p.distance (v.transformed m) = v.z - -body.roofThickness) →
      UnitPlane p ∧ ∀ v : Vec, p.distance (v.transformed m) = v.z + body.roofThickness :=
    fun h => ⟨h.1, fun v => by rw [h.2]; ring⟩
  have zer : ∀ {p : Plane} {m : Mat}, (UnitPlane p ∧ ∀ v : Vec, p.distance (v.transformed m) = v.z - 0) →
      UnitPlane p ∧ ∀ v : Vec, p.distance (v.transformed m) = v.z :=
    fun h => ⟨h.1, fun v => by rw [h.2]; ring⟩
  constructor
  · rw [mapGroup0_eq, mapThumb_eq, mapGroup1_eq, Layout.moved_moved, Layout.moved_moved]
    simp only [one_mul_mat, (C21_monoid _ 1 1 0).2.2.1]
    rfl
  · exact ⟨neg (tentPlane_ok (turn_motion _ _) h1), zer (tentPlane_ok (turn_motion _ _) h2),
      neg (tentPlane_ok (turn_motion _ _) h5), zer (tentPlane_ok (turn_motion _ _) h6),
      neg (tentPlane_ok (turn_motion _ _) h9), zer (tentPlane_ok (turn_motion _ _) h10),
      pivotPlane_ok (turn_motion _ _) h3, pivotPlane_ok (turn_motion _ _) h4,
      pivotPlane_ok (turn_motion _ _) h7, pivotPlane_ok (turn_motion _ _) h8⟩

/-! ### Side walls -/

theorem moveThumb_ok {lineO : Line} {l l' : Layout} (h : moveThumb lineO l = .ok l') :
    lineO.dir.x ≠ 0 ∧ ∃ dy : ℝ, dy ≤ 0 ∧ l' = l.moved 1 1 (shift ⟨0, dy, 0⟩) ∧
      ∀ k ∈ thumbs l none, ∀ p ∈ k.boundsO, p.y + dy - p.x * (lineO.dir.y / lineO.dir.x) ≤
        lineO.pos.y - lineO.pos.x * (lineO.dir.y / lineO.dir.x) := by
  unfold moveThumb at h
  dsimp only at h
  obtain ⟨s, hs, h⟩ := bind_ok h
  unfold pyDiv at hs
  split_ifs at hs with h0
  cases hs
  obtain ⟨i, hi, h⟩ := bind_ok h
  obtain ⟨-, hmax⟩ := pyMax_ok hi
  have hb : ∀ k ∈ thumbs l none, ∀ p ∈ k.boundsO, p.y - p.x * (lineO.dir.y / lineO.dir.x) ≤ i := by
    intro k hk p hp
    apply hmax
    rw [List.mem_map]
    refine ⟨p, List.mem_flatMap.mpr ⟨k, ?_, hp⟩, rfl⟩
    rw [thumbs_eq]; exact hk
  refine ⟨h0, ?_⟩
  split_ifs at h with hd
  · cases h
    refine ⟨_, hd.le, ?_, ?_⟩
    · rw [translate_fun, mapThumb_eq]
    · intro k hk p hp
      have := hb k hk p hp
      linarith
  · cases h
    refine ⟨0, le_refl _, ?_, ?_⟩
    · have : shift ⟨0, 0, 0⟩ = 1 := by
        unfold shift Mat.translated
        rw [one_mul_mat]
        rfl
      rw [this, Layout.moved_one]
    · intro k hk p hp
      have := hb k hk p hp
      linarith

/-- A vertical plane on a wall line: the distance is positive on the inner side of the line. -/
theorem wallPlane_ok {l : Line} (hl : Planar l) {p : Plane} (h : Plane.fromLine2D l = .ok p) :
    UnitPlane p ∧ ∀ v : Vec, p.distance v = left l.pos (l.pos + l.dir) v := by
  rw [Plane.fromLine2D_eq hl] at h
  cases h
  exact ⟨planar_normal hl, fun v => Plane.fromLine2D_distance l v⟩

theorem wallLines_planar {keys : List Key} {thickness angle : ℝ} {lineI lineO : Line}
    (h : wallLines2D keys thickness angle = .ok (lineI, lineO)) : Planar lineI ∧ Planar lineO := by
  obtain ⟨⟨h1, h2, h3, h4⟩, -⟩ := C56_walls h
  have hz : lineO.pos.z = 0 := by rw [h4]; simp [h3]
  exact ⟨⟨h3, by rw [h1]; rfl, by rw [h1]; exact dirAt_unit2 angle⟩, hz, by rw [h2]; rfl, by rw [h2]; exact dirAt_unit2 angle⟩

/-- What the planes at the sides are, before the keyboard is tilted. -/
structure SideOk (body : BodyCfg) (side : Side) (l : Layout) (s : SidePlanes) : Prop where
  units : UnitPlane s.alnumIL ∧ UnitPlane s.alnumOL ∧ UnitPlane s.alnumIF ∧ UnitPlane s.alnumOF ∧ UnitPlane s.pinkyIR ∧
    UnitPlane s.pinkyOR
  left_same : s.alnumIL = s.alnumOL
  left_normal : s.alnumIL.normal = ⟨1, 0, 0⟩
  left_tight : ∃ k ∈ fingers l 0 none, ∃ p ∈ k.bounds, s.alnumIL.distance p = 0
  left_keys : ∀ k ∈ fingers l 0 none, ∀ p ∈ k.bounds, 0 ≤ s.alnumIL.distance p
  frontI_normal : s.alnumIF.normal = ⟨-Real.sin body.alnumFrontAngle, Real.cos body.alnumFrontAngle, 0⟩
  frontO_normal : s.alnumOF.normal = ⟨-Real.sin body.alnumFrontAngle, Real.cos body.alnumFrontAngle, 0⟩
  front_gap : ∀ v, s.alnumOF.distance v = s.alnumIF.distance v + body.alnumFrontThickness
  frontI_keys : ∀ k ∈ fingers l 0 none, ∀ p ∈ k.boundsI, 0 ≤ s.alnumIF.distance p
  frontO_keys : ∀ k ∈ fingers l 0 none, ∀ p ∈ k.boundsO, 0 ≤ s.alnumOF.distance p
  front_thumbs : 0 < Real.cos body.alnumFrontAngle → ∀ k ∈ thumbs l none, ∀ p ∈ k.boundsO, s.alnumOF.distance p ≤ 0
  rightI_normal : s.pinkyIR.normal = ⟨-1, 0, 0⟩
  rightO_normal : s.pinkyOR.normal = ⟨-1, 0, 0⟩
  right_gap : ∀ v, s.pinkyOR.distance v = s.pinkyIR.distance v + body.wallThickness
  rightI_keys : ∀ k ∈ fingers l 1 (some side), ∀ p ∈ k.boundsI, 0 ≤ s.pinkyIR.distance p
  rightO_keys : ∀ k ∈ fingers l 1 (some side), ∀ p ∈ k.boundsO, 0 ≤ s.pinkyOR.distance p
  right_tight : (∃ k ∈ fingers l 1 (some side), ∃ p ∈ k.boundsI, s.pinkyIR.distance p = 0) ∨
    ∃ k ∈ fingers l 1 (some side), ∃ p ∈ k.boundsO, s.pinkyOR.distance p = 0

/-- The distance of the two walls. -/
theorem wall_gap {pI pO : Vec} {angle thickness : ℝ} (h : pO = pI + (⟨Real.sin angle, -Real.cos angle, 0⟩ : Vec) * thickness)
    (v : Vec) : left pO (pO + dirAt angle) v = left pI (pI + dirAt angle) v + thickness := by
  subst h
  simp only [left, dirAt, Vec.add_x, Vec.add_y, Vec.mul_x, Vec.mul_y]
  linear_combination thickness * Real.sin_sq_add_cos_sq angle

theorem sideWalls_ok {body : BodyCfg} {side : Side} {l l' : Layout} {s : SidePlanes} (h2 : TwoGroups l)
    (haff : ∀ k ∈ thumbs l none, Mat.Affine k.matrix)
    (h : sideWalls body side l = .ok (l', s)) :
    (∃ dy : ℝ, dy ≤ 0 ∧ l' = l.moved 1 1 (shift ⟨0, dy, 0⟩)) ∧ SideOk body side l' s := by
  unfold sideWalls at h
  rw [alnum_ok h2] at h
  obtain ⟨_, ⟨⟩, h⟩ := bind_ok h
  obtain ⟨x, hx, h⟩ := bind_ok h
  rw [Plane.fromX_eq] at h
  obtain ⟨_, ⟨⟩, h⟩ := bind_ok h
  obtain ⟨_, ⟨⟩, h⟩ := bind_ok h
  obtain ⟨⟨lineI, lineO⟩, hw, h⟩ := bind_ok h
  dsimp only at h
  obtain ⟨pI, hpI, h⟩ := bind_ok h
  obtain ⟨pO, hpO, h⟩ := bind_ok h
  obtain ⟨l1, hm, h⟩ := bind_ok h
  obtain ⟨h0, dy, hdy, rfl, hth⟩ := moveThumb_ok hm
  rw [pinky_ok (h2.moved _ _ _)] at h
  obtain ⟨_, ⟨⟩, h⟩ := bind_ok h
  obtain ⟨⟨lineRI, lineRO⟩, hwR, h⟩ := bind_ok h
  dsimp only at h
  obtain ⟨pRI, hpRI, h⟩ := bind_ok h
  obtain ⟨pRO, hpRO, h⟩ := bind_ok h
  cases h
  obtain ⟨⟨d1, d2, d3, d4⟩, wI, wO, -⟩ := C56_walls hw
  obtain ⟨⟨r1, r2, r3, r4⟩, rI, rO, rT⟩ := C56_walls hwR
  obtain ⟨plI, plO⟩ := wallLines_planar hw
  obtain ⟨prI, prO⟩ := wallLines_planar hwR
  obtain ⟨uI, eI⟩ := wallPlane_ok plI hpI
  obtain ⟨uO, eO⟩ := wallPlane_ok plO hpO
  obtain ⟨uRI, eRI⟩ := wallPlane_ok prI hpRI
  obtain ⟨uRO, eRO⟩ := wallPlane_ok prO hpRO
  obtain ⟨xmem, xmin⟩ := pyMin_ok hx
  have same : fingers (l.moved 1 1 (shift ⟨0, dy, 0⟩)) 0 none = fingers l 0 none := by
    rw [fingers_moved _ _ _ _ _ (by norm_num)]
    simp [Key.transform_one]
  have q1 : Real.cos (2 * Real.pi / 4) = 0 := by
    rw [show 2 * Real.pi / 4 = Real.pi / 2 by ring]; exact Real.cos_pi_div_two
  have q2 : Real.sin (2 * Real.pi / 4) = 1 := by
    rw [show 2 * Real.pi / 4 = Real.pi / 2 by ring]; exact Real.sin_pi_div_two
  rw [Plane.fromLine2D_eq plI] at hpI
  rw [Plane.fromLine2D_eq plO] at hpO
  rw [Plane.fromLine2D_eq prI] at hpRI
  rw [Plane.fromLine2D_eq prO] at hpRO
  refine ⟨⟨dy, hdy, rfl⟩, ?_⟩
  constructor
  · exact ⟨by simp [UnitPlane, Vec.dot], by simp [UnitPlane, Vec.dot], uI, uO, uRI, uRO⟩
  · rfl
  · rfl
  · rw [same]
    obtain ⟨p, hp, hpx⟩ := List.mem_map.mp xmem
    obtain ⟨k, hk, hp⟩ := List.mem_flatMap.mp hp
    refine ⟨k, hk, p, hp, ?_⟩
    simp [Plane.distance, Vec.dot, hpx]
  · rw [same]
    intro k hk p hp
    have := xmin p.x (List.mem_map.mpr ⟨p, List.mem_flatMap.mpr ⟨k, hk, hp⟩, rfl⟩)
    simp [Plane.distance, Vec.dot, this]
  · cases hpI; dsimp only; rw [d1]; rfl
  · cases hpO; dsimp only; rw [d2]; rfl
  · intro v
    dsimp only
    rw [eI, eO, d1, d2]
    exact wall_gap d4 v
  · rw [same]
    intro k hk p hp
    dsimp only
    rw [eI]; exact wI k hk p hp
  · rw [same]
    intro k hk p hp
    dsimp only
    rw [eO]; exact wO k hk p hp
  · intro hc k hk p hp
    rw [thumbs_moved] at hk
    obtain ⟨k0, hk0, rfl⟩ := List.mem_map.mp hk
    rw [Key.boundsO_transform (haff k0 hk0)] at hp
    obtain ⟨p, hp0, rfl⟩ := List.mem_map.mp hp
    have := hth k0 hk0 p hp0
    dsimp only
    rw [eO, shift_apply, d2]
    rw [d2] at this h0
    simp only [left, dirAt, Vec.add_x, Vec.add_y, add_zero] at this h0 ⊢
    have hm := mul_le_mul_of_nonneg_left this hc.le
    have e : ∀ a b : ℝ, Real.cos body.alnumFrontAngle * (a - b * (Real.sin body.alnumFrontAngle / Real.cos body.alnumFrontAngle)) =
      Real.cos body.alnumFrontAngle * a - b * Real.sin body.alnumFrontAngle := by intro a b; field_simp
    rw [e, e] at hm
    linarith
  · cases hpRI; dsimp only; rw [r1]; simp only [dirAt, q1, q2]
  · cases hpRO; dsimp only; rw [r2]; simp only [dirAt, q1, q2]
  · intro v
    dsimp only
    rw [eRI, eRO, r1, r2]
    exact wall_gap r4 v
  · intro k hk p hp
    dsimp only
    rw [eRI]; exact rI k hk p hp
  · intro k hk p hp
    dsimp only
    rw [eRO]; exact rO k hk p hp
  · dsimp only
    simp only [eRI, eRO]
    exact rT

end Chrumm.Part
