import Verif.Part.Plan
import Verif.Props.Boss
import Verif.Props.Move
import Verif.Props.Vector

/-! Moving groups of keys. -/

namespace Chrumm.Part
open Geo Geo.Spec Spec

/-! ### Rigid motions -/

/-- The matrix moves space as a rigid body. -/
def Motion (m : Mat) : Prop := Mat.Affine m ∧ Rigid fun v => v.transformed m

/-- A translation. -/
noncomputable def shift (v : Vec) : Mat := (1 : Mat).translated v

theorem shift_apply (v w : Vec) : w.transformed (shift v) = w + v := by
  unfold shift
  rw [Mat.transformed_translated Mat.Affine.one, Vec.transformed_one]

theorem shift_motion (v : Vec) : Motion (shift v) := by
  refine ⟨Mat.Affine.one.translated v, fun p q => ?_, fun o p q r => ?_⟩
  · simp only [shift_apply, distSq, Vec.add_x, Vec.add_y, Vec.add_z]; ring
  · simp only [shift_apply, orient, Vec.add_x, Vec.add_y, Vec.add_z]; ring

theorem Motion.mul {a b : Mat} (ha : Motion a) (hb : Motion b) : Motion (a * b) := by
  refine ⟨ha.1.mul hb.1, fun p q => ?_, fun o p q r => ?_⟩
  · simp only [Mat.transformed_mul ha.1]
    rw [hb.2.1 (p.transformed a) (q.transformed a)]
    exact ha.2.1 p q
  · simp only [Mat.transformed_mul ha.1]
    rw [hb.2.2 (o.transformed a) (p.transformed a) (q.transformed a) (r.transformed a)]
    exact ha.2.2 o p q r

theorem motion_one : Motion 1 := by
  refine ⟨Mat.Affine.one, fun p q => ?_, fun o p q r => ?_⟩ <;> simp only [Vec.transformed_one]

theorem rotY_motion (a : ℝ) (c : Option Vec) : Motion ((1 : Mat).rotatedY a c) :=
  ⟨Mat.Affine.one.rotateBy ⟨rfl, rfl, rfl, rfl⟩ c, C22_rigid .Y a c⟩

theorem rotX_motion (a : ℝ) (c : Option Vec) : Motion ((1 : Mat).rotatedX a c) :=
  ⟨Mat.Affine.one.rotateBy ⟨rfl, rfl, rfl, rfl⟩ c, C22_rigid .X a c⟩

theorem rotZ_motion (a : ℝ) (c : Option Vec) : Motion ((1 : Mat).rotatedZ a c) :=
  ⟨Mat.Affine.one.rotateBy ⟨rfl, rfl, rfl, rfl⟩ c, C22_rigid .Z a c⟩

theorem tiltSplit_eq (body : BodyCfg) :
    tiltSplitMatrix body = (1 : Mat).rotatedX body.tiltAngle * (1 : Mat).rotatedZ body.splitAngle := by
  unfold tiltSplitMatrix Mat.rotatedZ Mat.rotateBy
  dsimp only
  rw [one_mul_mat]

theorem tiltSplit_motion (body : BodyCfg) : Motion (tiltSplitMatrix body) := by
  rw [tiltSplit_eq]
  exact (rotX_motion _ _).mul (rotZ_motion _ _)

theorem mul_shift (m : Mat) (v : Vec) : m.translated v = m * shift v := by
  unfold shift
  show m * _ = m * ((1 : Mat) * _)
  rw [one_mul_mat]

theorem Key.translate_eq (k : Key) (v : Vec) : k.translate v = k.transform (shift v) := by
  unfold Key.translate Key.transform
  rw [mul_shift]

theorem Key.transform_transform (k : Key) (a b : Mat) : (k.transform a).transform b = k.transform (a * b) := by
  unfold Key.transform
  dsimp only
  rw [(C21_monoid k.matrix a b 0).1]

theorem Key.transform_one (k : Key) : k.transform 1 = k := by
  unfold Key.transform
  rw [(C21_monoid k.matrix 1 1 0).2.2.1]

section
variable {k : Key} (h : Mat.Affine k.matrix) (m : Mat)
include h

theorem Key.point_transform (v : Vec) : v.transformed (k.transform m).matrix = (v.transformed k.matrix).transformed m :=
  Mat.transformed_mul h m v

theorem Key.boundsI_transform : (k.transform m).boundsI = k.boundsI.map (·.transformed m) := by
  unfold Key.boundsI
  rw [List.map_map]
  exact List.map_congr_left fun v _ => Key.point_transform h m v

theorem Key.boundsO_transform : (k.transform m).boundsO = k.boundsO.map (·.transformed m) := by
  unfold Key.boundsO
  rw [List.map_map]
  exact List.map_congr_left fun v _ => Key.point_transform h m v

theorem Key.bounds_transform : (k.transform m).bounds = k.bounds.map (·.transformed m) := by
  unfold Key.bounds
  rw [Key.boundsI_transform h, Key.boundsO_transform h, List.map_append]

theorem Key.position_transform : (k.transform m).position = k.position.transformed m :=
  Key.point_transform h m 0

end

/-! ### Moving planes -/

theorem Plane.transformed_ok {p p' : Plane} {m : Mat} (hn : p.normal.dot p.normal = 1) (hm : Motion m)
    (h : p.transformed m = .ok p') :
    p'.normal.dot p'.normal = 1 ∧ ∀ v : Vec, p'.distance (v.transformed m) = p.distance v := by
  obtain ⟨q, hq, h1, h2⟩ := C64_plane p m hn hm.2
  rw [h] at hq
  cases hq
  exact ⟨h1, h2⟩

theorem Plane.translated_eq {p : Plane} (hn : p.normal.dot p.normal = 1) (v : Vec) :
    p.translated v = .ok ⟨p.pos + v, p.normal⟩ := by
  unfold Plane.translated
  exact plane_self (p := ⟨p.pos + v, p.normal⟩) hn

theorem Plane.translated_ok {p p' : Plane} {v : Vec} (hn : p.normal.dot p.normal = 1)
    (h : p.translated v = .ok p') :
    p'.normal.dot p'.normal = 1 ∧ ∀ w : Vec, p'.distance (w.transformed (shift v)) = p.distance w := by
  rw [Plane.translated_eq hn] at h
  cases h
  refine ⟨hn, fun w => ?_⟩
  rw [shift_apply]
  simp only [Plane.distance, Vec.dot, Vec.sub_x, Vec.sub_y, Vec.sub_z, Vec.add_x, Vec.add_y, Vec.add_z]
  ring

theorem Plane.make_ok {a n : Vec} (hn : n.dot n = 1) {p : Plane} (h : Plane.make a n = .ok p) : p = ⟨a, n⟩ := by
  rw [plane_self (p := ⟨a, n⟩) hn] at h
  cases h
  rfl

theorem Plane.fromX_eq (x : ℝ) : Plane.fromX x = .ok ⟨⟨x, 0, 0⟩, ⟨1, 0, 0⟩⟩ :=
  plane_self (p := ⟨⟨x, 0, 0⟩, ⟨1, 0, 0⟩⟩) (by simp [Vec.dot])

theorem Plane.fromZ_eq (z : ℝ) : Plane.fromZ z = .ok ⟨⟨0, 0, z⟩, ⟨0, 0, 1⟩⟩ :=
  plane_self (p := ⟨⟨0, 0, z⟩, ⟨0, 0, 1⟩⟩) (by simp [Vec.dot])

/-- A vertical plane on a line in the xy plane. -/
theorem Plane.fromLine2D_eq {l : Line} (h : Planar l) :
    Plane.fromLine2D l = .ok ⟨l.pos, ⟨-l.dir.y, l.dir.x, 0⟩⟩ := by
  unfold Plane.fromLine2D
  have : l.pos.xy = l.pos := by ext <;> simp [Vec.xy, h.1]
  rw [this]
  refine plane_self (p := ⟨l.pos, ⟨-l.dir.y, l.dir.x, 0⟩⟩) ?_
  have := h.2.2
  simp only [Vec.dot]
  nlinarith

theorem Plane.fromLine2D_distance (l : Line) (v : Vec) :
    Plane.distance ⟨l.pos, ⟨-l.dir.y, l.dir.x, 0⟩⟩ v = left l.pos (l.pos + l.dir) v := by
  simp only [Plane.distance, Vec.dot, left, Vec.sub_x, Vec.sub_y, Vec.sub_z, Vec.add_x, Vec.add_y]
  ring

theorem planar_normal {l : Line} (h : Planar l) :
    (⟨-l.dir.y, l.dir.x, 0⟩ : Vec).dot ⟨-l.dir.y, l.dir.x, 0⟩ = 1 := by
  have := h.2.2
  simp only [Vec.dot]
  nlinarith

/-! ### Moving the groups of a layout -/

/-- The alnum, pinky and thumb keys of both halves are moved by a matrix each. -/
noncomputable def Layout.moved (l : Layout) (a p t : Mat) : Layout :=
  ((l.mapGroup 0 (·.transform a)).mapGroup 1 (·.transform p)).mapThumb (·.transform t)

theorem row_modify_comm (row : List (List (Option Key))) (f g : List (Option Key) → List (Option Key)) :
    (row.modify 0 f).modify 1 g = (row.modify 1 g).modify 0 f := by
  match row with
  | [] => rfl
  | [_] => rfl
  | _ :: _ :: _ => rfl

theorem row_modify_modify (row : List (List (Option Key))) (i : ℕ) (f g : List (Option Key) → List (Option Key)) :
    (row.modify i f).modify i g = row.modify i (g ∘ f) := by
  rw [List.modify_modify_eq]

theorem map_one_option (m : Mat) (hm : m = 1) : (fun keys : List (Option Key) => keys.map (Option.map (·.transform m))) = id := by
  subst hm
  funext keys
  have : (Option.map (fun k : Key => k.transform 1)) = id := by
    funext o
    cases o
    · rfl
    · simp [Key.transform_one]
  rw [this, List.map_id]
  rfl

theorem modify_id (row : List (List (Option Key))) (i : ℕ) : row.modify i id = row := by
  rw [List.modify_id]

theorem mapGroup_one (l : Layout) (g : ℕ) : l.mapGroup g (·.transform 1) = l := by
  unfold Layout.mapGroup
  dsimp only
  simp only [map_one_option 1 rfl, modify_id, List.map_id']

theorem mapThumb_one (l : Layout) : l.mapThumb (·.transform 1) = l := by
  unfold Layout.mapThumb
  simp only [Key.transform_one, List.map_id']

theorem mapGroup_mapGroup (l : Layout) (g : ℕ) (a b : Mat) :
    (l.mapGroup g (·.transform a)).mapGroup g (·.transform b) = l.mapGroup g (·.transform (a * b)) := by
  unfold Layout.mapGroup
  dsimp only
  have : (fun keys : List (Option Key) => keys.map (Option.map (·.transform b))) ∘
      (fun keys : List (Option Key) => keys.map (Option.map (·.transform a))) =
      fun keys : List (Option Key) => keys.map (Option.map (·.transform (a * b))) := by
    funext keys
    simp only [Function.comp, List.map_map]
    apply List.map_congr_left
    intro o _
    cases o
    · rfl
    · simp [Key.transform_transform]
  simp only [List.map_map, Function.comp_def, row_modify_modify, ← this]

theorem mapGroup_comm (l : Layout) (f g : Key → Key) : (l.mapGroup 1 f).mapGroup 0 g = (l.mapGroup 0 g).mapGroup 1 f := by
  unfold Layout.mapGroup
  dsimp only
  simp only [List.map_map, Function.comp_def, row_modify_comm]

theorem mapThumb_mapThumb (l : Layout) (a b : Mat) :
    (l.mapThumb (·.transform a)).mapThumb (·.transform b) = l.mapThumb (·.transform (a * b)) := by
  unfold Layout.mapThumb
  simp only [List.map_map, Function.comp_def, Key.transform_transform]

theorem mapThumb_mapGroup (l : Layout) (g : ℕ) (f h : Key → Key) :
    (l.mapThumb f).mapGroup g h = (l.mapGroup g h).mapThumb f := rfl

theorem Layout.moved_moved (l : Layout) (a p t a' p' t' : Mat) :
    (l.moved a p t).moved a' p' t' = l.moved (a * a') (p * p') (t * t') := by
  unfold Layout.moved
  rw [mapThumb_mapGroup, mapThumb_mapGroup, mapGroup_comm, mapGroup_mapGroup, mapGroup_mapGroup, mapThumb_mapThumb]

theorem Layout.moved_one (l : Layout) : l.moved 1 1 1 = l := by
  unfold Layout.moved
  rw [mapGroup_one, mapGroup_one, mapThumb_one]

theorem mapGroup0_eq (l : Layout) (m : Mat) : l.mapGroup 0 (·.transform m) = l.moved m 1 1 := by
  unfold Layout.moved
  rw [mapGroup_one, mapThumb_one]

theorem mapGroup1_eq (l : Layout) (m : Mat) : l.mapGroup 1 (·.transform m) = l.moved 1 m 1 := by
  unfold Layout.moved
  rw [mapGroup_one, mapThumb_one]

theorem mapThumb_eq (l : Layout) (m : Mat) : l.mapThumb (·.transform m) = l.moved 1 1 m := by
  unfold Layout.moved
  rw [mapGroup_one, mapGroup_one]

theorem mapAll_eq (l : Layout) (m : Mat) : l.mapAll (·.transform m) = l.moved m m m := rfl

theorem translate_fun (v : Vec) : (fun k : Key => k.translate v) = fun k => k.transform (shift v) := by
  funext k
  exact Key.translate_eq k v

/-! ### The keys of a moved layout -/

/-- The group of a half's row is moved. -/
theorem row_modify_getD (row : List (List (Option Key))) (i j : ℕ) (f : List (Option Key) → List (Option Key))
    (hf : f [] = []) : (row.modify i f).getD j [] = if i = j then f (row.getD j []) else row.getD j [] := by
  rw [List.getD_eq_getElem?_getD, List.getD_eq_getElem?_getD, List.getElem?_modify]
  by_cases h : i = j
  · rw [if_pos h]
    simp only [h, if_true]
    cases row[j]? <;> simp [hf]
  · simp [h]

theorem filterMap_optionMap (l : List (Option Key)) (f : Key → Key) :
    (l.map (Option.map f)).filterMap id = (l.filterMap id).map f := by
  induction l with
  | nil => rfl
  | cons o l ih =>
    cases o with
    | none => exact ih
    | some k => exact congrArg (f k :: ·) ih

theorem keysOf_map (half : Half) (i g : ℕ) (f : Key → Key) :
    keysOf (half.map fun row => row.modify i fun keys => keys.map (Option.map f)) g =
      if i = g then (keysOf half g).map f else keysOf half g := by
  unfold keysOf
  rw [List.flatMap_map]
  by_cases h : i = g
  · rw [if_pos h, List.map_flatMap]
    congr 1
    funext row
    rw [row_modify_getD row i g _ rfl, if_pos h, filterMap_optionMap]
  · rw [if_neg h]
    congr 1
    funext row
    rw [row_modify_getD row i g _ rfl, if_neg h]

/-- The keys of a group (0 alnum, 1 pinky) of the selected sides. -/
noncomputable def fingers (l : Layout) (g : ℕ) (side : Option Side) : List Key :=
  (selected side l.fingersL l.fingersR).flatMap fun half => keysOf half g

/-- The thumb keys of the selected sides. -/
noncomputable def thumbs (l : Layout) (side : Option Side) : List Key := (selected side l.thumbL l.thumbR).flatten

theorem thumbs_eq (l : Layout) (side : Option Side) : l.thumb side = thumbs l side := by
  unfold Layout.thumb thumbs
  rcases side with _ | _ | _ <;> simp [selected]

theorem fingers_moved (l : Layout) (a p t : Mat) (g : ℕ) (hg : g < 2) (side : Option Side) :
    fingers (l.moved a p t) g side = (fingers l g side).map (·.transform (if g = 0 then a else p)) := by
  unfold fingers Layout.moved Layout.mapThumb Layout.mapGroup
  dsimp only
  have h2 : g = 0 ∨ g = 1 := by omega
  rcases h2 with rfl | rfl <;> rcases side with _ | _ | _ <;>
    simp only [selected, List.flatMap_cons, List.flatMap_nil, keysOf_map, List.map_append, List.append_nil] <;> simp

theorem thumbs_moved (l : Layout) (a p t : Mat) (side : Option Side) :
    thumbs (l.moved a p t) side = (thumbs l side).map (·.transform t) := by
  unfold thumbs Layout.moved Layout.mapThumb Layout.mapGroup
  rcases side with _ | _ | _ <;> simp [selected]

theorem TwoGroups.moved {l : Layout} (h : TwoGroups l) (a p t : Mat) : TwoGroups (l.moved a p t) := by
  unfold Layout.moved Layout.mapThumb Layout.mapGroup
  constructor
  · intro row hr
    simp only [List.map_map, List.mem_map] at hr
    obtain ⟨r, hr, rfl⟩ := hr
    simpa using h.1 r hr
  · intro row hr
    simp only [List.map_map, List.mem_map] at hr
    obtain ⟨r, hr, rfl⟩ := hr
    simpa using h.2 r hr

theorem alnum_ok {l : Layout} (h : TwoGroups l) (side : Option Side) : l.alnum side = .ok (fingers l 0 side) :=
  groupKeys_ok h (by norm_num) side

theorem pinky_ok {l : Layout} (h : TwoGroups l) (side : Option Side) : l.pinky side = .ok (fingers l 1 side) :=
  groupKeys_ok h (by norm_num) side

theorem allKeys_ok {l : Layout} (h : TwoGroups l) (side : Option Side) :
    l.all side = .ok (fingers l 0 side ++ fingers l 1 side ++ thumbs l side) := all_ok h side

theorem keyAt_moved (l : Layout) (a p t : Mat) (side : Side) (row g col : ℕ) (hg : g < 2) :
    keyAt (halfOf (l.moved a p t) side) row g col =
      (keyAt (halfOf l side) row g col).map (·.transform (if g = 0 then a else p)) := by
  have h2 : g = 0 ∨ g = 1 := by omega
  have hh : halfOf (l.moved a p t) side = (halfOf l side).map fun row =>
      (row.modify 0 fun keys => keys.map (Option.map (·.transform a))).modify 1
        fun keys => keys.map (Option.map (·.transform p)) := by
    cases side <;> simp [halfOf, Layout.moved, Layout.mapThumb, Layout.mapGroup, List.map_map, Function.comp_def]
  rw [hh]
  unfold keyAt
  rw [List.getElem?_map]
  rcases (halfOf l side)[row]? with _ | r
  · rfl
  simp only [Option.map_some, Option.bind_eq_bind, Option.bind_some, List.getElem?_modify]
  rcases h2 with rfl | rfl <;> rcases r[_]? with _ | gk
  · simp
  · simp only [Option.map_some]
    simp
    rcases gk[col]? with _ | _ | _ <;> rfl
  · simp
  · simp only [Option.map_some]
    simp
    rcases gk[col]? with _ | _ | _ <;> rfl

/-- All keys are placed by an affine matrix. -/
def AffineKeys (l : Layout) : Prop := ∀ side, ∀ k ∈ fingers l 0 side ++ fingers l 1 side ++ thumbs l side, Mat.Affine k.matrix

end Chrumm.Part
