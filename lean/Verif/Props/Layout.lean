import Verif.Spec.Layout
import Verif.Props.Mesh
import Verif.Props.Cfg

/-! C51: layouts. -/

namespace Chrumm.Part
open Geo Geo.Spec Spec

theorem bind_ok {A B : Type} {x : Py A} {f : A → Py B} {b : B} (h : (x >>= f) = .ok b) :
    ∃ a, x = .ok a ∧ f a = .ok b := App.bind_ok h

/-! ### Indices -/

theorem pyGet_ok {α : Type} {l : List α} {i : ℕ} {x : α} : pyGet l i = .ok x ↔ l[i]? = some x := by
  unfold pyGet
  cases l[i]? <;> simp

theorem pyIndex_nat {α : Type} {l : List α} {i : ℕ} {x : α} : pyIndex l (i : ℤ) = .ok x ↔ l[i]? = some x := by
  unfold pyIndex
  rw [if_pos (by omega), Int.toNat_natCast, pyGet_ok]

theorem pyIndex_zero {α : Type} {l : List α} {x : α} : pyIndex l 0 = .ok x ↔ l[0]? = some x := pyIndex_nat (i := 0)

theorem pyIndex_one {α : Type} {l : List α} {x : α} : pyIndex l 1 = .ok x ↔ l[1]? = some x := pyIndex_nat (i := 1)

theorem pyIndex_last {α : Type} {l : List α} {x : α} : pyIndex l (-1) = .ok x ↔ l.getLast? = some x := by
  unfold pyIndex
  rw [if_neg (by omega)]
  cases l with
  | nil => simp
  | cons a l =>
    rw [if_pos (by simp), List.getLast?_eq_getElem?]
    have : (-1 + ((a :: l).length : ℤ)).toNat = (a :: l).length - 1 := by simp
    rw [this, pyGet_ok]

theorem pyIndex_error {α : Type} {l : List α} {i : ℤ} {e : Exn} (h : pyIndex l i = .error e) : e = .indexError := by
  have hg : ∀ j, pyGet l j = .error e → e = .indexError := by
    intro j h
    unfold pyGet at h
    split at h <;> cases h
    rfl
  unfold pyIndex at h
  split_ifs at h
  · exact hg _ h
  · exact hg _ h
  · cases h; rfl

/-! ### Positions -/

theorem Key.make_matrix (cfg : LayoutCfg) (f : KeyFactory) (u : ℝ) : (Key.make cfg f u).matrix = 1 := rfl

theorem Vec.transformed_one (v : Vec) : v.transformed 1 = v := by
  ext <;> simp [Vec.transformed, Mat.one_def]

theorem Key.translate_make (cfg : LayoutCfg) (f : KeyFactory) (u : ℝ) (v p : Vec) :
    p.transformed ((Key.make cfg f u).translate v).matrix = p + v := by
  show p.transformed (Mat.translated 1 v) = _
  rw [Mat.transformed_translated Mat.Affine.one, Vec.transformed_one]

theorem fingerKey_eq (cfg : LayoutCfg) (f : KeyFactory) (sign : ℝ) (row col : ℕ) (s : Stagger) :
    fingerKey cfg f sign row col s = (offsetOf s).map fun d => (Key.make cfg f 1).translate
      ⟨col * cfg.columnPitch + d.1 * sign, -row * cfg.rowPitch + d.2, 0⟩ := by
  unfold fingerKey offsetOf Stagger.toList
  rcases s with y | l
  · simp
  · rcases l with _ | ⟨x, _ | ⟨y, l⟩⟩ <;> simp

/-- The first column of each group. -/
def starts : ℕ → List (List Stagger) → List ℕ
  | _, [] => []
  | c, g :: gs => c :: starts (c + g.length) gs

theorem fingerGroups_get (cfg : LayoutCfg) (f : KeyFactory) (sign : ℝ) (row : ℕ) : ∀ (gs : List (List Stagger)) (c g : ℕ),
    (fingerGroups cfg f sign row c gs)[g]? = (gs[g]?).map fun group =>
      group.mapIdx fun i s => fingerKey cfg f sign row (c + ((gs.take g).map List.length).sum + i) s
  | [], _, _ => by simp [fingerGroups]
  | group :: gs, c, 0 => by simp [fingerGroups]
  | group :: gs, c, g + 1 => by
    rw [fingerGroups, List.getElem?_cons_succ, fingerGroups_get cfg f sign row gs, List.getElem?_cons_succ]
    simp [Nat.add_assoc]

theorem keyAt_fingers (cfg : LayoutCfg) (f : KeyFactory) (side : Side) (row group col : ℕ)
    (h : staggersOk cfg.fingerStaggers) (hg : group < 2) :
    keyAt (initFingers cfg f side) row group col = (staggerAt cfg side row group col).bind fun s =>
      fingerKey cfg f (sideSign side) row (firstCol (initFingers cfg f side) row group + col) s := by
  unfold keyAt staggerAt firstCol initFingers
  simp only [List.getElem?_mapIdx]
  cases hr : cfg.fingerStaggers[row]? with
  | none => cases side <;> simp
  | some groups =>
    obtain ⟨h4, -⟩ := h groups (List.mem_of_getElem? hr)
    obtain ⟨g0, g1, g2, g3, rfl⟩ : ∃ a b c d, groups = [a, b, c, d] := by
      match groups, h4 with
      | [a, b, c, d], _ => exact ⟨a, b, c, d, rfl⟩
    have hg' : group = 0 ∨ group = 1 := by omega
    cases side
    · rcases hg' with rfl | rfl
      · simp only [Option.bind_eq_bind, Option.map_some, Option.bind_some, fingerGroups_get, sideSign]
        simp only [List.reverse_cons, List.reverse_nil, List.nil_append, List.cons_append, List.drop_succ_cons,
          List.drop_zero, List.map_cons, List.map_nil, List.getElem?_cons_zero, Option.map_some, Option.bind_some,
          List.getElem?_mapIdx, List.take_zero, List.sum_nil, if_true, Nat.sub_zero, List.getElem?_cons_succ,
          Nat.zero_add]
        by_cases hc : col < g1.length
        · rw [if_pos hc, List.getElem?_reverse hc]
          cases g1[g1.length - 1 - col]? <;> rfl
        · rw [if_neg hc, List.getElem?_eq_none (by simpa using hc)]; rfl
      · simp only [Option.bind_eq_bind, Option.map_some, Option.bind_some, fingerGroups_get, sideSign]
        simp only [List.reverse_cons, List.reverse_nil, List.nil_append, List.cons_append, List.drop_succ_cons,
          List.drop_zero, List.map_cons, List.map_nil, List.getElem?_cons_zero, Option.map_some, Option.bind_some,
          List.getElem?_mapIdx, List.take_zero, List.sum_nil, Nat.sub_zero, List.getElem?_cons_succ,
          Nat.zero_add, Nat.sub_self, one_ne_zero, if_false, List.take_succ_cons, List.length_reverse, List.sum_cons,
          Nat.add_zero, List.length_mapIdx, Option.getD_some]
        by_cases hc : col < g0.length
        · rw [if_pos hc, List.getElem?_reverse hc]
          cases g0[g0.length - 1 - col]? <;> rfl
        · rw [if_neg hc, List.getElem?_eq_none (by simpa using hc)]; rfl
    · rcases hg' with rfl | rfl
      · simp only [Option.bind_eq_bind, Option.map_some, Option.bind_some, fingerGroups_get, sideSign]
        simp only [List.drop_succ_cons, List.drop_zero, List.getElem?_cons_zero, Option.map_some, Option.bind_some,
          List.getElem?_mapIdx, List.take_zero, List.map_nil, List.sum_nil, if_true, Nat.add_zero,
          List.getElem?_cons_succ, Nat.zero_add]
        cases g2[col]? <;> rfl
      · simp only [Option.bind_eq_bind, Option.map_some, Option.bind_some, fingerGroups_get, sideSign]
        simp only [List.drop_succ_cons, List.drop_zero, List.getElem?_cons_zero, Option.map_some, Option.bind_some,
          List.getElem?_mapIdx, List.take_zero, List.map_nil, List.sum_nil, Nat.add_zero,
          List.getElem?_cons_succ, Nat.zero_add, one_ne_zero, if_false, List.take_succ_cons, List.map_cons,
          List.sum_cons, List.length_mapIdx, Option.getD_some]
        cases g3[col]? <;> rfl

/-! ### The constructor -/

theorem make_ok {cfg : LayoutCfg} {switch : SwitchCfg} {roof : ℝ} {l : Layout} (h : Layout.make cfg switch roof = .ok l) :
    ∃ f, KeyFactory.make switch roof = .ok f ∧ staggersOk cfg.fingerStaggers ∧ thumbsOk cfg ∧
      l.fingersL = initFingers cfg f .left ∧ l.fingersR = initFingers cfg f .right ∧
      initThumb cfg f ⟨initFingers cfg f .left, initFingers cfg f .right, [], []⟩ .left = .ok l.thumbL ∧
      initThumb cfg f ⟨initFingers cfg f .left, initFingers cfg f .right, [], []⟩ .right = .ok l.thumbR := by
  unfold Layout.make at h
  obtain ⟨f, h1, h⟩ := bind_ok h
  by_cases h2 : staggersOk cfg.fingerStaggers
  · by_cases h3 : thumbsOk cfg
    · rw [if_neg (not_not.mpr h2), if_neg (not_not.mpr h3)] at h
      obtain ⟨tl, h4, h⟩ := bind_ok h
      obtain ⟨tr, h5, h⟩ := bind_ok h
      cases h
      exact ⟨f, h1, h2, h3, rfl, rfl, h4, h5⟩
    · rw [if_neg (not_not.mpr h2), if_pos h3] at h; cases h
  · rw [if_pos h2] at h; cases h

/-- C51. A layout whose rows do not have four groups, or whose groups differ in size between the rows, or whose thumb keys
do not have as many angles as sizes on each side, is rejected. -/
theorem C51_rejects (cfg : LayoutCfg) (switch : SwitchCfg) (roof : ℝ) (f : KeyFactory)
    (hf : KeyFactory.make switch roof = .ok f)
    (h : (∃ row ∈ cfg.fingerStaggers, row.length ≠ 4) ∨
      (∃ row ∈ cfg.fingerStaggers, ∃ row' ∈ cfg.fingerStaggers, row.map List.length ≠ row'.map List.length) ∨
      cfg.thumbUnits.map List.length ≠ cfg.thumbAngles.map List.length ∨ cfg.thumbUnits.length ≠ 2) :
    Layout.make cfg switch roof = .error .valueError := by
  unfold Layout.make
  rw [hf]
  simp only [bind, Except.bind]
  by_cases h2 : staggersOk cfg.fingerStaggers
  · rw [if_neg (not_not.mpr h2)]
    have h3 : ¬ thumbsOk cfg := by
      rintro ⟨t1, t2, t3, t4⟩
      rcases h with ⟨row, hr, hne⟩ | ⟨row, hr, row', hr', hne⟩ | hne | hne
      · exact hne (h2 row hr).1
      · apply hne
        obtain ⟨l1, e1⟩ := h2 row hr
        obtain ⟨l2, e2⟩ := h2 row' hr'
        apply List.ext_getElem?
        intro i
        simp only [List.getElem?_map]
        by_cases hi : i < 4
        · rw [e1 i hi, e2 i hi]
        · rw [List.getElem?_eq_none (by omega), List.getElem?_eq_none (by omega)]
      · apply hne
        obtain ⟨a, b, hu⟩ := List.length_eq_two.mp t1
        obtain ⟨c, d, ha⟩ := List.length_eq_two.mp t2
        rw [hu, ha] at t3 t4 ⊢
        simpa using And.intro t3 t4
      · exact hne t1
    rw [if_pos h3]
  · rw [if_pos h2]

/-- C51. Each key is at its place in the grid of columns and rows, moved by its stagger; there is a key exactly where the
config has a stagger that is not an empty list. On the left side, groups and columns are read from right to left, and
staggers in x are mirrored: everything is constructed on the right side. -/
theorem C51_positions {cfg : LayoutCfg} {switch : SwitchCfg} {roof : ℝ} {l : Layout}
    (h : Layout.make cfg switch roof = .ok l) (side : Side) (row group col : ℕ) (hg : group < 2) :
    (keyAt (halfOf l side) row group col).map Key.position =
      ((staggerAt cfg side row group col).bind offsetOf).map fun d =>
        (⟨(firstCol (halfOf l side) row group + col : ℕ) * cfg.columnPitch + sideSign side * d.1,
          d.2 - row * cfg.rowPitch, 0⟩ : Vec) := by
  obtain ⟨f, -, h2, -, hL, hR, -, -⟩ := make_ok h
  have e : halfOf l side = initFingers cfg f side := by cases side <;> assumption
  rw [e, keyAt_fingers cfg f side row group col h2 hg]
  cases hs : staggerAt cfg side row group col with
  | none => rfl
  | some s =>
    simp only [Option.bind_some, fingerKey_eq]
    cases offsetOf s with
    | none => rfl
    | some d =>
      simp only [Option.map_some, Option.some.injEq]
      show (0 : Vec).transformed _ = _
      rw [Key.translate_make]
      ext <;> simp <;> ring

/-! ### Thumbs -/

theorem thumbLoop_append (cfg : LayoutCfg) (f : KeyFactory) : ∀ (l : List (ℝ × ℝ)) (p : Vec) (t : List Key),
    thumbLoop cfg f l p t = thumbLoop cfg f l p [] ++ t
  | [], _, _ => rfl
  | (u, a) :: l, p, t => by
    unfold thumbLoop
    dsimp only
    rw [thumbLoop_append, thumbLoop_append cfg f l _ [_]]
    simp

/-- One thumb key: layout.py:81-83. -/
noncomputable def thumbKey (cfg : LayoutCfg) (f : KeyFactory) (u a : ℝ) (p : Vec) : Key :=
  let key := (Key.make cfg f u).transform ((1 : Mat).rotatedZ (a * Real.pi / 180))
  key.translate (p - key.capPivotR)

theorem thumbLoop_cons (cfg : LayoutCfg) (f : KeyFactory) (u a : ℝ) (l : List (ℝ × ℝ)) (p : Vec) :
    (thumbLoop cfg f ((u, a) :: l) p []).reverse =
      thumbKey cfg f u a p :: (thumbLoop cfg f l (thumbKey cfg f u a p).capPivotL []).reverse := by
  rw [thumbLoop, thumbLoop_append]
  simp [thumbKey]

theorem affine_rotZ (a : ℝ) : Mat.Affine ((1 : Mat).rotatedZ a) :=
  Mat.Affine.rotateBy Mat.Affine.one ⟨rfl, rfl, rfl, rfl⟩ none

theorem one_mul_mat (m : Mat) : (1 : Mat) * m = m := by
  ext <;> simp [Mat.mul_def, Mat.one_def]

theorem thumbKey_transformed (cfg : LayoutCfg) (f : KeyFactory) (u a : ℝ) (p v : Vec) :
    v.transformed (thumbKey cfg f u a p).matrix = v.transformed ((1 : Mat).rotatedZ (a * Real.pi / 180)) +
      (p - (Key.make cfg f u).capPivotR0.transformed ((1 : Mat).rotatedZ (a * Real.pi / 180))) := by
  show v.transformed (Mat.translated ((1 : Mat) * _) (p - Vec.transformed _ ((1 : Mat) * _))) = _
  rw [one_mul_mat, Mat.transformed_translated (affine_rotZ _)]
  rfl

theorem rotZ_transformed (a : ℝ) (v : Vec) : v.transformed ((1 : Mat).rotatedZ a) =
    ⟨v.x * Real.cos a - v.y * Real.sin a, v.x * Real.sin a + v.y * Real.cos a, v.z⟩ := by
  unfold Mat.rotatedZ Mat.rotateBy
  dsimp only
  rw [one_mul_mat]
  ext <;> simp [Vec.transformed] <;> ring

/-- What is known of a thumb key. -/
theorem thumbKey_spec (cfg : LayoutCfg) (f : KeyFactory) (u a : ℝ) (p : Vec) (hp : p.z = 0) :
    (thumbKey cfg f u a p).capPivotR = p ∧ (thumbKey cfg f u a p).capPivotL.z = 0 ∧
    (thumbKey cfg f u a p).position.z = 0 ∧ TurnedBy a (thumbKey cfg f u a p) ∧
    Spec.dist (thumbKey cfg f u a p).capPivotL (thumbKey cfg f u a p).capPivotR = |cfg.columnPitch * u| := by
  have hR : (thumbKey cfg f u a p).capPivotR = p := by
    show Vec.transformed _ _ = _
    rw [thumbKey_transformed]
    show Vec.transformed (Key.make cfg f u).capPivotR0 _ + _ = p
    ext <;> simp
  refine ⟨hR, ?_, ?_, ?_, ?_⟩
  · show (Vec.transformed _ _).z = _
    rw [thumbKey_transformed, rotZ_transformed, rotZ_transformed]
    simp [hp]
    simp [thumbKey, Key.make, Key.transform, Key.translate]
  · show (Vec.transformed _ _).z = _
    rw [thumbKey_transformed, rotZ_transformed, rotZ_transformed]
    simp [hp]
    simp [Key.make]
  · intro r t h
    show _ = polar .Z (Vec.transformed _ _) _ _ _
    rw [thumbKey_transformed, thumbKey_transformed, rotZ_transformed, rotZ_transformed, rotZ_transformed]
    ext <;> simp [polar, Real.cos_add, Real.sin_add] <;> ring
  · rw [hR]
    have : (thumbKey cfg f u a p).capPivotL - p =
        (⟨-(cfg.columnPitch * u) * Real.cos (a * Real.pi / 180), -(cfg.columnPitch * u) * Real.sin (a * Real.pi / 180), 0⟩ : Vec) := by
      show Vec.transformed _ _ - p = _
      rw [thumbKey_transformed, rotZ_transformed, rotZ_transformed]
      ext <;> simp [thumbKey, Key.make, Key.transform, Key.translate] <;> ring
    unfold Spec.dist
    have e : distSq (thumbKey cfg f u a p).capPivotL p = (cfg.columnPitch * u) ^ 2 := by
      have hx := congrArg Vec.x this
      have hy := congrArg Vec.y this
      have hz := congrArg Vec.z this
      simp only [Vec.sub_x, Vec.sub_y, Vec.sub_z] at hx hy hz
      unfold distSq
      rw [hx, hy, hz]
      linear_combination (cfg.columnPitch * u) ^ 2 * Real.sin_sq_add_cos_sq (a * Real.pi / 180)
    rw [e, Real.sqrt_sq_eq_abs]

theorem thumbLoop_spec (cfg : LayoutCfg) (f : KeyFactory) : ∀ (l : List (ℝ × ℝ)) (p : Vec), p.z = 0 →
    (thumbLoop cfg f l p []).reverse.length = l.length ∧
    (∀ k, (thumbLoop cfg f l p []).reverse[0]? = some k → k.capPivotR = p) ∧
    (∀ (i : ℕ) (k : Key), (thumbLoop cfg f l p []).reverse[i]? = some k → ∃ u a, l[i]? = some (u, a) ∧ k.position.z = 0 ∧
      TurnedBy a k ∧ Spec.dist k.capPivotL k.capPivotR = |cfg.columnPitch * u|) ∧
    (∀ (i : ℕ) (k k' : Key), (thumbLoop cfg f l p []).reverse[i]? = some k → (thumbLoop cfg f l p []).reverse[i + 1]? = some k' →
      k'.capPivotR = k.capPivotL)
  | [], p, hp => by simp [thumbLoop]
  | (u, a) :: l, p, hp => by
    obtain ⟨k1, k2, k3, k4, k5⟩ := thumbKey_spec cfg f u a p hp
    obtain ⟨i1, i2, i3, i4⟩ := thumbLoop_spec cfg f l _ k2
    rw [thumbLoop_cons]
    refine ⟨by simpa using i1, by simpa using k1, ?_, ?_⟩
    · rintro (_ | i) k hk
      · simp only [List.getElem?_cons_zero, Option.some.injEq] at hk
        subst hk
        exact ⟨u, a, rfl, k3, k4, k5⟩
      · exact i3 i k (by simpa using hk)
    · rintro (_ | i) k k' hk hk'
      · simp only [List.getElem?_cons_zero, Option.some.injEq] at hk
        subst hk
        exact i2 k' (by simpa using hk')
      · exact i4 i k k' (by simpa using hk) (by simpa using hk')

/-! ### Access -/

theorem mem_selected {α : Type} (side : Option Side) (a b : α) :
    ((if side ≠ some .left then [b] else []) ++ (if side ≠ some .right then [a] else [])) = selected side a b := by
  rcases side with _ | _ | _ <;> rfl

theorem mapM_ok_map {α β : Type} (f : α → Py β) (g : α → β) : ∀ (l : List α), (∀ x ∈ l, f x = .ok (g x)) →
    l.mapM f = .ok (l.map g)
  | [], _ => rfl
  | x :: l, h => by
    rw [List.mapM_cons, h x (by simp), mapM_ok_map f g l fun y hy => h y (by simp [hy])]
    rfl

/-- Each row has the two groups. -/
def TwoGroups (l : Layout) : Prop :=
  (∀ row ∈ l.fingersL, row.length = 2) ∧ ∀ row ∈ l.fingersR, row.length = 2

theorem TwoGroups.mem_halves {l : Layout} (h : TwoGroups l) {side : Option Side} {half : Half}
    (hh : half ∈ l.halves side) : ∀ row ∈ half, row.length = 2 := by
  unfold Layout.halves at hh
  rw [mem_selected] at hh
  rcases side with _ | _ | _ <;> simp [selected] at hh
  · rcases hh with rfl | rfl
    · exact h.2
    · exact h.1
  · subst hh; exact h.1
  · subst hh; exact h.2

theorem rowGroup_ok {row : List (List (Option Key))} {g : ℕ} (h : g < row.length) :
    Layout.rowGroup row g = .ok (row.getD g []) := by
  unfold Layout.rowGroup
  rw [pyIndex_nat, List.getD_eq_getElem?_getD, List.getElem?_eq_getElem h]
  rfl

theorem groupKeys_ok {l : Layout} (h : TwoGroups l) {g : ℕ} (hg : g < 2) (side : Option Side) :
    l.groupKeys g side = .ok ((selected side l.fingersL l.fingersR).flatMap fun half => keysOf half g) := by
  unfold Layout.groupKeys
  rw [mapM_ok_map _ (fun half => keysOf half g)]
  · unfold Layout.halves
    rw [mem_selected]
    simp [bind, Except.bind, pure, Except.pure, List.flatMap_def]
  · intro half hh
    rw [mapM_ok_map _ (fun row => row.getD g [])]
    · simp [bind, Except.bind, pure, Except.pure, keysOf, List.flatMap_def, List.filterMap_flatten]
      rfl
    · intro row hr
      exact rowGroup_ok (by rw [h.mem_halves hh row hr]; exact hg)

theorem all_ok {l : Layout} (h : TwoGroups l) (side : Option Side) :
    l.all side = .ok (((selected side l.fingersL l.fingersR).flatMap fun half => keysOf half 0) ++
      ((selected side l.fingersL l.fingersR).flatMap fun half => keysOf half 1) ++
      (selected side l.thumbL l.thumbR).flatten) := by
  unfold Layout.all Layout.alnum Layout.pinky
  rw [groupKeys_ok h (by norm_num), groupKeys_ok h (by norm_num)]
  have : l.thumb side = (selected side l.thumbL l.thumbR).flatten := by
    unfold Layout.thumb
    rcases side with _ | _ | _ <;> simp [selected]
  rw [this]
  rfl

theorem initFingers_two {cfg : LayoutCfg} {f : KeyFactory} {side : Side} (h : staggersOk cfg.fingerStaggers) :
    ∀ row ∈ initFingers cfg f side, row.length = 2 := by
  have hl : ∀ (sign : ℝ) (r : ℕ) (gs : List (List Stagger)) (c : ℕ), (fingerGroups cfg f sign r c gs).length = gs.length := by
    intro sign r gs
    induction gs with
    | nil => intro c; rfl
    | cons g gs ih => intro c; simp [fingerGroups, ih]
  intro row hr
  unfold initFingers at hr
  obtain ⟨i, hi, rfl⟩ := List.mem_mapIdx.mp hr
  have h4 := (h _ (List.getElem_mem hi)).1
  cases side <;> simp [hl, h4]

theorem make_two {cfg : LayoutCfg} {switch : SwitchCfg} {roof : ℝ} {l : Layout}
    (h : Layout.make cfg switch roof = .ok l) : TwoGroups l := by
  obtain ⟨f, -, h2, -, hL, hR, -, -⟩ := make_ok h
  constructor
  · rw [hL]; exact initFingers_two h2
  · rw [hR]; exact initFingers_two h2

/-- C51. The accessors return the keys of the selected sides (right before left), row by row, without the gaps, and never
raise; `all` are the alnum, pinky and thumb keys. -/
theorem C51_access {cfg : LayoutCfg} {switch : SwitchCfg} {roof : ℝ} {l : Layout}
    (h : Layout.make cfg switch roof = .ok l) (side : Option Side) :
    l.alnum side = .ok ((selected side l.fingersL l.fingersR).flatMap fun half => keysOf half 0) ∧
    l.pinky side = .ok ((selected side l.fingersL l.fingersR).flatMap fun half => keysOf half 1) ∧
    l.thumb side = (selected side l.thumbL l.thumbR).flatten ∧
    ∃ a p, l.alnum side = .ok a ∧ l.pinky side = .ok p ∧ l.all side = .ok (a ++ p ++ l.thumb side) := by
  have h2 := make_two h
  have e1 := groupKeys_ok h2 (g := 0) (by norm_num) side
  have e2 := groupKeys_ok h2 (g := 1) (by norm_num) side
  refine ⟨e1, e2, ?_, _, _, e1, e2, ?_⟩
  · unfold Layout.thumb
    rcases side with _ | _ | _ <;> simp [selected]
  · unfold Layout.all Layout.alnum Layout.pinky
    rw [e1, e2]
    rfl

/-! ### Thumb clusters -/

theorem initThumb_ok {cfg : LayoutCfg} {f : KeyFactory} {l : Layout} {side : Side} {ks : List Key}
    (h : initThumb cfg f l side = .ok ks) :
    ∃ units angles offset col start o0 o1,
      cfg.thumbUnits[sideIndex side]? = some units ∧
      cfg.thumbAngles[sideIndex side]? = some angles ∧
      cfg.thumbOffsets[sideIndex side]? = some offset ∧
      l.alnumCol (-1) (some side) = .ok col ∧ col.getLast? = some start ∧ offset[0]? = some o0 ∧ offset[1]? = some o1 ∧
      ks = thumbLoop cfg f ((outsideIn side units).zip (outsideIn side angles))
        (start.capPivotR - ⟨o0, cfg.rowPitch + o1, 0⟩) [] := by
  unfold initThumb at h
  obtain ⟨units, h1, h⟩ := bind_ok h
  obtain ⟨angles, h2, h⟩ := bind_ok h
  obtain ⟨offset, h3, h⟩ := bind_ok h
  obtain ⟨col, h4, h⟩ := bind_ok h
  obtain ⟨start, h5, h⟩ := bind_ok h
  obtain ⟨o0, h6, h⟩ := bind_ok h
  obtain ⟨o1, h7, h⟩ := bind_ok h
  cases h
  refine ⟨units, angles, offset, col, start, o0, o1, ?_, ?_, ?_, h4, pyIndex_last.mp h5, pyIndex_zero.mp h6,
    pyIndex_one.mp h7, ?_⟩
  · cases side
    · exact pyIndex_zero.mp h1
    · exact pyIndex_one.mp h1
  · cases side
    · exact pyIndex_zero.mp h2
    · exact pyIndex_one.mp h2
  · cases side
    · exact pyIndex_zero.mp h3
    · exact pyIndex_one.mp h3
  · cases side <;> rfl

theorem mapM_ok_eq {α β : Type} {f : α → Py β} {g : α → β} : ∀ {l : List α} {ys : List β}, l.mapM f = .ok ys →
    (∀ x ∈ l, ∀ y, f x = .ok y → y = g x) → ys = l.map g := by
  intro l ys h hg
  have := mapM_ok h
  clear h
  induction this with
  | nil => rfl
  | @cons x y l ys hx hl ih =>
    rw [List.map_cons, hg x (by simp) y hx, ih fun x hx => hg x (by simp [hx])]

theorem alnumCol_ok {l : Layout} {side : Side} {col : List Key} (h2 : TwoGroups l)
    (h : l.alnumCol (-1) (some side) = .ok col) : col = lastAlnumCol (halfOf l side) := by
  have hh : l.halves (some side) = [halfOf l side] := by
    unfold Layout.halves
    rw [mem_selected]
    cases side <;> rfl
  have hmem : ∀ row ∈ halfOf l side, row.length = 2 := by
    cases side
    · exact h2.1
    · exact h2.2
  unfold Layout.alnumCol Layout.colKeys at h
  rw [hh] at h
  obtain ⟨kss, h1, h⟩ := bind_ok h
  cases h
  have hk := mapM_ok_eq (g := lastAlnumCol) h1 (by
    intro half hhalf y hy
    rw [List.mem_singleton] at hhalf
    subst hhalf
    obtain ⟨ks, h1, h3⟩ := bind_ok hy
    cases h3
    have := mapM_ok_eq (g := fun row => ((row.getD 0 []).getLast?).join) h1 (by
      intro row hr y hy
      obtain ⟨g, hg, hf⟩ := bind_ok hy
      rw [rowGroup_ok (by rw [hmem _ hr]; norm_num)] at hg
      cases hg
      rw [pyIndex_last.mp hf]
      rfl)
    rw [this, List.filterMap_map]
    rfl)
  rw [hk]
  simp

/-- The keys of a half come from the config. -/
theorem mem_lastAlnumCol {cfg : LayoutCfg} {f : KeyFactory} {side : Side} {k : Key} (h2 : staggersOk cfg.fingerStaggers)
    (h : k ∈ lastAlnumCol (initFingers cfg f side)) : ∃ v : Vec, v.z = 0 ∧ k = (Key.make cfg f 1).translate v := by
  unfold lastAlnumCol at h
  obtain ⟨row, hr, hk⟩ := List.mem_filterMap.mp h
  obtain ⟨r, hr⟩ := List.mem_iff_getElem?.mp hr
  have h0 := initFingers_two h2 row (List.mem_of_getElem? hr)
  have hg : row[0]? = some (row.getD 0 []) := by
    rw [List.getD_eq_getElem?_getD, List.getElem?_eq_getElem (by omega)]
    rfl
  obtain ⟨o, ho, hok⟩ : ∃ o, (row.getD 0 []).getLast? = some o ∧ o = some k := by
    cases hl : (row.getD 0 []).getLast? with
    | none => rw [hl] at hk; cases hk
    | some o => rw [hl] at hk; exact ⟨o, rfl, hk⟩
  rw [List.getLast?_eq_getElem?] at ho
  have hkey : keyAt (initFingers cfg f side) r 0 ((row.getD 0 []).length - 1) = some k := by
    unfold keyAt
    rw [hr]
    simp only [Option.bind_eq_bind, Option.bind_some]
    rw [hg]
    simp only [Option.bind_some]
    rw [ho]
    exact hok
  rw [keyAt_fingers cfg f side r 0 _ h2 (by norm_num)] at hkey
  obtain ⟨s, -, hs⟩ := Option.bind_eq_some_iff.mp hkey
  rw [fingerKey_eq] at hs
  obtain ⟨d, -, rfl⟩ := Option.map_eq_some_iff.mp hs
  exact ⟨_, rfl, rfl⟩

/-- C51. The thumb keys of each side, from the fingers to the middle: the first one is attached, with the configured offset,
one row below the right cap corner of the last key of the last alnum column; each key is attached with its right corner to
the left corner of the key before. A key of `u` units has its corners `u` columns apart, and is turned by its angle. -/
theorem C51_thumbs {cfg : LayoutCfg} {switch : SwitchCfg} {roof : ℝ} {l : Layout}
    (h : Layout.make cfg switch roof = .ok l) (side : Side) :
    ∃ units angles offset start o0 o1,
      cfg.thumbUnits[sideIndex side]? = some units ∧ cfg.thumbAngles[sideIndex side]? = some angles ∧
      cfg.thumbOffsets[sideIndex side]? = some offset ∧ offset[0]? = some o0 ∧ offset[1]? = some o1 ∧
      (lastAlnumCol (halfOf l side)).getLast? = some start ∧
      (thumbOf l side).length = units.length ∧ units.length = angles.length ∧
      (∀ k, (thumbOf l side).reverse[0]? = some k → k.capPivotR = start.capPivotR - ⟨o0, cfg.rowPitch + o1, 0⟩) ∧
      (∀ (i : ℕ) (k : Key), (thumbOf l side).reverse[i]? = some k → ∃ u a, (outsideIn side units)[i]? = some u ∧
        (outsideIn side angles)[i]? = some a ∧ k.position.z = 0 ∧ TurnedBy a k ∧
        Spec.dist k.capPivotL k.capPivotR = |cfg.columnPitch * u|) ∧
      ∀ (i : ℕ) (k k' : Key), (thumbOf l side).reverse[i]? = some k → (thumbOf l side).reverse[i + 1]? = some k' →
        k'.capPivotR = k.capPivotL := by
  obtain ⟨f, hf, h2, h3, hL, hR, tL, tR⟩ := make_ok h
  have ht : initThumb cfg f ⟨initFingers cfg f .left, initFingers cfg f .right, [], []⟩ side = .ok (thumbOf l side) := by
    cases side <;> assumption
  have hhalf : halfOf l side = initFingers cfg f side := by cases side <;> assumption
  obtain ⟨units, angles, offset, col, start, o0, o1, e1, e2, e3, e4, e5, e6, e7, e8⟩ := initThumb_ok ht
  have hcol := alnumCol_ok (l := ⟨initFingers cfg f .left, initFingers cfg f .right, [], []⟩)
    ⟨initFingers_two (side := .left) h2, initFingers_two (side := .right) h2⟩ e4
  have hhalf' : halfOf ⟨initFingers cfg f .left, initFingers cfg f .right, [], []⟩ side = halfOf l side := by
    rw [hhalf]; cases side <;> rfl
  rw [hhalf'] at hcol
  subst hcol
  have hlen : units.length = angles.length := by
    obtain ⟨-, -, t3, t4⟩ := h3
    cases side
    · change cfg.thumbUnits[0]? = _ at e1
      change cfg.thumbAngles[0]? = _ at e2
      rw [e1, e2] at t3
      simpa using t3
    · change cfg.thumbUnits[1]? = _ at e1
      change cfg.thumbAngles[1]? = _ at e2
      rw [e1, e2] at t4
      simpa using t4
  obtain ⟨v, hv, hs⟩ := mem_lastAlnumCol h2 (by rw [← hhalf]; exact List.mem_of_getLast? e5)
  have hz : (start.capPivotR - ⟨o0, cfg.rowPitch + o1, 0⟩ : Vec).z = 0 := by
    have : start.capPivotR.z = 0 := by
      rw [hs]
      show (Vec.transformed _ _).z = 0
      rw [Key.translate_make]
      simp [hv]
      simp [Key.translate, Key.make]
    simp [this]
  obtain ⟨s1, s2, s3, s4⟩ := thumbLoop_spec cfg f _ _ hz
  rw [← e8] at s1 s2 s3 s4
  have hl2 : (outsideIn side units).length = (outsideIn side angles).length := by
    cases side <;> simp [outsideIn, hlen]
  have hl3 : (outsideIn side units).length = units.length := by cases side <;> simp [outsideIn]
  refine ⟨units, angles, offset, start, o0, o1, e1, e2, e3, e6, e7, e5, ?_, hlen, s2, ?_, s4⟩
  · rw [List.length_reverse, List.length_zip] at s1
    omega
  · intro i k hk
    obtain ⟨u, a, hz, r1, r2, r3⟩ := s3 i k hk
    rw [List.getElem?_zip_eq_some] at hz
    exact ⟨u, a, hz.1, hz.2, r1, r2, r3⟩

/-! ### Symmetry -/

theorem fingerKey_mirror (cfg : LayoutCfg) (f : KeyFactory) (row col : ℕ) (s : Stagger) :
    fingerKey cfg f (-1) row col (mirrorStagger s) = fingerKey cfg f 1 row col s := by
  rw [fingerKey_eq, fingerKey_eq]
  rcases s with y | _ | ⟨x, _ | ⟨y, l⟩⟩ <;> simp [mirrorStagger, offsetOf]

theorem fingerGroups_mirror (cfg : LayoutCfg) (f : KeyFactory) (row : ℕ) : ∀ (gs : List (List Stagger)) (c : ℕ),
    fingerGroups cfg f (-1) row c (gs.map (List.map mirrorStagger)) = fingerGroups cfg f 1 row c gs
  | [], _ => rfl
  | g :: gs, c => by
    simp only [List.map_cons, fingerGroups, List.length_map]
    rw [fingerGroups_mirror]
    congr 1
    apply List.ext_getElem?
    intro i
    simp only [List.getElem?_mapIdx, List.getElem?_map, Option.map_map]
    congr 1
    funext s
    exact fingerKey_mirror ..

/-- C51. If both sides of the config mirror each other, then both halves of the layout are equal. -/
theorem C51_symmetric {cfg : LayoutCfg} {switch : SwitchCfg} {roof : ℝ} {l : Layout} (hs : SymmetricCfg cfg)
    (h : Layout.make cfg switch roof = .ok l) : l.fingersL = l.fingersR ∧ l.thumbL = l.thumbR := by
  obtain ⟨f, hf, h2, h3, hL, hR, tL, tR⟩ := make_ok h
  obtain ⟨s1, s2, s3, s4⟩ := hs
  have hfing : initFingers cfg f .left = initFingers cfg f .right := by
    unfold initFingers
    apply List.ext_getElem?
    intro r
    simp only [List.getElem?_mapIdx]
    cases hr : cfg.fingerStaggers[r]? with
    | none => rfl
    | some groups =>
      simp only [Option.map_some, Option.some.injEq]
      rw [s1 groups (List.mem_of_getElem? hr), ← List.map_drop, List.map_map]
      have : (List.reverse ∘ fun g : List Stagger => (g.map mirrorStagger).reverse) = List.map mirrorStagger := by
        funext g; simp
      rw [this, fingerGroups_mirror]
  refine ⟨by rw [hL, hR, hfing], ?_⟩
  obtain ⟨units, angles, offset, col, start, o0, o1, e1, e2, e3, e4, e5, e6, e7, e8⟩ := initThumb_ok tL
  obtain ⟨units', angles', offset', col', start', o0', o1', e1', e2', e3', e4', e5', e6', e7', e8'⟩ := initThumb_ok tR
  change cfg.thumbUnits[0]? = _ at e1
  change cfg.thumbUnits[1]? = _ at e1'
  change cfg.thumbAngles[0]? = _ at e2
  change cfg.thumbAngles[1]? = _ at e2'
  change cfg.thumbOffsets[0]? = _ at e3
  change cfg.thumbOffsets[1]? = _ at e3'
  rw [e1, e1'] at s2
  rw [e2, e2'] at s3
  rw [e3, e3'] at s4
  have hc := alnumCol_ok (l := ⟨initFingers cfg f .left, initFingers cfg f .right, [], []⟩)
    ⟨initFingers_two (side := .left) h2, initFingers_two (side := .right) h2⟩ e4
  have hc' := alnumCol_ok (l := ⟨initFingers cfg f .left, initFingers cfg f .right, [], []⟩)
    ⟨initFingers_two (side := .left) h2, initFingers_two (side := .right) h2⟩ e4'
  change col = lastAlnumCol (initFingers cfg f .left) at hc
  change col' = lastAlnumCol (initFingers cfg f .right) at hc'
  rw [← hfing] at hc'
  rw [hc'] at e5'
  rw [hc] at e5
  rw [e5] at e5'
  cases e5'
  simp only [Option.map_some, Option.some.injEq] at s2 s3 s4
  subst s4
  rw [e6] at e6'
  rw [e7] at e7'
  cases e6'
  cases e7'
  rw [e8, e8', s2, s3]
  rfl

/-! ### Success -/

theorem clip_ok (clip : ClipCfg) (b h : ℝ) (e c x : Vec) (hc : Real.cos clip.taperAngle ≠ 0) :
    ∃ r, clipTriangles clip b h e c x = .ok r := by
  have hm : ∀ a b : List Vec, a ≠ [] → b ≠ [] → ∃ ts, meshPairwise a b false = .ok ts := fun a b => C32_total a b false
  unfold clipTriangles pyDiv
  rw [if_neg hc]
  simp only [bind, Except.bind]
  obtain ⟨t1, h1⟩ := hm [c, c.mirroredX] [e, e.mirroredX] (by simp) (by simp)
  rw [h1]
  dsimp only
  generalize hf : ([_, _, _, _] : List Vec) = f
  obtain ⟨t2, h2⟩ := hm f (x :: [c, c.mirroredX] ++ [x.mirroredX]) (by rw [← hf]; simp) (by simp)
  rw [h2]
  dsimp only
  generalize hg : ([_, _, _, _] : List Vec) = g
  generalize hu : (fun x_1 : Vec => x_1 + _) = up
  obtain ⟨t3, h3⟩ := hm g (g.map up) (by rw [← hg]; simp) (by rw [← hg]; simp)
  rw [h3]
  dsimp only
  obtain ⟨t4, h4⟩ := hm ((g.map up).take 2) ((g.map up).drop 2).reverse (by rw [← hg]; simp) (by rw [← hg]; simp)
  rw [h4]
  exact ⟨_, rfl⟩

theorem half_ok (w d h c : ℝ) (clip : Option ClipCfg) (hc : ∀ x ∈ clip, Real.cos x.taperAngle ≠ 0) :
    ∃ r, halfTriangles w d h c clip = .ok r := by
  have hm : ∀ a b : List Vec, a ≠ [] → b ≠ [] → ∃ ts, meshPairwise a b false = .ok ts := fun a b => C32_total a b false
  unfold halfTriangles
  dsimp only
  obtain ⟨t1, h1⟩ := hm (withMirroredY (exitEdge0 w d h)) (withMirroredY (chamferEdge0 w d c))
    (by simp [withMirroredY, exitEdge0]) (by simp [withMirroredY, chamferEdge0])
  obtain ⟨t2, h2⟩ := hm (withMirroredY (chamferEdge0 w d c)) (withMirroredY (entryEdge0 w d c))
    (by simp [withMirroredY, chamferEdge0]) (by simp [withMirroredY, entryEdge0])
  rw [h1, h2]
  simp only [bind, Except.bind]
  cases clip with
  | none =>
    obtain ⟨t3, h3⟩ := hm (List.map Vec.mirroredX [(⟨-w / 2, -d / 2, -h⟩ : Vec).mirroredY,
      (⟨-w / 2, -d / 2, -c⟩ : Vec).mirroredY, (⟨-w / 2, -d / 2 - c, 0⟩ : Vec).mirroredY])
      [(⟨-w / 2, -d / 2, -h⟩ : Vec).mirroredY, (⟨-w / 2, -d / 2, -c⟩ : Vec).mirroredY,
        (⟨-w / 2, -d / 2 - c, 0⟩ : Vec).mirroredY] (by simp) (by simp)
    dsimp only
    rw [h3]
    exact ⟨_, rfl⟩
  | some x =>
    obtain ⟨r, h3⟩ := clip_ok x (d / 2) h (⟨-w / 2, -d / 2 - c, 0⟩ : Vec).mirroredY (⟨-w / 2, -d / 2, -c⟩ : Vec).mirroredY
      (⟨-w / 2, -d / 2, -h⟩ : Vec).mirroredY (hc x rfl)
    dsimp only
    rw [h3]
    exact ⟨_, rfl⟩

theorem factory_ok (switch : SwitchCfg) (roof : ℝ) (h : ∀ c ∈ switch.clipNotch, Real.cos c.taperAngle ≠ 0) :
    ∃ f, KeyFactory.make switch roof = .ok f := by
  obtain ⟨r, hr⟩ := half_ok (holeWidth switch roof) (holeDepth switch roof) roof switch.entryChamfer (activeClip switch roof)
    (by
      intro c hc
      unfold activeClip at hc
      exact h c (Option.mem_filter_iff.mp hc).1)
  unfold KeyFactory.make
  dsimp only
  rw [hr]
  exact ⟨_, rfl⟩

theorem alnumCol_last {l : Layout} {side : Side} (h : ∀ row ∈ halfOf l side, row.length = 2 ∧ row.getD 0 [] ≠ []) :
    l.alnumCol (-1) (some side) = .ok (lastAlnumCol (halfOf l side)) := by
  have hh : l.halves (some side) = [halfOf l side] := by
    unfold Layout.halves
    rw [mem_selected]
    cases side <;> rfl
  unfold Layout.alnumCol Layout.colKeys
  rw [hh, mapM_ok_map _ lastAlnumCol]
  · simp [bind, Except.bind, pure, Except.pure]
  · intro half hhalf
    rw [List.mem_singleton] at hhalf
    subst hhalf
    rw [mapM_ok_map _ fun row => ((row.getD 0 []).getLast?).join]
    · simp only [bind, Except.bind, pure, Except.pure, List.filterMap_map]
      rfl
    · intro row hr
      obtain ⟨h1, h2⟩ := h row hr
      rw [rowGroup_ok (by omega)]
      simp only [bind, Except.bind]
      rw [pyIndex_last]
      rw [List.getLast?_eq_some_getLast h2]
      rfl

/-- C51. A well-formed layout is accepted: four groups per row, of the same sizes in all rows, as many angles as sizes of
thumb keys, offsets for both thumb clusters, and keys in the outer columns of the alnum groups that the thumb clusters are
attached to. -/
theorem C51_succeeds (cfg : LayoutCfg) (switch : SwitchCfg) (roof : ℝ)
    (hc : ∀ c ∈ switch.clipNotch, Real.cos c.taperAngle ≠ 0)
    (h4 : ∀ row ∈ cfg.fingerStaggers, row.length = 4)
    (hs : ∀ row ∈ cfg.fingerStaggers, ∀ row' ∈ cfg.fingerStaggers, row.map List.length = row'.map List.length)
    (ht : cfg.thumbUnits.map List.length = cfg.thumbAngles.map List.length) (ht2 : cfg.thumbUnits.length = 2)
    (ho : ∀ side, ∃ o, cfg.thumbOffsets[sideIndex side]? = some o ∧ 2 ≤ o.length)
    (ha : ∀ row ∈ cfg.fingerStaggers, ∀ side, staggerAt ⟨0, 0, 0, 0, 0, [row], [], [], []⟩ side 0 0 0 ≠ none)
    (hk : ∀ f side, lastAlnumCol (initFingers cfg f side) ≠ []) :
    ∃ l, Layout.make cfg switch roof = .ok l := by
  obtain ⟨f, hf⟩ := factory_ok switch roof hc
  have hst : staggersOk cfg.fingerStaggers := by
    intro row hr
    refine ⟨h4 row hr, ?_⟩
    intro i _
    cases hfs : cfg.fingerStaggers with
    | nil => rw [hfs] at hr; cases hr
    | cons r0 rs =>
      have := congrArg (·[i]?) (hs row hr r0 (by rw [hfs]; simp))
      simpa using this
  have hth : thumbsOk cfg := by
    obtain ⟨a, b, hu⟩ := List.length_eq_two.mp ht2
    have hl := congrArg List.length ht
    simp only [List.length_map] at hl
    obtain ⟨c, d, hv⟩ := List.length_eq_two.mp (hl ▸ ht2 : cfg.thumbAngles.length = 2)
    rw [hu, hv] at ht
    unfold thumbsOk
    rw [hu, hv]
    simpa using ht
  have hthumb : ∀ side, ∃ ks, initThumb cfg f ⟨initFingers cfg f .left, initFingers cfg f .right, [], []⟩ side = .ok ks := by
    intro side
    have hhalf : halfOf ⟨initFingers cfg f .left, initFingers cfg f .right, [], []⟩ side = initFingers cfg f side := by
      cases side <;> rfl
    have hcol := alnumCol_last (l := ⟨initFingers cfg f .left, initFingers cfg f .right, [], []⟩) (side := side) (by
      rw [hhalf]
      intro row hr
      refine ⟨initFingers_two hst row hr, ?_⟩
      unfold initFingers at hr
      obtain ⟨i, hi, rfl⟩ := List.mem_mapIdx.mp hr
      have hm := List.getElem_mem hi
      have h4' := h4 _ hm
      have ha' := ha _ hm side
      generalize cfg.fingerStaggers[i] = groups at h4' ha' ⊢
      obtain ⟨g0, g1, g2, g3, rfl⟩ : ∃ a b c d, groups = [a, b, c, d] := by
        match groups, h4' with
        | [a, b, c, d], _ => exact ⟨a, b, c, d, rfl⟩
      cases side
      · simp only [staggerAt] at ha'
        have : g1 ≠ [] := by rintro rfl; simp at ha'
        simpa [fingerGroups] using this
      · simp only [staggerAt] at ha'
        have : g2 ≠ [] := by rintro rfl; simp at ha'
        simpa [fingerGroups] using this)
    rw [hhalf] at hcol
    obtain ⟨o, ho1, ho2⟩ := ho side
    obtain ⟨o0, o1, os, rfl⟩ : ∃ a b c, o = a :: b :: c := by
      match o, ho2 with
      | a :: b :: c, _ => exact ⟨a, b, c, rfl⟩
    have hu : ∃ u, cfg.thumbUnits[sideIndex side]? = some u :=
      ⟨_, List.getElem?_eq_getElem (by rw [hth.1]; cases side <;> simp [sideIndex])⟩
    have hv : ∃ u, cfg.thumbAngles[sideIndex side]? = some u :=
      ⟨_, List.getElem?_eq_getElem (by rw [hth.2.1]; cases side <;> simp [sideIndex])⟩
    obtain ⟨u, hu⟩ := hu
    obtain ⟨v, hv⟩ := hv
    unfold initThumb
    have hlast := pyIndex_last.mpr (List.getLast?_eq_some_getLast (hk f side))
    have i0 : pyIndex (o0 :: o1 :: os) 0 = .ok o0 := pyIndex_zero.mpr rfl
    have i1 : pyIndex (o0 :: o1 :: os) 1 = .ok o1 := pyIndex_one.mpr rfl
    cases side
    · dsimp only
      rw [pyIndex_zero.mpr hu, pyIndex_zero.mpr hv, pyIndex_zero.mpr ho1]
      simp only [bind, Except.bind, hcol, hlast, i0, i1]
      exact ⟨_, rfl⟩
    · dsimp only
      rw [pyIndex_one.mpr hu, pyIndex_one.mpr hv, pyIndex_one.mpr ho1]
      simp only [bind, Except.bind, hcol, hlast, i0, i1]
      exact ⟨_, rfl⟩
  obtain ⟨tl, htl⟩ := hthumb .left
  obtain ⟨tr, htr⟩ := hthumb .right
  unfold Layout.make
  rw [hf]
  simp only [bind, Except.bind]
  rw [if_neg (not_not.mpr hst), if_neg (not_not.mpr hth), htl, htr]
  exact ⟨_, rfl⟩

/-- A small symmetric layout with one alnum, one pinky and one thumb key on each side. -/
noncomputable def exLayout : LayoutCfg where
  columnPitch := 19
  rowPitch := 19
  capWidth := 18
  capDepth := 18
  capTopToPlate := 14
  fingerStaggers := [[[.num 0], [.num 2], [.num 2], [.num 0]], [[.num 0], [.num 2], [.num 2], [.list [-3, 0]]]]
  thumbUnits := [[1, 5 / 4], [5 / 4, 1]]
  thumbAngles := [[0, 18], [18, 0]]
  thumbOffsets := [[0, 5], [0, 5]]

noncomputable def exSwitch : SwitchCfg := ⟨14, 14, 3, 5, 4, 2, 1 / 3, 2 / 5, none⟩

example : ∃ l, Layout.make exLayout exSwitch 4 = .ok l := by
  apply C51_succeeds
  · simp [exSwitch]
  · simp [exLayout]
  · simp [exLayout]
  · simp [exLayout]
  · simp [exLayout]
  · intro side; cases side <;> simp [exLayout, sideIndex]
  · intro row hr side
    simp only [exLayout, List.mem_cons, List.not_mem_nil, or_false] at hr
    rcases hr with rfl | rfl <;> cases side <;> simp [staggerAt]
  · intro f side
    cases side <;> simp [lastAlnumCol, initFingers, exLayout, fingerGroups, fingerKey, Stagger.toList]

end Chrumm.Part
