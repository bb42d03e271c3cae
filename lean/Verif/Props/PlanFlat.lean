import Verif.Props.PlanStages

/-! The keys of the flat layout, and the arrangement of the tilted keys. -/

namespace Chrumm.Part
open Geo Geo.Spec Spec

/-- A key of the flat layout: it is turned around the z axis and moved in the xy plane. -/
structure Flat (f : KeyFactory) (k : Key) : Prop where
  factory : k.factory = f
  motion : Motion k.matrix
  level : ∀ v : Vec, (v.transformed k.matrix).z = v.z

theorem flat_translate (cfg : LayoutCfg) (f : KeyFactory) (u : ℝ) {v : Vec} (hv : v.z = 0) :
    Flat f ((Key.make cfg f u).translate v) := by
  refine ⟨rfl, ?_, fun w => ?_⟩
  · show Motion ((1 : Mat).translated v)
    exact shift_motion v
  · rw [Key.translate_make]
    simp [hv]

theorem flat_thumbKey (cfg : LayoutCfg) (f : KeyFactory) (u a : ℝ) {p : Vec} (hp : p.z = 0) :
    Flat f (thumbKey cfg f u a p) := by
  refine ⟨rfl, ?_, fun v => ?_⟩
  · show Motion (Mat.translated ((1 : Mat) * _) _)
    rw [one_mul_mat, mul_shift]
    exact (rotZ_motion _ _).mul (shift_motion _)
  · rw [thumbKey_transformed, rotZ_transformed, rotZ_transformed]
    simp [hp]
    simp [Key.make]

theorem mem_thumbLoop (cfg : LayoutCfg) (f : KeyFactory) : ∀ (l : List (ℝ × ℝ)) (p : Vec), p.z = 0 →
    ∀ k ∈ thumbLoop cfg f l p [], Flat f k
  | [], p, _, k, hk => by simp [thumbLoop] at hk
  | (u, a) :: l, p, hp, k, hk => by
    rw [← List.mem_reverse, thumbLoop_cons] at hk
    rcases List.mem_cons.mp hk with rfl | hk
    · exact flat_thumbKey cfg f u a hp
    · exact mem_thumbLoop cfg f l _ (thumbKey_spec cfg f u a p hp).2.1 k (List.mem_reverse.mp hk)

/-- The keys of a half come from the config. -/
theorem mem_keysOf {cfg : LayoutCfg} {f : KeyFactory} {side : Side} {k : Key} (h2 : staggersOk cfg.fingerStaggers)
    {g : ℕ} (hg2 : g < 2)
    (h : k ∈ keysOf (initFingers cfg f side) g) : ∃ v : Vec, v.z = 0 ∧ k = (Key.make cfg f 1).translate v := by
  unfold keysOf at h
  obtain ⟨row, hr, hk⟩ := List.mem_flatMap.mp h
  obtain ⟨r, hr⟩ := List.mem_iff_getElem?.mp hr
  have h0 := initFingers_two h2 row (List.mem_of_getElem? hr)
  have hg : row[g]? = some (row.getD g []) := by
    rw [List.getD_eq_getElem?_getD, List.getElem?_eq_getElem (by omega)]
    rfl
  obtain ⟨o, ho, hok⟩ := List.mem_filterMap.mp hk
  obtain ⟨c, ho⟩ := List.mem_iff_getElem?.mp ho
  have hkey : keyAt (initFingers cfg f side) r g c = some k := by
    unfold keyAt
    rw [hr]
    simp only [Option.bind_eq_bind, Option.bind_some]
    rw [hg]
    simp only [Option.bind_some]
    rw [ho]
    exact hok
  rw [keyAt_fingers cfg f side r g _ h2 hg2] at hkey
  obtain ⟨s, -, hs⟩ := Option.bind_eq_some_iff.mp hkey
  rw [fingerKey_eq] at hs
  obtain ⟨d, -, rfl⟩ := Option.map_eq_some_iff.mp hs
  exact ⟨_, rfl, rfl⟩

theorem make_fingers {cfg : LayoutCfg} {switch : SwitchCfg} {roof : ℝ} {l : Layout}
    (h : Layout.make cfg switch roof = .ok l) : ∃ f, KeyFactory.make switch roof = .ok f ∧
      (∀ g < 2, ∀ side, ∀ k ∈ fingers l g side, ∃ v : Vec, v.z = 0 ∧ k = (Key.make cfg f 1).translate v) ∧
      ∀ side, ∀ k ∈ thumbs l side, Flat f k := by
  obtain ⟨f, hf, h2, h3, hL, hR, tL, tR⟩ := make_ok h
  refine ⟨f, hf, ?_, ?_⟩
  · intro g hg side k hk
    unfold fingers at hk
    obtain ⟨half, hh, hk⟩ := List.mem_flatMap.mp hk
    have : half = initFingers cfg f .left ∨ half = initFingers cfg f .right := by
      rcases side with _ | _ | _ <;> simp [selected] at hh
      · rcases hh with rfl | rfl
        · exact Or.inr hR
        · exact Or.inl hL
      · subst hh; exact Or.inl hL
      · subst hh; exact Or.inr hR
    rcases this with rfl | rfl
    · exact mem_keysOf h2 hg hk
    · exact mem_keysOf h2 hg hk
  · have ht : ∀ side : Side, ∀ k ∈ thumbOf l side, Flat f k := by
      intro side k hk
      have ht : initThumb cfg f ⟨initFingers cfg f .left, initFingers cfg f .right, [], []⟩ side = .ok (thumbOf l side) := by
        cases side <;> assumption
      obtain ⟨units, angles, offset, col, start, o0, o1, e1, e2, e3, e4, e5, e6, e7, e8⟩ := initThumb_ok ht
      have hcol := alnumCol_ok (l := ⟨initFingers cfg f .left, initFingers cfg f .right, [], []⟩)
        ⟨initFingers_two (side := .left) h2, initFingers_two (side := .right) h2⟩ e4
      subst hcol
      have hhalf' : halfOf ⟨initFingers cfg f .left, initFingers cfg f .right, [], []⟩ side = initFingers cfg f side := by
        cases side <;> rfl
      rw [hhalf'] at e5
      obtain ⟨v, hv, hs⟩ := mem_lastAlnumCol h2 (List.mem_of_getLast? e5)
      have hz : (start.capPivotR - ⟨o0, cfg.rowPitch + o1, 0⟩ : Vec).z = 0 := by
        have : start.capPivotR.z = 0 := by
          rw [hs]
          show (Vec.transformed _ _).z = 0
          rw [Key.translate_make]
          simp [hv]
          simp [Key.translate, Key.make]
        simp [this]
      rw [e8] at hk
      exact mem_thumbLoop cfg f _ _ hz k hk
    intro side k hk
    unfold thumbs at hk
    rcases side with _ | _ | _ <;> simp [selected] at hk
    · rcases hk with hk | hk
      · exact ht .right k hk
      · exact ht .left k hk
    · exact ht .left k hk
    · exact ht .right k hk

theorem make_flat {cfg : LayoutCfg} {switch : SwitchCfg} {roof : ℝ} {l : Layout}
    (h : Layout.make cfg switch roof = .ok l) : ∃ f, KeyFactory.make switch roof = .ok f ∧
      (∀ g < 2, ∀ side, ∀ k ∈ fingers l g side, Flat f k) ∧ ∀ side, ∀ k ∈ thumbs l side, Flat f k := by
  obtain ⟨f, hf, h1, h2⟩ := make_fingers h
  refine ⟨f, hf, fun g hg side k hk => ?_, h2⟩
  obtain ⟨v, hv, rfl⟩ := h1 g hg side k hk
  exact flat_translate cfg f 1 hv

/-! ### Arrangement -/

/-- The arrangement before tilting: the alnum keys are moved by `a`, the pinky keys by `p`, the thumb keys by `t`. -/
structure Arranged (cfg : PlanCfg) (side : Side) (l0 l1 : Layout) (pivot : Vec) (a p t : Mat) : Prop where
  make : Layout.make cfg.layout cfg.switch cfg.body.roofThickness = .ok l0
  angles : cfg.body.thumbTentAngle < cfg.body.alnumTentAngle
  layout : l1 = l0.moved a p t
  parts : ∃ off kA kP dy, tentCreaseOffset cfg.layout cfg.body.alnumTentAngle cfg.body.pinkyTentAngle = .ok off ∧
    a = shift off * turn cfg.body.alnumTentAngle pivot ∧ p = turn cfg.body.pinkyTentAngle pivot ∧
    t = shift off * turn cfg.body.thumbTentAngle pivot * shift ⟨0, dy, 0⟩ ∧ dy ≤ 0 ∧
    kA ∈ fingers l0 0 none ∧ (∀ k ∈ fingers l0 0 none, ¬ kA.position < k.position) ∧
    kP ∈ fingers l0 1 none ∧ (∀ k ∈ fingers l0 1 none, ¬ k.position < kP.position) ∧
    pivot = (kA.position + off + kP.position) * (1 / 2 : ℝ)

theorem lt_add (a b c : Vec) : a + c < b + c ↔ a < b := by
  rw [Vec.lt_iff, Vec.lt_iff]
  simp

theorem arrange_ok {cfg : PlanCfg} {side : Side} {l : Layout} {tentP : TentPlanes} {sides : SidePlanes}
    (h : arrange cfg side = .ok (l, tentP, sides)) :
    ∃ l0 l1 pivot a p t t0 s0, Arranged cfg side l0 l1 pivot a p t ∧ TentOk cfg.body pivot t0 ∧ SideOk cfg.body side l1 s0 ∧
      l = l1.moved (tiltSplitMatrix cfg.body) (tiltSplitMatrix cfg.body) (tiltSplitMatrix cfg.body) ∧
      TentPlanes.Rel (CarriedBy (tiltSplitMatrix cfg.body)) t0 tentP ∧
      SidePlanes.Rel (CarriedBy (tiltSplitMatrix cfg.body)) s0 sides := by
  unfold arrange at h
  obtain ⟨l0, hl0, h⟩ := bind_ok h
  split_ifs at h with hang
  rw [not_le] at hang
  obtain ⟨⟨l1, pivot⟩, h1, h⟩ := bind_ok h
  dsimp only at h
  obtain ⟨⟨l2, t0⟩, h2, h⟩ := bind_ok h
  dsimp only at h
  obtain ⟨⟨l3, s0⟩, h3, h⟩ := bind_ok h
  dsimp only at h
  obtain ⟨t1, h4, h⟩ := bind_ok h
  obtain ⟨s1, h5, h⟩ := bind_ok h
  cases h
  have tg := make_two hl0
  obtain ⟨f, -, ff, ft⟩ := make_flat hl0
  obtain ⟨off, kA, kP, e1, rfl, a1, a2, p1, p2, ep⟩ := tentPivot_ok tg h1
  obtain ⟨rfl, hto⟩ := tent_ok h2
  obtain ⟨⟨dy, hdy, rfl⟩, hso⟩ := sideWalls_ok ((tg.moved _ _ _).moved _ _ _) (by
    intro k hk
    rw [Layout.moved_moved, thumbs_moved] at hk
    obtain ⟨k0, hk0, rfl⟩ := List.mem_map.mp hk
    exact (ft none k0 hk0).motion.1.mul ((shift_motion _).mul (turn_motion _ _)).1) h3
  have hm := tiltSplit_motion cfg.body
  refine ⟨l0, _, pivot, shift off * turn cfg.body.alnumTentAngle pivot, turn cfg.body.pinkyTentAngle pivot,
    shift off * turn cfg.body.thumbTentAngle pivot * shift ⟨0, dy, 0⟩, t0, s0, ⟨hl0, hang, ?_, ?_⟩, hto, hso, rfl, ?_, ?_⟩
  · rw [Layout.moved_moved, Layout.moved_moved]
    simp only [one_mul_mat, (C21_monoid _ 1 1 0).2.2.1]
    rw [(C21_monoid (shift off) (turn cfg.body.thumbTentAngle pivot) _ 0).1]
  · rw [fingers_moved _ _ _ _ _ (by norm_num)] at a1 a2 p1 p2
    simp only [if_true, one_ne_zero, if_false] at a1 a2 p1 p2
    obtain ⟨kA, hkA, rfl⟩ := List.mem_map.mp a1
    obtain ⟨kP, hkP, rfl⟩ := List.mem_map.mp p1
    have fA := (ff 0 (by norm_num) none kA hkA).motion.1
    rw [Key.position_transform fA, shift_apply] at a2 ep
    rw [Key.transform_one] at p2 ep
    refine ⟨off, kA, kP, dy, e1, rfl, rfl, rfl, hdy, hkA, ?_, hkP, ?_, ep⟩
    · intro k hk
      have := a2 _ (List.mem_map.mpr ⟨k, hk, rfl⟩)
      rw [Key.position_transform (ff 0 (by norm_num) none k hk).motion.1, shift_apply, lt_add] at this
      exact this
    · intro k hk
      have := p2 _ (List.mem_map.mpr ⟨k, hk, rfl⟩)
      rw [Key.transform_one] at this
      exact this
  · exact (TentPlanes.mapM_ok h4).mono fun a b hab => CarriedBy.of_transformed hm hab
  · exact (SidePlanes.mapM_ok h5).mono fun a b hab => CarriedBy.of_transformed hm hab

end Chrumm.Part
