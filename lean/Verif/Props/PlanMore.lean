import Verif.Props.Plan
import Verif.Props.Inside

/-! **C68**, **C75** Switch holes, and plans of both sides. -/

namespace Chrumm.Part
open Geo Geo.Spec Spec

variable {cfg : PlanCfg} {side : Side} {plan : Plan}

theorem sidewaysTurn_z (b : Bool) (v : Vec) : (sidewaysTurn b v).z = v.z := by
  unfold sidewaysTurn
  split_ifs
  · rw [rotZ_transformed]
  · rfl

theorem mirror_z {P : ℝ} {e : List Vec} (h : ∀ v ∈ e, v.z = P) : ∀ v ∈ withMirroredY e, v.z = P := by
  intro v hv
  unfold withMirroredY at hv
  rw [List.mem_append, List.mem_reverse, List.mem_map] at hv
  rcases hv with hv | ⟨w, hw, rfl⟩
  · exact h v hv
  · simpa [Vec.mirroredY] using h w hw

/-- The rims of a switch hole are level. -/
theorem rims {switch : SwitchCfg} {roof : ℝ} {f : KeyFactory} (h : KeyFactory.make switch roof = .ok f) :
    (∀ v ∈ f.roofHoleO, v.z = 0) ∧ ∀ v ∈ f.roofHoleI, v.z = -roof := by
  unfold KeyFactory.make at h
  dsimp only at h
  obtain ⟨⟨half, notch⟩, h1, h⟩ := bind_ok h
  dsimp only at h
  cases h
  have hn : ∀ v ∈ notch, v.z = -roof := by
    unfold halfTriangles at h1
    dsimp only at h1
    obtain ⟨_, -, h1⟩ := bind_ok h1
    obtain ⟨_, -, h1⟩ := bind_ok h1
    cases hc : activeClip switch roof with
    | none =>
      rw [hc] at h1
      dsimp only at h1
      obtain ⟨_, -, h1⟩ := bind_ok h1
      cases h1
      simp
    | some c =>
      rw [hc] at h1
      dsimp only at h1
      obtain ⟨⟨t3, n3⟩, h2, h1⟩ := bind_ok h1
      dsimp only at h1
      cases h1
      unfold clipTriangles at h2
      dsimp only at h2
      obtain ⟨_, -, h2⟩ := bind_ok h2
      obtain ⟨_, -, h2⟩ := bind_ok h2
      obtain ⟨_, -, h2⟩ := bind_ok h2
      obtain ⟨_, -, h2⟩ := bind_ok h2
      obtain ⟨_, -, h2⟩ := bind_ok h2
      cases h2
      simp
  have turned : ∀ {l : List Vec} {P : ℝ} {b : Bool}, (∀ v ∈ l, v.z = P) → ∀ v ∈ (l ++ l.map halfTurn).map (sidewaysTurn b), v.z = P := by
    intro l P b hl v hv
    obtain ⟨w, hw, rfl⟩ := List.mem_map.mp hv
    rw [sidewaysTurn_z]
    rcases List.mem_append.mp hw with hw | hw
    · exact hl w hw
    · obtain ⟨u, hu, rfl⟩ := List.mem_map.mp hw
      simpa [halfTurn, Vec.mirroredX, Vec.mirroredY] using hl u hu
  refine ⟨turned fun v hv => ?_, turned fun v hv => ?_⟩
  · have := (C35_subsequence _ _).1.subset hv
    exact mirror_z (fun w hw => by simp [entryEdge0] at hw; rcases hw with rfl | rfl <;> rfl) v this
  · have := (C35_subsequence _ _).1.subset (List.mem_reverse.mp hv)
    rcases List.mem_append.mp this with hv | hv
    · exact mirror_z (fun w hw => by simp [exitEdge0] at hw; rw [hw]) v hv
    · exact hn v hv

/-- **C68** The rims of the switch holes are in the roofs: the outer rim in the outer roof of the group, the inner rim in the
inner roof. -/
theorem C68_rims (h : Plan.make cfg side = .ok plan) (g : Group) (s : Option Side) :
    ∃ ks, g.keys plan.layout s = .ok ks ∧ ∀ k ∈ ks, (∀ p ∈ k.roofHoleO, above (g.roofO plan) p = 0) ∧
      ∀ p ∈ k.roofHoleI, above (g.roofI plan) p = 0 := by
  obtain ⟨ks, h1, -, -, h2⟩ := C68_flush h g s
  obtain ⟨hm⟩ := make_made h
  obtain ⟨f, hf, hflat⟩ := hm.flat
  obtain ⟨r1, r2⟩ := rims hf
  refine ⟨ks, h1, fun k hk => ?_⟩
  have hkf : k.factory = f := by
    rw [groupOf_ok hm.two s g] at h1
    cases h1
    rw [hm.groupOf] at hk
    obtain ⟨k0, hk0, rfl⟩ := List.mem_map.mp hk
    exact (hflat s g k0 hk0).factory
  constructor
  · intro p hp
    obtain ⟨v, hv, rfl⟩ := List.mem_map.mp hp
    rw [(h2 k hk v).1]
    exact r1 v (hkf ▸ hv)
  · intro p hp
    obtain ⟨v, hv, rfl⟩ := List.mem_map.mp hp
    rw [(h2 k hk v).2, r2 v (hkf ▸ hv)]
    ring

/-! ### Both sides -/

/-- Both sides of a layout are the same. -/
def Same (l : Layout) : Prop := l.fingersL = l.fingersR ∧ l.thumbL = l.thumbR

theorem Same.moved {l : Layout} (h : Same l) (a p t : Mat) : Same (l.moved a p t) := by
  obtain ⟨h1, h2⟩ := h
  unfold Layout.moved Layout.mapThumb Layout.mapGroup Same
  dsimp only
  rw [h1, h2]
  exact ⟨rfl, rfl⟩

theorem Same.halves {l : Layout} (h : Same l) : l.halves (some .left) = l.halves (some .right) := by
  simp [Layout.halves, h.1]

theorem Same.thumb {l : Layout} (h : Same l) : l.thumb (some .left) = l.thumb (some .right) := by
  simp [Layout.thumb, h.2]

theorem Same.groupKeys {l : Layout} (h : Same l) (g : ℕ) : l.groupKeys g (some .left) = l.groupKeys g (some .right) := by
  unfold Layout.groupKeys
  rw [h.halves]

theorem Same.colKeys {l : Layout} (h : Same l) (g : ℕ) (i : ℤ) : l.colKeys g i (some .left) = l.colKeys g i (some .right) := by
  unfold Layout.colKeys
  rw [h.halves]

theorem Same.perCol {l : Layout} (h : Same l) (g : ℕ) (i : ℤ) : l.perCol g i (some .left) = l.perCol g i (some .right) := by
  unfold Layout.perCol
  rw [h.halves]
  simp only [h.colKeys]

theorem Same.all {l : Layout} (h : Same l) : l.all (some .left) = l.all (some .right) := by
  unfold Layout.all Layout.alnum Layout.pinky
  rw [h.groupKeys, h.groupKeys, h.thumb]

theorem Same.fitBosses {l : Layout} (h : Same l) (b : BossFit) (t : TentPlanes) (wB wF : Line × Line) :
    fitBosses b l t .left wB wF = fitBosses b l t .right wB wF := by
  unfold Part.fitBosses Layout.perAlnumCol Layout.perPinkyCol
  rw [h.perCol, h.perCol, h.perCol, h.thumb]

theorem Same.vertical {l : Layout} (h : Same l) (t : TentPlanes) : vertical cfg .left l t = vertical cfg .right l t := by
  unfold Part.vertical
  simp only [Side.other, h.fitBosses]

theorem Same.sideWalls {l : Layout} (h : Same l) (body : BodyCfg) : sideWalls body .left l = sideWalls body .right l := by
  unfold Part.sideWalls
  cases h1 : l.alnum with
  | error e => rfl
  | ok alnum =>
    simp only [bind, Except.bind]
    cases pyMin ((alnum.flatMap Key.bounds).map Vec.x) with
    | error e => rfl
    | ok x =>
      dsimp only
      cases Plane.fromX x with
      | error e => rfl
      | ok p =>
        dsimp only
        cases wallLines2D alnum body.alnumFrontThickness body.alnumFrontAngle with
        | error e => rfl
        | ok w =>
          dsimp only
          cases Plane.fromLine2D w.1 with
          | error e => rfl
          | ok p1 =>
            dsimp only
            cases Plane.fromLine2D w.2 with
            | error e => rfl
            | ok p2 =>
              dsimp only
              cases hm : moveThumb w.2 l with
              | error e => rfl
              | ok l1 =>
                obtain ⟨-, dy, -, rfl, -⟩ := moveThumb_ok hm
                dsimp only
                have : (l.moved 1 1 (shift ⟨0, dy, 0⟩)).pinky (some .left) = (l.moved 1 1 (shift ⟨0, dy, 0⟩)).pinky (some .right) :=
                  (h.moved _ _ _).groupKeys 1
                rw [this]

theorem bind_congr_ok {α β : Type} {x : Py α} {f g : α → Py β} (h : ∀ a, x = .ok a → f a = g a) : (x >>= f) = (x >>= g) := by
  cases x with
  | error e => rfl
  | ok a => exact h a rfl

theorem map_bind_ok {α β γ : Type} {x : Py α} {f : α → Py β} {r : β → γ} : (x >>= f).map r = (x >>= fun a => (f a).map r) := by
  cases x <;> rfl

theorem arrange_same (hs : SymmetricCfg cfg.layout) : arrange cfg .left = arrange cfg .right := by
  unfold arrange
  refine bind_congr_ok fun l hl => ?_
  have h0 : Same l := by
    exact C51_symmetric hs hl
  dsimp only
  split
  · rfl
  · refine bind_congr_ok fun a ha => ?_
    obtain ⟨l1, pivot⟩ := a
    have h1 : Same l1 := by
      obtain ⟨o, _, _, _, rfl, -⟩ := tentPivot_ok (make_two hl) ha
      exact h0.moved _ _ _
    dsimp only
    refine bind_congr_ok fun a ha => ?_
    obtain ⟨l2, t⟩ := a
    have h2 : Same l2 := by
      obtain ⟨rfl, -⟩ := tent_ok ha
      exact h1.moved _ _ _
    dsimp only
    rw [h2.sideWalls]

theorem arrange_is_same (hs : SymmetricCfg cfg.layout) {side : Side} {l : Layout} {t : TentPlanes} {s : SidePlanes}
    (h : arrange cfg side = .ok (l, t, s)) : Same l := by
  obtain ⟨l0, l1, _, a, p, t, _, _, ha, -, -, rfl, -⟩ := arrange_ok h
  have h0 : Same l0 := C51_symmetric hs ha.make
  rw [ha.layout]
  exact (h0.moved _ _ _).moved _ _ _

/-- **C75** If both sides of the configured layout mirror each other, the plans of both sides are the same. -/
theorem C75_symmetric (hs : SymmetricCfg cfg.layout) :
    (Plan.make cfg .left).map (fun p => { p with side := .right }) = Plan.make cfg .right := by
  unfold Plan.make
  rw [arrange_same hs, map_bind_ok]
  refine bind_congr_ok fun a ha => ?_
  obtain ⟨l, t, s⟩ := a
  have h0 := arrange_is_same hs ha
  dsimp only
  rw [h0.vertical, map_bind_ok]
  refine bind_congr_ok fun a ha => ?_
  obtain ⟨b, linesB, linesF, w⟩ := a
  dsimp only
  simp only [map_bind_ok]
  refine bind_congr_ok fun dx _ => ?_
  refine bind_congr_ok fun t1 _ => ?_
  refine bind_congr_ok fun s1 _ => ?_
  refine bind_congr_ok fun w1 _ => ?_
  refine bind_congr_ok fun lB _ => ?_
  refine bind_congr_ok fun lF _ => ?_
  refine bind_congr_ok fun c _ => ?_
  refine bind_congr_ok fun r _ => ?_
  refine bind_congr_ok fun pts _ => ?_
  unfold finalZ
  simp only [map_bind_ok]
  refine bind_congr_ok fun all _ => ?_
  refine bind_congr_ok fun mz _ => ?_
  refine bind_congr_ok fun t2 _ => ?_
  refine bind_congr_ok fun s2 _ => ?_
  refine bind_congr_ok fun w2 _ => ?_
  refine bind_congr_ok fun tl _ => ?_
  refine bind_congr_ok fun mb _ => ?_
  have : ∀ d e : Vec, Same ((l.mapAll (·.translate d)).mapAll (·.translate e)) := by
    intro d e
    rw [translate_fun, translate_fun, mapAll_eq, mapAll_eq]
    exact (h0.moved _ _ _).moved _ _ _
  rw [(this _ _).all]
  refine bind_congr_ok fun al _ => ?_
  refine bind_congr_ok fun mp _ => ?_
  split
  · rfl
  · split <;> rfl

end Chrumm.Part
