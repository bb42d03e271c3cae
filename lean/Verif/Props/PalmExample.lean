import Verif.Props.Hitch
import Verif.Props.PlanExample

/-! A palm rest that is generated. -/

namespace Chrumm.Part
open Geo Geo.Spec Spec Classical

/-- A palm rest with straight sides. -/
noncomputable def exRest : PalmCfg where
  taperAngle := 0
  bodyMargin := 1
  height := 20
  depth := 60
  tentAngle := 0
  tiltAngle := 0
  relRoofRoundness := 0
  roofFillet := 0
  floorFillet := 0
  floorContactWidth := 5
  hitchDepth := 20
  hitchScrewPitch := 40
  hitchCornerRadius := 3
  groove := none

noncomputable def exKeyboard (W H : ℝ) : KeyboardCfg where
  quality := ⟨1 / 100, 1 / 10⟩
  layout := exGrid
  switch := exSwitch
  body := exBody W H
  outerCornerRadius := 3
  outerChamfer := 1
  boss := defaultBoss
  support := none
  encoder := none
  bracket := none
  nutSide := .left
  cable := none
  mount := none
  floor := ⟨3, 1, 1 / 2, 1, 2, 1 / 10, none⟩
  palm := some exRest
  bumper := some ⟨10, 1, 2⟩

theorem mapM_eval {α β : Type} {f : α → Py β} {xs : List α} {ys : List β} (h : List.Forall₂ (fun x y => f x = .ok y) xs ys) :
    xs.mapM f = .ok ys := by
  induction h with
  | nil => rfl
  | cons h1 _ ih =>
    rw [List.mapM_cons, h1, ih]
    rfl

theorem exSketch (q : Quality) : spineSketch q exRest 0 = .ok [⟨-1, 0, 0⟩, ⟨-61, 0, 0⟩] := by
  have e : roofEnds q exRest 0 = .ok (0, 0, tau / 4, [0], [0]) := by
    unfold roofEnds arc2D
    simp [exRest, bind, Except.bind, pure, Except.pure]
  unfold spineSketch
  refine bind_ok_of e ?_
  have i0 : pyIndex [(0 : Vec)] 0 = .ok 0 := rfl
  have i1 : pyIndex [(0 : Vec)] (-1) = .ok 0 := rfl
  refine bind_ok_of i0 (bind_ok_of i1 (bind_ok_of i0 (bind_ok_of i1 ?_)))
  have a : ∀ w : ℝ, roofArc q exRest 0 (tau / 4) w = .ok [0, ⟨-w, 0, 0⟩] := by
    intro w
    unfold roofArc
    simp [exRest, pyDiv, bind, Except.bind, pure, Except.pure]
  refine bind_ok_of (a _) ?_
  simp only [edgeTranslated, List.map_cons, List.map_nil, List.drop, List.append_nil, List.cons_append, List.nil_append]
  refine bind_ok_of rfl (bind_ok_of rfl (bind_ok_of rfl ?_))
  simp [pure, Except.pure, exRest]
  refine ⟨?_, ?_⟩ <;> ext <;> norm_num

theorem exCut (o y z x : ℝ) : Plane.intersectLine ⟨⟨o, 0, 0⟩, ⟨1, 0, 0⟩⟩ ⟨⟨x, y, z⟩, ⟨1, 0, 0⟩⟩ = .ok ⟨o, y, z⟩ := by
  simp [Plane.intersectLine, isZero, Vec.dot, pyDiv, bind, Except.bind, pure, Except.pure]
  norm_num
  ext <;> simp

theorem exCut' (o y z x : ℝ) : Plane.intersectLine ⟨⟨o, 0, 0⟩, ⟨-1, 0, 0⟩⟩ ⟨⟨x, y, z⟩, ⟨1, 0, 0⟩⟩ = .ok ⟨o, y, z⟩ := by
  simp [Plane.intersectLine, isZero, Vec.dot, pyDiv, bind, Except.bind, pure, Except.pure]
  norm_num
  ext <;> simp [div_neg]

theorem exFillet (q : Quality) (s : ℝ) (c : Vec) : filletLines q 0 s c = .ok [⟨c, ⟨1, 0, 0⟩⟩] := by
  unfold filletLines
  have e : arc2D q 0 s (tau / 4) 0 = .ok [0] := by
    unfold arc2D
    rw [if_pos (by norm_num)]
  refine bind_ok_of e ?_
  refine mapM_eval (.cons ?_ .nil)
  rw [line_self (by simp [Vec.dot])]
  congr 2
  ext <;> simp

/-- The outer shape: a box. -/
theorem exShape (q : Quality) (a b : Vec) : ∃ s, palmShape q exRest 3 a b = .ok s := by
  have spine : roofSpine q exRest 0 = .ok [⟨⟨0, -1, 0⟩, ⟨1, 0, 0⟩⟩, ⟨⟨0, -61, 0⟩, ⟨1, 0, 0⟩⟩] := by
    unfold roofSpine
    refine bind_ok_of (exSketch q) (mapM_eval (.cons ?_ (.cons ?_ .nil)))
    all_goals
      rw [spineLine_eq]
      simp [spineLine, exRest]
  unfold palmShape
  generalize (b - a).magnitude = M
  have pL : Plane.make ⟨-(M / 2), 0, 0⟩ (⟨Real.cos exRest.taperAngle, -Real.sin exRest.taperAngle, 0⟩ : Vec).mirroredX =
      .ok ⟨⟨-(M / 2), 0, 0⟩, ⟨-1, 0, 0⟩⟩ := by
    rw [show exRest.taperAngle = 0 from rfl]
    simp only [Real.cos_zero, Real.sin_zero, Vec.mirroredX, neg_zero]
    rw [plane_ok (by simp [Vec.dot])]
  have pR : Plane.make ⟨M / 2, 0, 0⟩ (⟨Real.cos exRest.taperAngle, -Real.sin exRest.taperAngle, 0⟩ : Vec) =
      .ok ⟨⟨M / 2, 0, 0⟩, ⟨1, 0, 0⟩⟩ := by
    rw [show exRest.taperAngle = 0 from rfl]
    simp only [Real.cos_zero, Real.sin_zero, Vec.mirroredX, neg_zero]
    rw [plane_ok (by simp [Vec.dot])]
  have eL : edgeOnLines ⟨⟨-(M / 2), 0, 0⟩, ⟨-1, 0, 0⟩⟩ [⟨⟨0, -1, 0⟩, ⟨1, 0, 0⟩⟩, ⟨⟨0, -61, 0⟩, ⟨1, 0, 0⟩⟩] = .ok [⟨-(M / 2), -1, 0⟩, ⟨-(M / 2), -61, 0⟩] :=
    mapM_eval (.cons (exCut' _ _ _ _) (.cons (exCut' _ _ _ _) .nil))
  have eR : edgeOnLines ⟨⟨M / 2, 0, 0⟩, ⟨1, 0, 0⟩⟩ [⟨⟨0, -1, 0⟩, ⟨1, 0, 0⟩⟩, ⟨⟨0, -61, 0⟩, ⟨1, 0, 0⟩⟩] = .ok [⟨M / 2, -1, 0⟩, ⟨M / 2, -61, 0⟩] :=
    mapM_eval (.cons (exCut _ _ _ _) (.cons (exCut _ _ _ _) .nil))
  have one : ∀ (c : Vec) (pl : Plane) (d : Vec), pl.intersectLine ⟨c, ⟨1, 0, 0⟩⟩ = .ok d → edgeOnLines pl [⟨c, ⟨1, 0, 0⟩⟩] = .ok [d] := fun c pl d h =>
    mapM_eval (.cons h .nil)
  refine bind_ex pL (bind_ex pR (bind_ex spine (bind_ex eL (bind_ex eR (bind_ex rfl (bind_ex rfl (bind_ex rfl (bind_ex rfl ?_))))))))
  rw [if_neg]
  · refine bind_ex (exFillet _ _ _) (bind_ex (one _ _ _ (exCut' _ _ _ _)) (bind_ex (one _ _ _ (exCut _ _ _ _)) ?_))
    exact bind_ex (exFillet _ _ _) (bind_ex (one _ _ _ (exCut' _ _ _ _)) (bind_ex (one _ _ _ (exCut _ _ _ _)) ⟨_, rfl⟩))
  · norm_num [exRest, edgeTranslated]

theorem pyIndex_first {l : List Vec} (h : l ≠ []) : pyIndex l 0 = .ok (l.headD 0) := by
  cases l with
  | nil => exact absurd rfl h
  | cons a l => exact pyIndex_zero.mpr rfl

theorem pyIndex_final {l : List Vec} (h : l ≠ []) : pyIndex l (-1) = .ok (l.getLastD 0) := by
  rw [getLastD_eq h]
  exact pyIndex_last.mpr (List.getLast?_eq_some_getLast h)

theorem onLine_of {pl : Plane} {l : Line} (h : 1 / 1000000 ≤ |pl.normal.dot l.dir|) : ∃ r, pl.intersectLine l = .ok r := by
  unfold Plane.intersectLine
  dsimp only
  have h0 : ¬isZero (pl.normal.dot l.dir) := by unfold isZero; linarith
  rw [if_neg h0]
  refine bind_ex (a := _) (by
    unfold pyDiv
    rw [if_neg]
    rintro e
    rw [e, abs_zero] at h
    norm_num at h) ⟨_, rfl⟩

/-- The hitch notch can be built, if the hitch fits. -/
theorem palmNotch_of {q : Quality} {palm : PalmCfg} {fh o : ℝ} {s : PalmShape} (hq : 0 < q.maxChordAngle) (hh : 0 < q.maxChordHeight)
    (hqr : q.maxChordHeight ≤ 2 * palm.hitchCornerRadius)
    (ht : |palm.taperAngle| ≤ Real.pi / 4) (hR : s.planeR = ⟨⟨o, 0, 0⟩, ⟨Real.cos palm.taperAngle, -Real.sin palm.taperAngle, 0⟩⟩)
    (hn : ShapeNe s) (hd : ∀ l ∈ s.filletLinesB, l.dir = ⟨1, 0, 0⟩) (hf : 0 < fh) (hr : 1 / 1000000 ≤ palm.hitchCornerRadius)
    (hY : s.palmFGy = -(palm.bodyMargin + palm.depth)) (front : palm.floorContactWidth + fh < palm.depth)
    (room : palm.floorContactWidth + fh + (palm.bodyMargin + palm.depth - palm.floorContactWidth - fh) * Real.sin palm.taperAngle <
      o * Real.cos palm.taperAngle) {lb rb : Vec}
    (h1 : (lb - rb).magnitude + palm.hitchCornerRadius <
      (o + (-palm.bodyMargin * Real.sin palm.taperAngle - (palm.floorContactWidth + fh)) / Real.cos palm.taperAngle) * 2)
    (h2 : palm.hitchDepth < palm.depth - palm.floorContactWidth - fh) : ∃ n, palmNotch q palm fh s lb rb = .ok n := by
  have hc := cos_ge ht
  have hu : Real.sin palm.taperAngle ^ 2 + Real.cos palm.taperAngle ^ 2 = 1 := Real.sin_sq_add_cos_sq _
  have c0 : 0 < Real.cos palm.taperAngle := by linarith
  unfold palmNotch
  rw [notchCorners_ok ht hR, hR]
  refine bind_ex rfl ?_
  dsimp only
  obtain ⟨w, hw⟩ : ∃ w, (⟨-(Real.cos palm.taperAngle * fh), Real.sin palm.taperAngle * fh, fh⟩ : Vec).normalized = .ok w := by
    unfold Vec.normalized Vec.div
    rw [if_neg]
    · exact ⟨_, rfl⟩
    · apply magnitude_ne_zero
      intro e
      exact hf.ne' (congrArg Vec.z e)
  refine bind_ex hw ?_
  have o2 := (taperPlane_ok hu hc hf hw ⟨o + (-palm.bodyMargin * Real.sin palm.taperAngle - palm.floorContactWidth) / Real.cos palm.taperAngle,
    -palm.bodyMargin, -fh⟩)
  obtain ⟨pl, hpl⟩ : ∃ pl, Plane.make ⟨o + (-palm.bodyMargin * Real.sin palm.taperAngle - palm.floorContactWidth) / Real.cos palm.taperAngle,
    -palm.bodyMargin, -fh⟩ (w - ⟨Real.cos palm.taperAngle, -Real.sin palm.taperAngle, 0⟩) = .ok pl := by
    rcases o2.1 with h | h
    · exact h
    · exfalso
      unfold Plane.make Vec.normalized Vec.div at h
      split_ifs at h <;> cases h
  refine bind_ex hpl ?_
  obtain ⟨RG, hRG⟩ : ∃ RG, edgeOnLines pl s.filletLinesB = .ok RG := mapM_ok_of _ fun l hl => onLine_of (by
    rw [hd l hl]
    exact o2.2 pl hpl)
  have nRG := edgeOnLines_ne hRG hn.linesB
  refine bind_ex hRG ?_
  obtain ⟨cRT, hcRT⟩ := C54_succeeds q palm.hitchCornerRadius
    ⟨o + (-palm.bodyMargin * Real.sin palm.taperAngle - (palm.floorContactWidth + fh)) / Real.cos palm.taperAngle, -palm.bodyMargin, 0⟩
    ⟨o + ((s.palmFGy + palm.floorContactWidth + fh) * Real.sin palm.taperAngle - (palm.floorContactWidth + fh)) / Real.cos palm.taperAngle,
      s.palmFGy + palm.floorContactWidth + fh, 0⟩
    (⟨o + ((s.palmFGy + palm.floorContactWidth + fh) * Real.sin palm.taperAngle - (palm.floorContactWidth + fh)) / Real.cos palm.taperAngle,
      s.palmFGy + palm.floorContactWidth + fh, 0⟩ : Vec).yz hq hh hr hqr (by
    simp only [left, Vec.yz]
    rw [hY]
    have : 0 < o + ((-(palm.bodyMargin + palm.depth) + palm.floorContactWidth + fh) * Real.sin palm.taperAngle - (palm.floorContactWidth + fh)) /
        Real.cos palm.taperAngle := by
      have : o + ((-(palm.bodyMargin + palm.depth) + palm.floorContactWidth + fh) * Real.sin palm.taperAngle - (palm.floorContactWidth + fh)) /
          Real.cos palm.taperAngle = (o * Real.cos palm.taperAngle -
            (palm.floorContactWidth + fh + (palm.bodyMargin + palm.depth - palm.floorContactWidth - fh) * Real.sin palm.taperAngle)) /
              Real.cos palm.taperAngle := by
        field_simp
        ring
      rw [this]
      exact div_pos (by linarith) c0
    generalize o + ((-(palm.bodyMargin + palm.depth) + palm.floorContactWidth + fh) * Real.sin palm.taperAngle - (palm.floorContactWidth + fh)) /
        Real.cos palm.taperAngle = x at *
    have h2 : 0 < (-palm.bodyMargin - (-(palm.bodyMargin + palm.depth) + palm.floorContactWidth + fh)) * x := mul_pos (by linarith) this
    rw [sub_self, mul_zero, zero_sub, zero_sub, mul_neg, neg_neg]
    exact h2.ne')
  refine bind_ex hcRT (bind_ex (a := fh / palm.hitchCornerRadius) ?_ ?_)
  · unfold pyDiv
    rw [if_neg (by linarith)]
  have nRT : ∀ v, edgeTranslated RG v ≠ [] := fun v => by simpa [edgeTranslated] using nRG
  have nm : ∀ {l : List Vec}, l ≠ [] → l.map Vec.mirroredX ≠ [] := fun h => by simpa using h
  refine bind_ex (pyIndex_first (nRT _)) (bind_ex (pyIndex_first nRG) (bind_ex (pyIndex_final hn.filletLB) (bind_ex (pyIndex_first hn.roofL)
    (bind_ex (pyIndex_first hn.roofR) (bind_ex (pyIndex_final hn.filletRB) (bind_ex (pyIndex_final (nm nRG)) (bind_ex (pyIndex_final (nm (nRT _)))
    (bind_ex (pyIndex_final (nRT _)) (bind_ex (pyIndex_final nRG) ?_)))))))))
  rw [if_neg]
  · exact ⟨_, rfl⟩
  · push Not
    refine ⟨h1, ?_⟩
    rw [hY]
    linarith

/-- The distance between the back corners of the hitch, which are on the wall. -/
theorem hitch_width_eq {palm : PalmCfg} {a b olb orb olf orf posL posR : Vec} (k : HitchPoints palm a b olb orb olf orf posL posR)
    (hne : a.xy ≠ b.xy) : (olb - orb).magnitude = |Real.sqrt (distSq2D a b) - alongWall a b olb - alongWall b a orb| := by
  have hD : 0 < distSq2D a b := by
    unfold distSq2D
    by_contra hn
    apply hne
    have h1 : a.x - b.x = 0 := by nlinarith [sq_nonneg (a.x - b.x), sq_nonneg (a.y - b.y)]
    have h2 : a.y - b.y = 0 := by nlinarith [sq_nonneg (a.x - b.x), sq_nonneg (a.y - b.y)]
    ext <;> simp [Vec.xy] <;> linarith
  have hM := Real.sqrt_pos.mpr hD
  have hM2 := Real.sq_sqrt hD.le
  set M := Real.sqrt (distSq2D a b) with hMd
  obtain ⟨hS, co⟩ := wall_coords (a := a) (b := b) (p := (a.x - b.x) / M) (q := (a.y - b.y) / M) hM (by
    field_simp
    rw [hM2]
    unfold distSq2D
    ring) (by field_simp) (by field_simp)
  have f1 := k.back.1
  have f2 := k.back.2
  rw [(co _).1] at f1 f2
  rw [(co _).2.1, (co _).2.2]
  generalize hp : (a.x - b.x) / M = p at *
  generalize hq : (a.y - b.y) / M = q at *
  have ex : b.x = a.x - M * p := by rw [← hp]; field_simp; ring
  have ey : b.y = a.y - M * q := by rw [← hq]; field_simp; ring
  have hu : p ^ 2 + q ^ 2 = 1 := by
    rw [← hp, ← hq]
    field_simp
    rw [hM2]
    unfold distSq2D
    ring
  have : M - (-p * (olb.x - a.x) - q * (olb.y - a.y)) - (p * (orb.x - b.x) + q * (orb.y - b.y)) = p * (olb.x - orb.x) + q * (olb.y - orb.y) := by
    rw [ex, ey]
    linear_combination (-M) * hu
  rw [this]
  have z1 := k.flat olb (by simp)
  have z2 := k.flat orb (by simp)
  have f3 : p * (olb.y - orb.y) - q * (olb.x - orb.x) = 0 := by linear_combination f1 - f2
  unfold Vec.magnitude
  rw [← Real.sqrt_sq_eq_abs]
  congr 1
  simp only [Vec.sub_x, Vec.sub_y, Vec.sub_z, z1, z2]
  linear_combination (-((olb.x - orb.x) ^ 2 + (olb.y - orb.y) ^ 2)) * hu + (p * (olb.y - orb.y) - q * (olb.x - orb.x)) * f3

theorem palmBumpers_of {q : Quality} {palm : PalmCfg} {fh o : ℝ} {s : PalmShape} {c : BumperCfg} (ht : |palm.taperAngle| ≤ Real.pi / 4)
    (hL : s.planeL = ⟨⟨-o, 0, 0⟩, ⟨-Real.cos palm.taperAngle, -Real.sin palm.taperAngle, 0⟩⟩) (hq : SaneQuality q) (hd : 1 ≤ c.diameter)
    (hh : q.maxChordHeight ≤ c.diameter) : ∃ bs, palmBumpers q fh palm s (some c) = .ok bs := by
  have hu := Real.sin_sq_add_cos_sq palm.taperAngle
  have c2 := cos_ge ht
  have c3 : 49 / 100 ≤ Real.cos palm.taperAngle ^ 2 := by nlinarith
  have pos : ∃ ps, palmBumperPos palm c s = .ok ps := by
    unfold palmBumperPos
    dsimp only
    rw [hL, line_self (d := ⟨1, 0, 0⟩) (by simp [Vec.dot]), line_self (d := ⟨1, 0, 0⟩) (by simp [Vec.dot]), line_self (by simp only [Vec.dot, Vec.ortho2D]; linarith)]
    have m : ∀ v : Vec, v.z = 0 → ∃ r, (⟨(⟨-o, 0, 0⟩ : Vec) - (⟨-Real.cos palm.taperAngle, -Real.sin palm.taperAngle, 0⟩ : Vec) * (palm.floorContactWidth / 2),
      (⟨-Real.cos palm.taperAngle, -Real.sin palm.taperAngle, 0⟩ : Vec).ortho2D⟩ : Line).intersect ⟨v, ⟨1, 0, 0⟩⟩ = .ok r := by
      intro v hv
      refine planar_meets ⟨by simp, rfl, by simp only [Vec.ortho2D]; linarith⟩ ⟨hv, rfl, by simp⟩ ?_
      simp only [Vec.ortho2D]
      norm_num
      linarith
    obtain ⟨r1, e1⟩ := m ⟨0, s.palmFGy + _, 0⟩ rfl
    obtain ⟨r2, e2⟩ := m ⟨0, s.palmBGy - _, 0⟩ rfl
    exact bind_ex rfl (bind_ex rfl (bind_ex rfl (bind_ex e1 (bind_ex e2 ⟨_, rfl⟩))))
  obtain ⟨ps, hps⟩ := pos
  unfold palmBumpers
  dsimp only
  exact bind_ex hps (mapM_ok_of ps fun x _ => C59_succeeds q fh c x false hq hd hh)

theorem exScrew (W H : ℝ) : SaneScrew (exKeyboard W H) := by
  have hpi := Real.pi_gt_three
  refine ⟨⟨?_, ?_, ?_⟩, ?_, ?_, ?_, ?_, ?_⟩ <;> norm_num [exKeyboard, defaultBoss]
  · linarith
  · rintro s ⟨⟩

theorem exRoof : SaneRoof exRest 0 := by
  have hpi := Real.pi_pos
  refine ⟨Or.inl (by norm_num [exRest]), ?_, ?_⟩
  · simp only [exRest, abs_zero]; linarith
  · norm_num [exRest]

/-- A hitch and a palm rest are generated, for every wall that is at least 90 wide. -/
theorem exPalm_general {cfg : KeyboardCfg} (hcs : SaneScrew cfg) (hcb : cfg.bumper = some ⟨10, 1, 2⟩) (hcf : cfg.floor.outerHeight = 3)
    (hcq : cfg.quality.maxChordHeight ≤ 2) (plan : Plan) (hw : 90 ≤ Real.sqrt (distSq2D plan.points.thumbOLF plan.points.pinkyORF)) :
    ∃ hi palm, Hitch.make cfg plan (some exRest) = .ok (some hi) ∧ Palm.make cfg exRest plan.points hi = .ok palm := by
  have hpi := Real.pi_pos
  have hpi3 := Real.pi_gt_three
  have ht : |exRest.taperAngle| ≤ Real.pi / 4 := by simp only [exRest, abs_zero]; linarith
  have hne : plan.points.thumbOLF.xy ≠ plan.points.pinkyORF.xy := by
    intro e
    have h1 := (Vec.mk.inj e).1
    have h2 := (Vec.mk.inj e).2.1
    rw [show distSq2D plan.points.thumbOLF plan.points.pinkyORF = 0 by unfold distSq2D; rw [h1, h2]; ring, Real.sqrt_zero] at hw
    norm_num at hw
  obtain ⟨hi, h1⟩ := C89_hitch hcs ht hne
  obtain ⟨posL, posR, k, -, -⟩ := hitch_ok h1 ht hne
  have wd := hitch_width_eq k hne
  have l1 := k.sideL _ (by simp : hi.olb ∈ [hi.olb, hi.olf])
  have r1 := k.sideR _ (by simp : hi.orb ∈ [hi.orb, hi.orf])
  have z : exRest.taperAngle = 0 := rfl
  rw [z, Real.cos_zero, Real.sin_zero, mul_zero, mul_one, mul_zero, mul_one, sub_zero, sub_zero] at l1 r1
  rw [l1, r1] at wd
  refine ⟨hi, ?_⟩
  have hm : (plan.points.pinkyORF.xy - plan.points.thumbOLF.xy).magnitude = Real.sqrt (distSq2D plan.points.thumbOLF plan.points.pinkyORF) := by
    unfold Vec.magnitude distSq2D
    congr 1
    simp [Vec.xy]
    ring
  have hq : (0 : ℝ) < cfg.quality.maxChordAngle := lt_of_lt_of_le (by norm_num) hcs.quality.angle
  have hh : (0 : ℝ) < cfg.quality.maxChordHeight := lt_of_lt_of_le (by norm_num) hcs.quality.height
  obtain ⟨s, hs⟩ := exShape cfg.quality plan.points.thumbOLF.xy plan.points.pinkyORF.xy
  obtain ⟨ok, eL, eR⟩ := palmShape_ok hs hq exRoof (by norm_num [exRest]) (by norm_num [exRest])
  have ne := (palmShape_orderly hq hh (by simp only [exRest, abs_zero]; linarith) (by simp only [exRest, abs_zero]; linarith) ht).2 s hs
  rw [hm] at eR
  obtain ⟨bs, hbs⟩ := palmBumpers_of (fh := 3) (c := ⟨10, 1, 2⟩) ht eL hcs.quality (by norm_num) (by dsimp only; linarith)
  generalize Real.sqrt (distSq2D plan.points.thumbOLF plan.points.pinkyORF) = M at *
  obtain ⟨n, hn⟩ := palmNotch_of (fh := 3) (lb := hi.olb) (rb := hi.orb) hq hh (by simp only [exRest]; linarith) ht eR ne ok.lines (by norm_num) (by norm_num [exRest]) ok.front
    (by norm_num [exRest]) (by rw [z, Real.sin_zero, Real.cos_zero]; norm_num [exRest]; linarith)
    (by
      rw [wd, z, Real.sin_zero, Real.cos_zero]
      norm_num [exRest]
      rw [show M - (M / 2 - 20 - 10) - (M / 2 - 20 - 10) = 60 by ring]
      norm_num
      linarith)
    (by norm_num [exRest])
  have i1 := pyIndex_first ne.filletRB
  have he : ∃ palm, Palm.make cfg exRest plan.points hi = .ok palm := by
    unfold Palm.make palmMatrix
    rw [hcf, hcb]
    refine bind_ex (bind_ok_of (vdiv_two _) rfl) (bind_ex hs (bind_ex hn (bind_ex rfl (bind_ex hbs ?_))))
    exact bind_ex (bind_ok_of (pyIndex_first ne.filletRB) (bind_ok_of (pyIndex_final ne.roofR) (bind_ok_of (pyIndex_final ne.roofL)
      (bind_ok_of (pyIndex_first ne.filletLB) rfl)))) ⟨_, rfl⟩
  obtain ⟨palm, h2⟩ := he
  exact ⟨palm, h1, h2⟩

theorem exPalm_succeeds (W H : ℝ) (plan : Plan) (hw : 90 ≤ Real.sqrt (distSq2D plan.points.thumbOLF plan.points.pinkyORF)) :
    ∃ hi palm, Hitch.make (exKeyboard W H) plan (some exRest) = .ok (some hi) ∧ Palm.make (exKeyboard W H) exRest plan.points hi = .ok palm :=
  exPalm_general (exScrew W H) rfl rfl (by norm_num [exKeyboard]) plan hw

/-- A plan with a wall that is 100 wide; it satisfies what the theorems about palm rests require. -/
example : ∃ W H plan hi palm, Hitch.make (exKeyboard W H) plan (some exRest) = .ok (some hi) ∧ Palm.make (exKeyboard W H) exRest plan.points hi = .ok palm ∧
    SanePalm (exKeyboard W H) ∧ SaneScrew (exKeyboard W H) ∧ SaneRest (exKeyboard W H) exRest (Real.sqrt (distSq2D plan.points.thumbOLF plan.points.pinkyORF)) ∧
    plan.points.thumbOLF.xy ≠ plan.points.pinkyORF.xy := by
  have hpi := Real.pi_pos
  obtain ⟨W, H, plan, -⟩ := exPlan_succeeds .left
  obtain ⟨p, hp⟩ : ∃ p : Plan, p = { plan with points := { plan.points with thumbOLF := ⟨-50, -60, 20⟩, pinkyORF := ⟨50, -60, 20⟩ } } := ⟨_, rfl⟩
  have e1 : p.points.thumbOLF = ⟨-50, -60, 20⟩ := by rw [hp]
  have e2 : p.points.pinkyORF = ⟨50, -60, 20⟩ := by rw [hp]
  have hw : Real.sqrt (distSq2D p.points.thumbOLF p.points.pinkyORF) = 100 := by
    rw [e1, e2]
    unfold distSq2D
    rw [show ((-50 : ℝ) - 50) ^ 2 + (-60 - -60) ^ 2 = 100 ^ 2 by norm_num]
    exact Real.sqrt_sq (by norm_num)
  obtain ⟨hi, palm, h1, h2⟩ := exPalm_succeeds W H p (by rw [hw]; norm_num)
  refine ⟨W, H, p, hi, palm, h1, h2, ⟨(exScrew W H).quality, ⟨by norm_num [exKeyboard, defaultBoss], by norm_num [exKeyboard, defaultBoss],
    by norm_num [exKeyboard, defaultBoss], by rintro s ⟨⟩⟩, by rintro s ⟨⟩; norm_num⟩, exScrew W H, ?_, ?_⟩
  · rw [hw]
    refine ⟨by norm_num [exKeyboard], by norm_num [exKeyboard], exRoof, by norm_num [exRest], by norm_num [exRest], ?_, ?_, by norm_num [exKeyboard],
      by norm_num [exRest], by norm_num [exKeyboard, exRest], ?_, by rintro s ⟨⟩,
      by rintro s ⟨⟩; exact ⟨by norm_num, (exScrew W H).quality, by norm_num [exKeyboard]⟩⟩
    · simp only [exRest, abs_zero]; linarith
    · simp only [exRest, abs_zero]; linarith
    · rw [show exRest.taperAngle = 0 from rfl, Real.sin_zero, Real.cos_zero]
      norm_num [exKeyboard, exRest]
  · rw [e1, e2]
    intro e
    have := (Vec.mk.inj e).1
    norm_num at this

end Chrumm.Part
