import Verif.Props.BodyExample
import Verif.Props.BodyMake
import Verif.Props.Halves

/-! The body of the example: what is proved about bodies holds of a real one. -/

namespace Chrumm.Part
open Geo Geo.Spec Spec

theorem exSane (W H : ℝ) : SaneBody (exCfg W H) where
  quality := exQuality_sane
  hole := by
    have : activeClip exSwitch 4 = none := rfl
    refine ⟨?_, ?_, ?_, ?_, ?_⟩
    · show 1 ≤ holeWidth exSwitch 4
      norm_num [holeWidth, isSideways, this, exSwitch]
    · show 1 ≤ holeDepth exSwitch 4
      norm_num [holeDepth, isSideways, this, exSwitch]
    · show exSwitch.entryChamfer = 0 ∨ _ ≤ exSwitch.entryChamfer
      norm_num [exSwitch]
    · show exSwitch.entryChamfer + 1 / 100 ≤ 4
      norm_num [exSwitch]
    · show ∀ c ∈ activeClip exSwitch 4, _
      rw [this]; simp
  thread := ⟨by norm_num [exCfg, exBoss], by norm_num [exCfg, exBoss], by norm_num [exCfg, exBoss], by simp [exCfg]⟩
  steep := by
    have c := exAngle_full.1
    intro g
    have ht : (exBody W H).tiltAngle = 0 := rfl
    have key : Real.cos (g.angle (exBody W H)) = 527 / 625 ∨ Real.cos (g.angle (exBody W H)) = 1 := by
      cases g
      · exact Or.inl c
      · exact Or.inr Real.cos_zero
      · exact Or.inr Real.cos_zero
    show 0 < Real.cos (g.angle (exBody W H)) * Real.cos (exBody W H).tiltAngle ∧
      Real.sqrt (1 - (Real.cos (g.angle (exBody W H)) * Real.cos (exBody W H).tiltAngle) ^ 2) * exBoss.threadDiameter ≤
        Real.cos (g.angle (exBody W H)) * Real.cos (exBody W H).tiltAngle * (exBoss.minThreadLength - exBoss.threadChamfer - 1 / 1000)
    rw [ht, Real.cos_zero, mul_one]
    rcases key with k | k <;> rw [k]
    · have : Real.sqrt (1 - (527 / 625 : ℝ) ^ 2) = 336 / 625 := by
        rw [show (1 - (527 / 625) ^ 2 : ℝ) = (336 / 625) ^ 2 by norm_num, Real.sqrt_sq (by norm_num)]
      rw [this]
      norm_num [exBoss]
    · norm_num [exBoss]
  wall := by show (0 : ℝ) ≤ 4; norm_num
  corner := by show (1 / 1000000 : ℝ) ≤ 6 - 4; norm_num
  encoder := by simp [exCfg]

theorem exSymmetric : SymmetricCfg exGrid := by
  refine ⟨?_, rfl, rfl, rfl⟩
  intro row hr
  obtain rfl := List.eq_of_mem_replicate (show row ∈ List.replicate 2 _ from hr)
  simp [mirrorStagger]

/-- A body of both halves. -/
theorem exBody_high (L : ℝ) : ∃ W H, L ≤ H ∧ ∀ side, ∃ fp body, FullPlan.make (exCfg W H) side = .ok fp ∧ Body.make (exCfg W H) fp = .ok body ∧
    1 ≤ fp.plan.points.alnumILB.x ∧ fp.plan.points.thumbILF.y + 1 ≤ fp.plan.points.alnumILB.y ∧
    fp.plan.points.thumbOLF.y + 1 ≤ fp.plan.points.alnumOLB.y ∧
    ∃ xL x0 xR yF y1 yB zO, ExPlanned H side fp.plan xL x0 xR yF y1 yB zO ∧
      ∃ d1 d2 d3 d4 d5 d6 t, 0 < d1 ∧ d1 ≤ 2 ∧ 0 < d3 ∧ d3 ≤ 2 ∧ body.corners = exCorners x0 xR y1 yB zO fp.plan.bossPos d1 d2 d3 d4 d5 d6 ∧ -6 ≤ t ∧ t ≤ 0 ∧
        body.step.alnumILF = ⟨xL + 527 / 625 * t, yF + 4 + 5 / 8, zO - 4 + 336 / 527 * (x0 + 79 - 7 / 6 - xL) - 336 / 625 * t⟩ := by
  obtain ⟨W, H0, hm⟩ := exPlan_made .left
  have hL : L ≤ max H0 (max L 10) := (le_max_left _ _).trans (le_max_right _ _)
  have hH : 10 ≤ max H0 (max L 10) := (le_max_right _ _).trans (le_max_right _ _)
  have hm := hm (max H0 (max L 10)) (le_max_left _ _)
  generalize max H0 (max L 10) = H at *
  refine ⟨W, H, hL, ?_⟩
  have main : ∀ side plan xL x0 xR yF y1 yB zO, Plan.make (exPlan W H) side = .ok plan → ExPlanned H side plan xL x0 xR yF y1 yB zO →
      ∃ fp body, FullPlan.make (exCfg W H) side = .ok fp ∧ Body.make (exCfg W H) fp = .ok body ∧
        1 ≤ fp.plan.points.alnumILB.x ∧ fp.plan.points.thumbILF.y + 1 ≤ fp.plan.points.alnumILB.y ∧
        fp.plan.points.thumbOLF.y + 1 ≤ fp.plan.points.alnumOLB.y ∧
        ∃ xL x0 xR yF y1 yB zO, ExPlanned H side fp.plan xL x0 xR yF y1 yB zO ∧
          ∃ d1 d2 d3 d4 d5 d6 t, 0 < d1 ∧ d1 ≤ 2 ∧ 0 < d3 ∧ d3 ≤ 2 ∧ body.corners = exCorners x0 xR y1 yB zO fp.plan.bossPos d1 d2 d3 d4 d5 d6 ∧ -6 ≤ t ∧ t ≤ 0 ∧
            body.step.alnumILF = ⟨xL + 527 / 625 * t, yF + 4 + 5 / 8, zO - 4 + 336 / 527 * (x0 + 79 - 7 / 6 - xL) - 336 / 625 * t⟩ := by
    intro side plan xL x0 xR yF y1 yB zO hp h
    obtain ⟨fp, f1, hfp, f3, w1, w2, w3, w4⟩ := exFull hH hp h
    obtain ⟨d1, d2, d3, d4, d5, d6, h1, h2, h3, h4, h5, h6, g1⟩ := exCorners_made (W := W) hfp h w1 w2 w3 w4
    obtain ⟨s, tI, tO, g2, i1, i2, o1, o2, sI, sO⟩ := exStep (W := W) hfp h
    obtain ⟨o, g3, oc, ot⟩ := exOuter (W := W) (d1 := d1) (d2 := d2) (d3 := d3) hfp h h4 h5 h6 ⟨o1, o2⟩ sO
    obtain ⟨i, g4, ic, it⟩ := exInner (W := W) (d4 := d4) (d5 := d5) (d6 := d6) hfp h h1 h2 h3 ⟨by linarith, i2⟩ sI
    have k : ∃ keys, bodyKeys fp.plan = .ok keys := by
      rw [hfp]
      exact ⟨_, bind_ok_of (groupKeys_ok h.two (by norm_num) _) (bind_ok_of (groupKeys_ok h.two (by norm_num) _) rfl)⟩
    obtain ⟨keys, k⟩ := k
    have r : ∃ r, ridgeEdges fp.plan.points (exCorners x0 xR y1 yB zO plan.bossPos d1 d2 d3 d4 d5 d6) s o i
        { splitF := [fp.plan.points.ridgeORF, fp.plan.points.ridgeIRF], splitB := [fp.plan.points.ridgeIRF, fp.plan.points.ridgeORF]
          edgeI := [s.alnumILF.yz, s.alnumILF, fp.plan.points.ridgeIRF, fp.plan.points.ridgeIRF.yz]
          edgeO := [fp.plan.points.ridgeORF.yz, fp.plan.points.ridgeORF, s.alnumOLF, s.alnumOLF.yz], pieces := [] } = .ok r := by
      have hd : ∀ {l : List Vec} (n : l ≠ []), pyIndex l 0 = .ok (l.head n) := fun n =>
        pyIndex_zero.mpr (by rw [← List.head?_eq_getElem?, List.head?_eq_some_head n])
      have ls : ∀ {l : List Vec} (n : l ≠ []), pyIndex l (-1) = .ok (l.getLast n) := fun n => pyIndex_last.mpr (List.getLast?_eq_some_getLast n)
      exact ⟨_, bind_ok_of (hd (by simp [exCorners])) (bind_ok_of (hd oc) (bind_ok_of (hd ot) (bind_ok_of (ls (by simp [exCorners]))
        (bind_ok_of (ls ic) (bind_ok_of (ls it) rfl)))))⟩
    obtain ⟨r, g5⟩ := r
    have ck : bodyChecks (exCfg W H) = .ok () := by
      unfold bodyChecks
      rw [if_neg (by show ¬ ((1 / 2 : ℝ) ≥ 6 - 4); norm_num), if_neg (by show ¬ ((1 / 2 : ℝ) ≥ 7 / 6); norm_num),
        if_neg (by show ¬ ((1 : ℝ) ≥ 6); norm_num)]
      rfl
    have fin : ∃ body, Body.make (exCfg W H) fp = .ok body ∧ body.corners = exCorners x0 xR y1 yB zO plan.bossPos d1 d2 d3 d4 d5 d6 ∧ body.step = s := by
      unfold Body.make
      exact ⟨_, bind_ok_of ck (bind_ok_of k (bind_ok_of g1 (bind_ok_of g2 (bind_ok_of g3 (bind_ok_of g4 (bind_ok_of rfl (bind_ok_of g5
        (bind_ok_of rfl (bind_ok_of (a := []) (by rw [f3]; rfl) rfl))))))))), rfl, rfl⟩
    obtain ⟨body, hb, hc, hst⟩ := fin
    have k1 := h.thumb_le
    have k2 := h.left_eq
    have k3 := h.front_le
    have k4 := h.back_ge
    refine ⟨fp, body, f1, hb, ?_, ?_, ?_, xL, x0, xR, yF, y1, yB, zO, hfp ▸ h, d1, d2, d3, d4, d5, d6, tI, h1.1, h1.2, h3.1, h3.2, hfp ▸ hc, i1, i2, hst ▸ sI⟩ <;> rw [hfp, h.points] <;> dsimp only [exPoints] <;> linarith
  obtain ⟨plan, xL, x0, xR, yF, y1, yB, zO, hp, h⟩ := hm
  intro side
  cases side with
  | left => exact main _ _ _ _ _ _ _ _ _ hp h
  | right =>
    refine main _ { plan with side := .right } xL x0 xR yF y1 yB zO ?_
      ⟨h.two, h.pinkyNe, rfl, h.placed, h.tu, h.walled, h.points, h.left_eq, h.left_le, h.left_ge, h.right_ge, h.right_le, h.front_le, h.thumb_le, h.pinky_le,
        h.back_ge, h.high, h.alnumB, h.pinkyB, h.pinkyF, h.thumbF, h.dirB, h.dirF⟩
    rw [← C75_symmetric (cfg := exPlan W H) exSymmetric, hp]
    rfl

theorem exBody_made : ∃ W H, ∀ side, ∃ fp body, FullPlan.make (exCfg W H) side = .ok fp ∧ Body.make (exCfg W H) fp = .ok body ∧
    1 ≤ fp.plan.points.alnumILB.x ∧ fp.plan.points.thumbILF.y + 1 ≤ fp.plan.points.alnumILB.y ∧
    fp.plan.points.thumbOLF.y + 1 ≤ fp.plan.points.alnumOLB.y ∧
    ∃ xL x0 xR yF y1 yB zO, ExPlanned H side fp.plan xL x0 xR yF y1 yB zO := by
  obtain ⟨W, H, -, h⟩ := exBody_high 0
  refine ⟨W, H, fun side => ?_⟩
  obtain ⟨fp, body, h1, h2, h3, h4, h5, xL, x0, xR, yF, y1, yB, zO, h6, -⟩ := h side
  exact ⟨fp, body, h1, h2, h3, h4, h5, xL, x0, xR, yF, y1, yB, zO, h6⟩

/-- C83 holds of a real body. -/
example : ∃ cfg side fp body, FullPlan.make cfg side = .ok fp ∧ Body.make cfg fp = .ok body ∧ Fit (body.faces ++ body.pieces) [] := by
  obtain ⟨W, H, he⟩ := exBody_made
  obtain ⟨fp, body, h1, h2, -⟩ := he .left
  exact ⟨_, _, fp, body, h1, h2, C83_body h1 h2 (exSane W H) (fun _ h => by cases h) (fun _ h => by cases h)⟩

/-- C91 holds of a real pair of bodies. -/
example : ∃ cfg fL fR bL bR, FullPlan.make cfg .left = .ok fL ∧ FullPlan.make cfg .right = .ok fR ∧ Body.make cfg fL = .ok bL ∧
    Body.make cfg fR = .ok bR ∧ bL.splitFaces = bR.splitFaces := by
  obtain ⟨W, H, he⟩ := exBody_made
  obtain ⟨fL, bL, h1, h2, -⟩ := he .left
  obtain ⟨fR, bR, h3, h4, -⟩ := he .right
  exact ⟨_, fL, fR, bL, bR, h1, h3, h2, h4, (C91_body exSymmetric h1 h3 h2 h4).1⟩

/-- C92 and C93 hold of a real body with chamfers. -/
example : ∃ cfg side fp body, FullPlan.make cfg side = .ok fp ∧ Body.make cfg fp = .ok body ∧ 0 < cfg.body.innerChamfer ∧ 0 < cfg.outerChamfer ∧
    InsetBy fp.plan.tent.thumbOT.normal cfg.outerChamfer (fp.plan.points.thumbOLF.yz :: body.corners.OLFT ++ [fp.plan.points.thumbORF]) body.outer.OLFT ∧
    ∃ plate, body.faces[1]? = some plate ∧ ∀ v ∈ Spec.Piece.points plate, above fp.plan.tent.pinkyIT v = 0 := by
  obtain ⟨W, H, he⟩ := exBody_made
  obtain ⟨fp, body, h1, h2, -⟩ := he .left
  exact ⟨_, _, fp, body, h1, h2, by norm_num [exCfg, exBody], by norm_num [exCfg], (C92_outer h1 h2).1, C93_pinky h1 h2⟩

end Chrumm.Part
