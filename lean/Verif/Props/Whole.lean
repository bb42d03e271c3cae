import Verif.Props.PalmExample
import Verif.Props.BodyWhole
import Verif.Props.FloorWhole
import Verif.Props.PalmFit
import Verif.Props.PalmOrderly
import Verif.Props.PalmBumpers
import Verif.Props.CornerBumper

/-! A whole keyboard: a plan with a palm hitch, a body with the hitch in its outline, a floor with bumpers and six screws, and
a palm rest. It meets the hypotheses of the theorems about keyboards with a palm rest. -/

namespace Chrumm.Part
open Geo Geo.Spec Spec

/-- `exThin` with a palm rest and bumpers. -/
noncomputable def exWhole (W H : ℝ) : KeyboardCfg := { exThin W H with palm := some exRest, bumper := some ⟨10, 1, 2⟩ }

theorem exWhole_screw (W H : ℝ) : SaneScrew (exWhole W H) := by
  refine ⟨exQuality_sane, ?_, ?_, ?_, ?_, ?_⟩ <;> norm_num [exWhole, exThin, exCfg, exBoss, exQuality]
  rintro s ⟨⟩

theorem exWhole_body {W H : ℝ} {fp : FullPlan} {body : Body} {hi : Hitch} (h : Body.make (exCfg W H) fp = .ok body) {es : List Vec}
    (hh : hitchOutline (exWhole W H) fp.plan.points body.corners (some exRest) (some hi) = .ok es) :
    ∃ b, Body.make (exWhole W H) { fp with hitch := some hi } = .ok b ∧ b.corners = body.corners ∧ b.step = body.step := by
  unfold Body.make at h
  dsimp only at h
  obtain ⟨_, g0, h⟩ := bind_ok h
  obtain ⟨keys, g1, h⟩ := bind_ok h
  obtain ⟨corners, g2, h⟩ := bind_ok h
  obtain ⟨step, g3, h⟩ := bind_ok h
  obtain ⟨outer, g4, h⟩ := bind_ok h
  obtain ⟨inner, g5, h⟩ := bind_ok h
  obtain ⟨encoder, g6, h⟩ := bind_ok h
  obtain ⟨ridge, g7, h⟩ := bind_ok h
  obtain ⟨joint, g8, h⟩ := bind_ok h
  obtain ⟨_, g9, h⟩ := bind_ok h
  obtain rfl := Except.ok.inj h
  unfold Body.make
  exact ⟨_, bind_ok_of g0 (bind_ok_of g1 (bind_ok_of g2 (bind_ok_of g3 (bind_ok_of g4 (bind_ok_of g5 (bind_ok_of g6 (bind_ok_of g7
    (bind_ok_of g8 (bind_ok_of hh rfl))))))))), rfl, rfl⟩

theorem exWhole_plan {W H : ℝ} {side : Side} {fp : FullPlan} (h : FullPlan.make (exCfg W H) side = .ok fp) {hi : Hitch}
    (hh : Hitch.make (exWhole W H) fp.plan (some exRest) = .ok (some hi)) :
    FullPlan.make (exWhole W H) side = .ok { fp with hitch := some hi } := by
  unfold FullPlan.make at h
  obtain ⟨p, g1, h⟩ := bind_ok h
  obtain ⟨b, g2, h⟩ := bind_ok h
  obtain ⟨_, g3, h⟩ := bind_ok h
  obtain rfl := Except.ok.inj h
  exact bind_ok_of g1 (bind_ok_of g2 (bind_ok_of hh rfl))

/-- The area of a triangle in the coordinates along and away from the wall. -/
theorem left_wall {a b : Vec} {M p q : ℝ} (hM : 0 < M) (hu : p ^ 2 + q ^ 2 = 1) (hx : a.x - b.x = M * p) (hy : a.y - b.y = M * q) (u v w : Vec) :
    left u v w = (fromWall a b v - fromWall a b u) * (alongWall a b w - alongWall a b u) -
      (alongWall a b v - alongWall a b u) * (fromWall a b w - fromWall a b u) := by
  obtain ⟨-, co⟩ := wall_coords hM hu hx hy
  simp only [(co _).1, (co _).2.1, left]
  linear_combination (-((v.x - u.x) * (w.y - u.y) - (v.y - u.y) * (w.x - u.x))) * hu

section
variable {H : ℝ} {side : Side} {plan : Plan} {xL x0 xR yF y1 yB zO : ℝ}

/-- The front wall of the example, with its length. -/
theorem exFrontWall (h : ExPlanned H side plan xL x0 xR yF y1 yB zO) :
    ∃ M, 170 ≤ M ∧ Real.sqrt (distSq2D plan.points.thumbOLF plan.points.pinkyORF) = M ∧
      plan.points.thumbOLF.x - plan.points.pinkyORF.x = M * (-(1519 / 1681)) ∧ plan.points.thumbOLF.y - plan.points.pinkyORF.y = M * (-(720 / 1681)) := by
  refine ⟨(xR + 4 - x0 - 9 / 10) * (1681 / 1519), ?_, ?_, ?_, ?_⟩
  · linarith [h.right_ge]
  · refine (wall_coords (p := -(1519 / 1681)) (q := -(720 / 1681)) ?_ (by norm_num) ?_ ?_).1
    · linarith [h.right_ge]
    · simp only [h.points, exPoints]; ring
    · simp only [h.points, exPoints]; ring
  · simp only [h.points, exPoints]; ring
  · simp only [h.points, exPoints]; ring

theorem exHitchOutline {cfg : KeyboardCfg} (h : ExPlanned H side plan xL x0 xR yF y1 yB zO) (hq : 0 < cfg.quality.maxChordAngle)
    (hh : 0 < cfg.quality.maxChordHeight) (hf : cfg.quality.maxChordHeight ≤ 2) {hi : Hitch} (hm : Hitch.make cfg plan (some exRest) = .ok (some hi))
    {c : BodyCorners} {d : ℝ} (hd : 0 < d ∧ d ≤ 6)
    (hc : c.ORFG.head? = some ⟨xR + 4 - 1519 / 1681 * d, y1 + 720 / 1519 * (xR + 4 - x0) - 6724 / 1519 - 720 / 1681 * d, 0⟩) :
    ∃ es, hitchOutline cfg plan.points c (some exRest) (some hi) = .ok es := by
  obtain ⟨M, hM, eM, ex, ey⟩ := exFrontWall h
  have hM0 : 0 < M := by linarith
  have ht : |exRest.taperAngle| ≤ Real.pi / 4 := by simp only [exRest, abs_zero]; linarith [Real.pi_pos]
  have hne : plan.points.thumbOLF.xy ≠ plan.points.pinkyORF.xy := by
    intro e
    have := (Vec.mk.inj e).1
    rw [this, sub_self] at ex
    linarith
  obtain ⟨posL, posR, k, -, -⟩ := hitch_ok hm ht hne
  obtain ⟨-, co⟩ := wall_coords hM0 (by norm_num : (-(1519 / 1681) : ℝ) ^ 2 + (-(720 / 1681)) ^ 2 = 1) ex ey
  have lw := left_wall hM0 (by norm_num : (-(1519 / 1681) : ℝ) ^ 2 + (-(720 / 1681)) ^ 2 = 1) ex ey
  have ab : ∀ v, alongWall plan.points.pinkyORF plan.points.thumbOLF v = M - alongWall plan.points.thumbOLF plan.points.pinkyORF v := by
    intro v
    rw [(co v).2.1, (co v).2.2]
    linear_combination (-1681 / 1519 * (1519 / 1681) ^ 2) * ex - (1681 / 720 * (720 / 1681) ^ 2) * ey
  have z : exRest.taperAngle = 0 := rfl
  have l := k.sideL
  have r := k.sideR
  simp only [z, Real.cos_zero, Real.sin_zero, mul_zero, mul_one, sub_zero, eM, ab] at l r
  have f1 := k.back
  have f2 := k.front
  have l1 := l _ (by simp : hi.olb ∈ [hi.olb, hi.olf])
  have l2 := l _ (by simp : hi.olf ∈ [hi.olb, hi.olf])
  have r1 := r _ (by simp : hi.orb ∈ [hi.orb, hi.orf])
  have r2 := r _ (by simp : hi.orf ∈ [hi.orb, hi.orf])
  have o1 : fromWall plan.points.thumbOLF plan.points.pinkyORF plan.points.thumbOLF = 0 := by rw [(co _).1]; ring
  have o2 : alongWall plan.points.thumbOLF plan.points.pinkyORF plan.points.thumbOLF = 0 := by rw [(co _).2.1]; ring
  obtain ⟨v, hv⟩ : ∃ v : Vec, v = ⟨xR + 4 - 1519 / 1681 * d, y1 + 720 / 1519 * (xR + 4 - x0) - 6724 / 1519 - 720 / 1681 * d, 0⟩ := ⟨_, rfl⟩
  rw [← hv] at hc
  have o3 : fromWall plan.points.thumbOLF plan.points.pinkyORF v = 0 := by
    rw [(co _).1, hv]
    simp only [h.points, exPoints]
    ring
  have o4 : alongWall plan.points.thumbOLF plan.points.pinkyORF v = M - d := by
    rw [(co _).2.1, hv]
    simp only [h.points, exPoints] at ex ⊢
    linear_combination (-1681 / 1519) * ex
  norm_num [exRest] at l1 l2 r1 r2 f2
  have i0 : pyIndex c.ORFG 0 = .ok v := pyIndex_zero.mpr (by rw [← List.head?_eq_getElem?, hc])
  have arc : ∀ a b c' : Vec, left b a c' ≠ 0 → ∃ pts, cornerArc2D cfg.quality exRest.hitchCornerRadius a b c' = .ok pts := fun a b c' hl =>
    C54_succeeds _ _ _ _ _ hq hh (by norm_num [exRest]) (by simp only [exRest]; linarith) hl
  unfold hitchOutline
  obtain ⟨a1, e1⟩ := arc plan.points.thumbOLF hi.olb hi.olf (by rw [lw, o1, o2, f1.1, l1, l2, f2.1]; norm_num; linarith)
  obtain ⟨a2, e2⟩ := arc hi.olb hi.olf hi.orf (by rw [lw, f1.1, l1, l2, f2.1, f2.2]; norm_num; linarith)
  obtain ⟨a3, e3⟩ := arc hi.olf hi.orf hi.orb (by rw [lw, f1.2, l2, f2.1, f2.2]; norm_num; linarith)
  obtain ⟨a4, e4⟩ := arc hi.orf hi.orb v (by rw [lw, o3, o4, f1.2, f2.2]; norm_num; exact ne_of_gt (by linarith [hd.2]))
  exact ⟨_, bind_ok_of i0 (bind_ok_of e1 (bind_ok_of e2 (bind_ok_of e3 (bind_ok_of e4 rfl))))⟩

end

/-- The floor of a body with four bumpers. -/
theorem exWhole_floor {W H : ℝ} {fp : FullPlan} {body : Body} {hi : Hitch} (h2 : Body.make (exWhole W H) fp = .ok body) (hh : fp.hitch = some hi)
    (k1 : 1 ≤ fp.plan.points.alnumILB.x) (k2 : fp.plan.points.thumbILF.y + 1 ≤ fp.plan.points.alnumILB.y)
    (k3 : fp.plan.points.thumbOLF.y + 1 ≤ fp.plan.points.alnumOLB.y)
    (c1 : left fp.plan.points.pinkyORB fp.plan.points.alnumOLB fp.plan.points.pinkyORF ≠ 0)
    (c2 : left fp.plan.points.pinkyORF fp.plan.points.pinkyORB fp.plan.points.thumbORF ≠ 0) :
    ∃ floor, Floor.make (exWhole W H) fp body = .ok floor ∧ SaneProfile floor.sketch False ∧ floor.joint.brackets = none ∧ ∃ b, floor.bumpers = some b := by
  obtain ⟨n1, n2, n3, n4⟩ := outlines_ends h2 k1 k2 k3
  have hn : ∀ x : ℝ, |x| < 1 / 1000000 → naiveOffset2D body.outlineI x = .ok body.outlineI := by
    intro x hx
    unfold naiveOffset2D
    rw [if_pos hx]
    rfl
  have hd : ∀ {l : List Vec} (n : l ≠ []), pyIndex l 0 = .ok (l.head n) := fun n =>
    pyIndex_zero.mpr (by rw [← List.head?_eq_getElem?, List.head?_eq_some_head n])
  have ls : ∀ {l : List Vec} (n : l ≠ []), pyIndex l (-1) = .ok (l.getLast n) := fun n => pyIndex_last.mpr (List.getLast?_eq_some_getLast n)
  have mv : ∀ {l : List Vec} (n : l ≠ []) (d : Vec), edgeTranslated l d ≠ [] := by
    intro l n d e
    unfold edgeTranslated at e
    exact n (List.map_eq_nil_iff.mp e)
  have pr : ∃ p, floorProfile (exWhole W H).floor body.outlineI body.outlineO = .ok p ∧ p.p2 = body.outlineI ∧
      p.p0 ≠ [] ∧ p.p1 ≠ [] ∧ p.p2 ≠ [] ∧ p.p3 ≠ [] ∧ p.p4 ≠ [] ∧ p.p5 ≠ [] ∧ p.p6 ≠ [] := by
    refine ⟨_, bind_ok_of (hn _ ?_) (bind_ok_of (hn _ ?_) (bind_ok_of (hn _ ?_) rfl)), rfl, mv n4 _, n4, n1, mv n1 _, mv n1 _, mv n1 _, mv n1 _⟩ <;>
      simp [exWhole, exThin]
  obtain ⟨p, pr, e2, p0, p1, p2, p3, p4, p5, p6⟩ := pr
  have jn : ∃ j, floorJoint (exWhole W H) fp.plan.side body p none = .ok j ∧ j.profile = p := by
    have ends : ∃ x, profileEnds p = .ok x := by
      obtain ⟨xs, hx⟩ := mapM_ok_of [p.p0, p.p1, p.p2, p.p3, p.p4, p.p5, p.p6] (f := fun e => pyIndex e 0) (by
        intro e he
        simp only [List.mem_cons, List.not_mem_nil, or_false] at he
        rcases he with rfl | rfl | rfl | rfl | rfl | rfl | rfl <;> exact ⟨_, hd (by assumption)⟩)
      obtain ⟨ys, hy⟩ := mapM_ok_of [p.p6, p.p5, p.p4, p.p3, p.p2, p.p1, p.p0] (f := fun e => pyIndex e (-1)) (by
        intro e he
        simp only [List.mem_cons, List.not_mem_nil, or_false] at he
        rcases he with rfl | rfl | rfl | rfl | rfl | rfl | rfl <;> exact ⟨_, ls (by assumption)⟩)
      exact ⟨_, bind_ok_of hx (bind_ok_of hy rfl)⟩
    obtain ⟨x, ends⟩ := ends
    exact ⟨_, bind_ok_of ends rfl, rfl⟩
  obtain ⟨j, jn, ej⟩ := jn
  have bp : ∀ pos half, ∃ b, Bumper.make exQuality 3 ⟨10, 1, 2⟩ pos half = .ok b := fun pos half =>
    C59_succeeds _ _ _ _ _ exQuality_sane (by norm_num) (by norm_num [exQuality])
  have bm : ∃ b, floorBumpers (exWhole W H) fp.plan.points p.p0 (some ⟨10, 1, 2⟩) = .ok (some b) := by
    obtain ⟨q1, e1⟩ := C85_succeeds 6 (2 + 10 / 2) c1
    obtain ⟨q2, e2⟩ := C85_succeeds 6 (2 + 10 / 2) c2
    obtain ⟨b1, g1⟩ := bp q1 false
    obtain ⟨b2, g2⟩ := bp q2 false
    obtain ⟨b3, g3⟩ := bp (p.p0.head p0 + ⟨0, 2 + 10 / 2, 0⟩) true
    obtain ⟨b4, g4⟩ := bp (p.p0.getLast p0 - ⟨0, 2 + 10 / 2, 0⟩) true
    exact ⟨_, bind_ok_of (bind_ok_of e1 g1) (bind_ok_of (bind_ok_of e2 g2) (bind_ok_of (hd p0) (bind_ok_of g3 (bind_ok_of (ls p0) (bind_ok_of g4 rfl)))))⟩
  obtain ⟨b, bm⟩ := bm
  have bs : ∃ l, floorBosses fp (some exRest) = .ok l := by
    unfold floorBosses
    rw [hh]
    exact ⟨_, rfl⟩
  obtain ⟨l, bs⟩ := bs
  have fl : ∃ floor, Floor.make (exWhole W H) fp body = .ok floor ∧ floor.sketch = p ∧ floor.joint = j ∧ floor.bumpers = some b := by
    unfold Floor.make
    refine ⟨_, bind_ok_of pr (bind_ok_of jn (bind_ok_of (a := ([], [])) rfl (bind_ok_of (ej ▸ bm) (bind_ok_of bs
      (bind_ok_of (bind_ok_of (hd (ej ▸ p2)) (bind_ok_of (ls (ej ▸ p2)) rfl)) (bind_ok_of (bind_ok_of (hd (ej ▸ p3)) (bind_ok_of (ls (ej ▸ p3)) rfl)) rfl)))))), rfl, rfl, rfl⟩
  obtain ⟨floor, hf, es, e3, e4⟩ := fl
  refine ⟨floor, hf, ?_, ?_, b, e4⟩
  · rw [es]
    exact ⟨by rw [e2]; exact n2, by rw [e2]; exact n3, False.elim, False.elim, False.elim⟩
  · rw [e3]
    obtain ⟨⟨xs, ys⟩, -, g⟩ := bind_ok jn
    obtain rfl := Except.ok.inj g
    rfl

/-- All parts of a keyboard with a palm rest are generated, for both halves. -/
theorem exWhole_made (L : ℝ) : ∃ W H, L ≤ H ∧ ∀ side, ∃ fp hi body floor palm, FullPlan.make (exWhole W H) side = .ok fp ∧ fp.hitch = some hi ∧
    Body.make (exWhole W H) fp = .ok body ∧ Floor.make (exWhole W H) fp body = .ok floor ∧ SaneProfile floor.sketch False ∧
    floor.joint.brackets = none ∧ (∃ b, floor.bumpers = some b) ∧ Palm.make (exWhole W H) exRest fp.plan.points hi = .ok palm ∧
    Hitch.make (exWhole W H) fp.plan (some exRest) = .ok (some hi) ∧
    ∃ xL x0 xR yF y1 yB zO, ExPlanned H side fp.plan xL x0 xR yF y1 yB zO := by
  obtain ⟨W, H, hL, he⟩ := exBody_high (max L 10)
  have hH : 10 ≤ H := (le_max_right _ _).trans hL
  refine ⟨W, H, (le_max_left _ _).trans hL, fun side => ?_⟩
  obtain ⟨fp, body, h1, h2, k1, k2, k3, xL, x0, xR, yF, y1, yB, zO, h, -⟩ := he side
  have hp := (fullPlan_ok h1).1
  obtain ⟨fp', f1, hfp, -, w1, w2, w3, w4⟩ := exFull hH hp h
  obtain rfl : fp' = fp := Except.ok.inj (f1.symm.trans h1)
  obtain ⟨d1, d2, d3, d4, d5, d6, -, -, -, -, b5, -, g⟩ := exCorners_made (W := W) hfp h w1 w2 w3 w4
  have hc := Except.ok.inj ((body_parts h2).corners.symm.trans g)
  obtain ⟨M, hM, eM, -, -⟩ := exFrontWall h
  obtain ⟨hi, palm, m1, m2⟩ := exPalm_general (exWhole_screw W H) rfl rfl (by norm_num [exWhole, exThin, exCfg, exQuality]) fp'.plan (by rw [eM]; linarith)
  obtain ⟨es, ho⟩ := exHitchOutline (cfg := exWhole W H) h (by linarith [(exWhole_screw W H).quality.angle]) (by norm_num [exWhole, exThin, exCfg, exQuality])
    (by norm_num [exWhole, exThin, exCfg, exQuality]) m1 (c := body.corners) b5 (by rw [hc]; rfl)
  obtain ⟨body', hb, -, -⟩ := exWhole_body h2 ho
  obtain ⟨floor, c1, c2, c3, c4⟩ := exWhole_floor hb rfl k1 k2 k3
    (by
      simp only [h.points, exPoints, left]
      have : 0 < (xL - (xR + 4)) * (y1 + 720 / 1519 * (xR + 4 - x0) - 6724 / 1519 - (yB + 4)) :=
        mul_pos_of_neg_of_neg (by linarith [h.right_ge, h.left_le]) (by linarith [h.back_ge, h.pinky_le, h.right_le])
      exact ne_of_gt (by linarith))
    (by
      simp only [h.points, exPoints, left]
      have : 0 < (yB + 4 - (y1 + 720 / 1519 * (xR + 4 - x0) - 6724 / 1519)) * (xR + 4 - (x0 + 79)) :=
        mul_pos (by linarith [h.back_ge, h.pinky_le, h.right_le]) (by linarith [h.right_ge])
      exact ne_of_gt (by linarith))
  exact ⟨_, hi, body', floor, palm, exWhole_plan h1 m1, rfl, hb, c1, c2, c3, c4, m2, m1, xL, x0, xR, yF, y1, yB, zO, h⟩

/-- C83, C84, C87–C90 and C85 hold of a whole keyboard: every theorem is applied to the parts of one plan. -/
example (side : Side) : ∃ cfg pc fp hi body floor palm b, FullPlan.make cfg side = .ok fp ∧ cfg.palm = some pc ∧ fp.hitch = some hi ∧
    Body.make cfg fp = .ok body ∧ Floor.make cfg fp body = .ok floor ∧ Palm.make cfg pc fp.plan.points hi = .ok palm ∧ floor.bumpers = some b ∧
    SaneBody cfg ∧ SaneFloor cfg ∧ SanePalm cfg ∧ SaneScrew cfg ∧ SaneRest cfg pc (Real.sqrt (distSq2D fp.plan.points.thumbOLF fp.plan.points.pinkyORF)) ∧
    Fit (body.faces ++ body.pieces) [] ∧ Fit (floor.faces ++ floor.pieces) [] ∧ Fit (palm.faces ++ palm.pieces) [] ∧
    Orderly (Palm.make cfg pc fp.plan.points hi) ∧
    ∀ p ∈ b.rf.floorEdge, ∀ x ∈ body.corners.ORBG, 2 ^ 2 ≤ distSq2D p x := by
  have hpi := Real.pi_pos
  obtain ⟨W, H, -, he⟩ := exWhole_made 0
  obtain ⟨fp, hi, body, floor, palm, h1, h2, h3, h4, h5, h6, ⟨b, h7⟩, h8, h9, xL, x0, xR, yF, y1, yB, zO, h⟩ := he side
  have hb : SaneBody (exWhole W H) := by
    have := exSane W H
    exact ⟨this.1, this.2, this.3, this.4, this.5, this.6, fun _ h => by cases h⟩
  have hf : SaneFloor (exWhole W H) := by
    refine ⟨exQuality_sane, ?_, ?_⟩
    · constructor <;> norm_num [exWhole, exThin, exCfg, exBoss]
    · rintro c ⟨⟩
      norm_num
  have hp : SanePalm (exWhole W H) := by
    refine ⟨exQuality_sane, ⟨?_, ?_, ?_, fun _ h => by cases h⟩, hf.bumper⟩ <;> norm_num [exWhole, exThin, exCfg, exBoss]
  obtain ⟨M, hM, eM, -, -⟩ := exFrontWall h
  have hr : SaneRest (exWhole W H) exRest (Real.sqrt (distSq2D fp.plan.points.thumbOLF fp.plan.points.pinkyORF)) := by
    rw [eM]
    refine ⟨(by norm_num : (0 : ℝ) < 1 / 10).trans_le exQuality_sane.angle, (by norm_num : (0 : ℝ) < 1 / 1000).trans_le exQuality_sane.height, exRoof,
      by norm_num [exRest], by norm_num [exRest], ?_, ?_, by norm_num [exWhole, exThin],
      by norm_num [exRest], by norm_num [exWhole, exThin, exRest], ?_, by rintro s ⟨⟩,
      by rintro s ⟨⟩; exact ⟨by norm_num, exQuality_sane, by norm_num [exWhole, exThin, exCfg, exQuality]⟩⟩
    · simp only [exRest, abs_zero]; linarith
    · simp only [exRest, abs_zero]; linarith
    · rw [show exRest.taperAngle = 0 from rfl, Real.sin_zero, Real.cos_zero]
      norm_num [exWhole, exThin, exRest]
      linarith
  have c1 := C83_body h1 h3 hb (fun _ h => by cases h) (fun _ h => by cases h)
  have c2 := C84_floor h1 h4 hf (by simpa [exWhole, exThin, exCfg] using h5) (by rw [h6]; simp)
  have c3 := C87_palm h1 rfl h2 h8 hp
  have c4 := C89_palm (hi := hi) hr
  have c5 := C88_palm h1 rfl h8 exQuality_sane exRoof (by norm_num [exRest]) (by norm_num [exRest])
  have w1 : SameWay fp.plan.points.pinkyORB fp.plan.points.alnumOLB fp.plan.points.alnumORB := by
    have d : xR + 4 - xL ≠ 0 := ne_of_gt (by linarith [h.right_ge, h.left_le])
    refine ⟨(xR + 4 - (x0 + 79)) / (xR + 4 - xL), div_pos (by linarith [h.right_ge]) (by linarith [h.right_ge, h.left_le]), ?_⟩
    ext <;> simp only [h.points, exPoints, Vec.xy, Vec.sub_x, Vec.sub_y, Vec.mul_x, Vec.mul_y, Vec.mul_z] <;> field_simp <;> ring
  have w2 : SameWay fp.plan.points.pinkyORF fp.plan.points.thumbORF fp.plan.points.thumbOLF := by
    have d : xR + 4 - (x0 + 79) ≠ 0 := ne_of_gt (by linarith [h.right_ge])
    refine ⟨(xR + 4 - (x0 + 9 / 10)) / (xR + 4 - (x0 + 79)), div_pos (by linarith [h.right_ge]) (by linarith [h.right_ge]), ?_⟩
    ext <;> simp only [h.points, exPoints, Vec.xy, Vec.sub_x, Vec.sub_y, Vec.mul_x, Vec.mul_y, Vec.mul_z] <;> field_simp <;> ring
  have c6 := C85_floor h3 h4 hf (by norm_num [exWhole, exThin, exCfg]) rfl (by norm_num) h7 w1 w2
  exact ⟨_, exRest, fp, hi, body, floor, palm, b, h1, rfl, h2, h3, h4, h8, h7, hb, hf, hp, exWhole_screw W H, hr, c1, c2, c3, c4, fun p hp x hx => (c6.1 p hp).1 x hx⟩

end Chrumm.Part
