import Verif.Props.PlanThumb
import Verif.Props.PlanMore
import Verif.Props.FloorWhole
import Verif.Props.PalmExample
import Verif.Props.PalmBumpers
import Verif.Props.PalmOrderly
import Verif.Props.KnobSucceeds
import Verif.Props.BossSucceeds
import Verif.Props.BossBody
import Verif.Props.FloorShape
import Verif.Props.BodyChamfer

/-! Concrete cases that meet the hypotheses of the theorems about whole parts. Each `example` applies the theorems it names
to one configuration whose generation is proved to succeed. -/

namespace Chrumm.Part
open Geo Geo.Spec Spec

/-- C68–C75: a plan of either half; the tents of its groups differ, so that C73_edge applies as well. -/
example (side : Side) : ∃ cfg plan, Plan.make cfg side = .ok plan ∧ 0 < cfg.boss.diameter ∧
    Real.sin ((cfg.body.alnumTentAngle - cfg.body.pinkyTentAngle) / 2) ≠ 0 := by
  obtain ⟨W, H, plan, h⟩ := exPlan_succeeds side
  have hd : 0 ≤ (exPlan W H).boss.diameter := by norm_num [exPlan]
  have hs : Real.sin (((exPlan W H).body.alnumTentAngle - (exPlan W H).body.pinkyTentAngle) / 2) ≠ 0 := by
    have : ((exPlan W H).body.alnumTentAngle - (exPlan W H).body.pinkyTentAngle) / 2 = exAngle / 2 := by simp [exPlan, exBody]
    rw [this, exAngle_half.2]
    norm_num
  have c1 := fun g s => C68_flush h g s
  have c2 := fun g s => C68_rims h g s
  have c3 := And.intro (C69_front_back h) (And.intro (C69_alnum h) (And.intro (C69_right h) (C69_thickness h)))
  have c4 := And.intro (C70_corners h) (And.intro (C70_ridge h) (C70_thumb h))
  have c5 := And.intro (C71_height h) (And.intro (C71_floor h) (C71_middle h))
  have c6 := C72_bosses h hd
  have c7 := And.intro (C73_mitre h) (And.intro (C73_edge h hs) (C73_caps h))
  have c8 := And.intro (C74_rigid h) (And.intro (C74_grid h) (C74_directions h))
  exact ⟨_, plan, h, by norm_num [exPlan], hs⟩

/-- C79 and C78 of the bosses of a plan, C92 and C93 of a body: the hypotheses they share hold of one body. -/
example (side : Side) : ∃ cfg fp body, FullPlan.make cfg side = .ok fp ∧ Body.make cfg fp = .ok body ∧ SaneQuality cfg.quality ∧
    SaneThread cfg.boss cfg.support ∧ SaneBody cfg ∧
    (cfg.boss.diameter / 2 + cfg.boss.innerWallFillet) * (1 - Real.sin (89 * Real.pi / 180)) ≤
      cfg.boss.diameter + cfg.boss.outerWallMargin - cfg.body.wallThickness := by
  obtain ⟨W, H, he⟩ := exBody_made
  obtain ⟨fp, body, h1, h2, -⟩ := he side
  have hq := exQuality_sane
  have hP : ((exCfg W H).boss.diameter / 2 + (exCfg W H).boss.innerWallFillet) * (1 - Real.sin (89 * Real.pi / 180)) ≤
      (exCfg W H).boss.diameter + (exCfg W H).boss.outerWallMargin - (exCfg W H).body.wallThickness := by
    have : 1 / 2 ≤ Real.sin (89 * Real.pi / 180) := by
      rw [← Real.sin_pi_div_six]
      exact Real.sin_le_sin_of_le_of_le_pi_div_two (by linarith [Real.pi_pos]) (by linarith [Real.pi_pos]) (by linarith [Real.pi_pos])
    norm_num [exCfg, exBoss, exBody]
    linarith
  have ht : SaneThread (exCfg W H).boss (exCfg W H).support := by
    refine ⟨?_, ?_, ?_, fun _ h => by cases h⟩ <;> norm_num [exCfg, exBoss]
  have c1 := C79_plan h1 (lt_of_lt_of_le (by norm_num) hq.angle) (by norm_num [exCfg, exBoss]) (by norm_num [exCfg, exBoss]) hP
  have c2 := C78_plan h1 hq (by norm_num [exCfg, exBoss]) ht
  have c3 := And.intro (C92_corners h2) (And.intro (C92_step h1 h2) (C92_inner h1 h2))
  exact ⟨_, fp, body, h1, h2, hq, ht, exSane W H, hP⟩

/-- C87–C90: a palm rest with a hitch. -/
example : ∃ cfg pc plan hi palm, Hitch.make cfg plan (some pc) = .ok (some hi) ∧ Palm.make cfg pc plan.points hi = .ok palm ∧
    SaneScrew cfg ∧ SaneRoof pc 0 ∧ 0 < Real.sqrt (distSq2D plan.points.thumbOLF plan.points.pinkyORF) := by
  have hpi := Real.pi_pos
  obtain ⟨W, H, plan, -⟩ := exPlan_succeeds .left
  obtain ⟨p, hp⟩ : ∃ p : Plan, p = { plan with points := { plan.points with thumbOLF := ⟨-50, -60, 20⟩, pinkyORF := ⟨50, -60, 20⟩ } } := ⟨_, rfl⟩
  have e1 : p.points.thumbOLF = ⟨-50, -60, 20⟩ := by rw [hp]
  have e2 : p.points.pinkyORF = ⟨50, -60, 20⟩ := by rw [hp]
  have hw : Real.sqrt (distSq2D p.points.thumbOLF p.points.pinkyORF) = 100 := by
    rw [e1, e2]
    unfold distSq2D
    rw [show ((-50 : ℝ) - 50) ^ 2 + (-60 - -60) ^ 2 = 100 ^ 2 by norm_num]
    exact Real.sqrt_sq (by norm_num)
  have hne : p.points.thumbOLF.xy ≠ p.points.pinkyORF.xy := by
    rw [e1, e2]
    intro e
    have := (Vec.mk.inj e).1
    norm_num at this
  obtain ⟨hi, palm, h1, h2⟩ := exPalm_succeeds W H p (by rw [hw]; norm_num)
  have hq := (exScrew W H).quality
  have hq0 : 0 < (exKeyboard W H).quality.maxChordAngle := lt_of_lt_of_le (by norm_num) hq.angle
  have ht : |exRest.taperAngle| ≤ Real.pi / 4 := by simp only [exRest, abs_zero]; linarith
  have c1 := C90_screws h1 ht hne
  have c2 := C90_fits h1 h2 hq0 exRoof (by norm_num [exRest]) (by norm_num [exRest]) (by norm_num [exRest]) ht hne
  have c3 := C88_dimensions h2 hq0 exRoof (by norm_num [exRest]) (by norm_num [exRest]) hne
  have c4 : ∃ c, (exKeyboard W H).bumper = some c := ⟨_, rfl⟩
  obtain ⟨c, hc⟩ := c4
  have c5 := C88_bumpers h2 hc hq exRoof (by norm_num [exRest]) (by norm_num [exRest]) hne (by cases hc; norm_num) (by cases hc; norm_num)
  exact ⟨_, _, p, hi, palm, h1, h2, exScrew W H, exRoof, by rw [hw]; norm_num⟩

/-- C57 and C97: the knob of chrumm.json. -/
example : ∃ q cfg ps outline shaft, knobPieces q cfg = .ok ps ∧ grooveSketch q cfg = .ok outline ∧ shaftSketch q cfg = .ok shaft ∧
    SaneOutside cfg ∧ SaneShaft cfg ∧ 0 < cfg.grooveCount ∧ Fit ps [] := by
  obtain ⟨a, b, c, ps, h⟩ := exKnob_made
  have hq : (0 : ℝ) < 30 * Real.pi / 180 := by positivity
  have h0 := h
  unfold knobPieces at h
  obtain ⟨s, hs, h⟩ := bind_ok h
  obtain ⟨dirs, -, h⟩ := bind_ok h
  obtain ⟨t, ht, h⟩ := bind_ok h
  have c1 := C97_outline (q := ⟨0.01, 30 * Real.pi / 180⟩) a hq hs
  have c2 := C97_shaft (q := ⟨0.01, 30 * Real.pi / 180⟩) c hq ht
  have c3 := C97_shape (q := ⟨0.01, 30 * Real.pi / 180⟩) a c hq h0
  exact ⟨_, _, ps, s, t, h0, hs, ht, a, c, by norm_num [exKnob], C57_fit h0⟩

end Chrumm.Part
