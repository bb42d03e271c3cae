import Verif.Props.BracketRoof
import Verif.Props.BracketFit
import Verif.Props.BossSucceeds
import Verif.Props.EncoderShape
import Verif.Props.PartEdges
import Verif.Props.FloorShape
import Verif.Props.FloorWhole

/-! More concrete cases that meet the hypotheses of the theorems, for the parts in a body. -/

namespace Chrumm.Part
open Geo Geo.Spec Spec

/-- C82 and C102 of the brackets of `chrumm.json`: at the back and at the front wall, and below the roof. -/
example : ∃ back front roof, CornerBracket.make ⟨1 / 10, 1⟩ (some (Real.pi / 4)) exBracket none ⟨0, 50, 20⟩ ⟨0, 0, 30⟩ ⟨0, 50, 0⟩ true = .ok back ∧
    CornerBracket.make ⟨1 / 10, 1⟩ (some (Real.pi / 4)) exBracket none ⟨0, 0, 20⟩ ⟨0, 50, 20⟩ ⟨0, 0, 0⟩ false = .ok front ∧
    RoofBracket.make ⟨1 / 10, 1⟩ (some (Real.pi / 4)) exBracket none 0 0 ⟨0, 50, 20⟩ ⟨0, 0, 30⟩ 1 true = .ok roof ∧
    (∃ center m, front = m.mirrored ∧ CornerFits exBracket ⟨0, -0, 20⟩ ⟨0, -50, 20⟩ ⟨0, -0, 0⟩ 0 0 false center m) ∧
    Fit back.pieces (flipEdges (pathPairs (back.wallEdge ++ back.roofEdge)) ++ pathPairs back.splitEdge ++ back.splitHoles.flatMap cycPairs) ∧
    Fit front.pieces (pathPairs (front.wallEdge ++ front.roofEdge) ++ pathPairs front.splitEdge ++ front.splitHoles.flatMap cycPairs) ∧
    Fit roof.pieces (pathPairs roof.roofEdge ++ pathPairs roof.splitEdge ++ cycPairs roof.splitHole) := by
  have hs := exBracket_sane
  have ht : ∀ t ∈ some (Real.pi / 4), t < Real.pi := by intro t ht; obtain rfl := Option.mem_some_iff.mp ht; linarith [Real.pi_pos]
  obtain ⟨b, hb⟩ := C102_corner_succeeds (taper := some (Real.pi / 4)) (a := ⟨0, 50, 20⟩) (b := ⟨0, 0, 30⟩) (c := ⟨0, 50, 0⟩) true hs ht
    (by norm_num [exBracket]) (by norm_num) (by norm_num) (by norm_num)
  obtain ⟨f, hf⟩ := C102_corner_succeeds (taper := some (Real.pi / 4)) (a := ⟨0, 0, 20⟩) (b := ⟨0, 50, 20⟩) (c := ⟨0, 0, 0⟩) false hs ht
    (by norm_num [exBracket]) (by norm_num) (by norm_num) (by norm_num)
  obtain ⟨r, hr⟩ := C102_roof_succeeds (taper := some (Real.pi / 4)) (φ := 0) (i := 0) (a := ⟨0, 50, 20⟩) (b := ⟨0, 0, 30⟩) (M := 1) true hs ht (by simp [Vec.yz])
  have c1 := (C82_corner_fit hb).1
  have c2 := (C82_corner_fit hf).1
  rw [if_neg (by norm_num)] at c1
  rw [if_pos (by norm_num)] at c2
  exact ⟨b, f, r, hb, hf, hr, C102_front hf (by norm_num) hs.angle hs.hole hs.bore hs.nut, c1, c2, (C82_roof_fit hr).1⟩

/-- C82 of a floor bracket whose foot ends exactly at the lip. -/
example : ∃ k, FloorBracket.make ⟨1 / 10, 1⟩ (some (Real.pi / 4)) exBracket ⟨0, 2, 1⟩ ⟨0, 50, 1⟩ ⟨0, 2, 1⟩ ⟨0, 1, 3⟩ ⟨0, 0, 3⟩ true = .ok k ∧
    k.lipEdge = [(⟨0, 0, 3⟩ : Vec).yz + exBracket.depth, (⟨0, 1, 3⟩ : Vec).yz + exBracket.depth, (⟨0, 2, 1⟩ : Vec).yz + exBracket.depth,
      (⟨0, 2, 1⟩ : Vec).yz + exBracket.depth] ∧ k.splitEdge ≠ [] := by
  have hs := exBracket_sane
  obtain ⟨k, hk⟩ := C102_floor_succeeds (taper := some (Real.pi / 4)) (b := ⟨0, 50, 1⟩) (c := ⟨0, 2, 1⟩) (e := ⟨0, 0, 3⟩) true hs
    (by intro t ht; obtain rfl := Option.mem_some_iff.mp ht; linarith [Real.pi_pos]) exBracket_floor (by norm_num [exBracket]) (by norm_num [exBracket]) (by norm_num [exBracket])
  have h := C82_floor_edges hk
  exact ⟨k, hk, h.1, h.2.1⟩

/-- C78 and C79 of the default boss, below an inclined roof and at a wall. -/
example : ∃ boss : Boss, Boss.make ⟨1 / 100, 1 / 10⟩ (22 / 10) 3 defaultBoss none 0 ⟨0, 1, 0⟩ (some ⟨1, 0, 0⟩) (some exampleRoof) = .ok boss ∧
    Closes boss.threadTriangles (cycPairs boss.threadHole) ∧
    Closes boss.headTriangles (cycPairs boss.clearanceHole ++ cycPairs boss.headHole) ∧
    (∀ p ∈ boss.wallEdge, (defaultBoss.diameter / 2) ^ 2 ≤ distSq2D 0 p) ∧
    ∀ t ∈ boss.threadTriangles, ∀ v : Vec, (v = t.a ∨ v = t.b ∨ v = t.c) → exampleRoof.distance v ≤ -defaultBoss.threadRoofMargin := by
  have hpi := Real.pi_gt_three
  have hq : SaneQuality ⟨1 / 100, 1 / 10⟩ := ⟨by norm_num, by norm_num, by norm_num; linarith⟩
  obtain ⟨b, h, -⟩ := C78_succeeds ⟨1 / 100, 1 / 10⟩ (22 / 10) 3 defaultBoss none 0 ⟨0, 1, 0⟩ (some ⟨1, 0, 0⟩) (some exampleRoof) hq
    (by norm_num [defaultBoss]) (by norm_num [defaultBoss]) (by norm_num [defaultBoss]) (by norm_num [defaultBoss]) (by simp)
    (by
      rintro r ⟨⟩
      refine ⟨exampleRoof_ok.1, by norm_num [exampleRoof], ?_, by norm_num [defaultBoss]⟩
      norm_num [Plane.distance, exampleRoof, defaultBoss, Vec.dot])
  refine ⟨b, h, ?_⟩
  have hh : SaneHead 3 defaultBoss := ⟨by norm_num [defaultBoss], by norm_num [defaultBoss], by norm_num [defaultBoss], by norm_num [defaultBoss], by norm_num [defaultBoss]⟩
  have ht : SaneThread defaultBoss none := ⟨by norm_num [defaultBoss], by norm_num [defaultBoss], by norm_num [defaultBoss], by simp⟩
  have h89 : 1 / 2 ≤ Real.sin (89 * Real.pi / 180) := by
    rw [← Real.sin_pi_div_six]
    exact Real.sin_le_sin_of_le_of_le_pi_div_two (by linarith) (by linarith) (by linarith)
  unfold Boss.make at h
  obtain ⟨w, h1, h⟩ := bind_ok h
  obtain ⟨⟨c, d, e⟩, h2, h⟩ := bind_ok h
  obtain ⟨⟨t, u⟩, h3, h⟩ := bind_ok h
  obtain rfl := Except.ok.inj h
  refine ⟨(C78_thread _ _ _ _ _ _ _ _ hq ht ?_ h3).1, (C78_head _ _ _ _ _ _ _ hq hh h2).1, fun p hp => ?_, C78_roof_margin _ _ _ _ _ _ _ _ hq ht exampleRoof_ok.1 exampleRoof_ok.2.1 exampleRoof_ok.2.2 h3⟩
  · rintro r ⟨⟩
    exact ⟨exampleRoof_ok.1, exampleRoof_ok.2.1⟩
  · refine (C79_wall _ _ _ _ _ _ _ (by norm_num) (by norm_num) (by norm_num [defaultBoss]) (.inr (by norm_num [defaultBoss])) ?_ h1 p hp).2.1
    norm_num [defaultBoss]
    linarith

/-- C80 of the encoder of `chrumm.json` below an inclined roof. -/
example : ∃ e : Encoder, Encoder.make ⟨0.01, 30 * Real.pi / 180⟩ (some (Real.pi / 4)) ⟨14, 12.5, 7.3, 3, 0.2, 0.8, 1 / 2⟩ ⟨⟨0, 10, 20⟩, ⟨0, -3 / 5, 4 / 5⟩⟩
      ⟨⟨0, 9, 16⟩, ⟨0, -3 / 5, 4 / 5⟩⟩ = .ok e ∧
    Fit e.pieces (pathPairs e.splitEdgeF ++ pathPairs e.roofEdgeI ++ pathPairs e.splitEdgeB ++ pathPairs e.roofEdgeO) ∧
    (∀ p ∈ e.splitEdgeF, p.x = 0) ∧ e.splitEdgeF.getLastD 0 = e.roofEdgeI.headD 0 := by
  have hpi := Real.pi_pos
  have hup : Upwards ⟨0, -3 / 5, 4 / 5⟩ := by constructor <;> norm_num [Vec.dot]
  have ht : ∀ a ∈ some (Real.pi / 4), a < Real.pi := by
    intro a ha
    obtain rfl := Option.some.inj ha
    linarith
  have hq : 0 < 30 * Real.pi / 180 := by positivity
  have hs : SaneEncoder ⟨14, 12.5, 7.3, 3, 0.2, 0.8, 1 / 2⟩ := by constructor <;> norm_num
  obtain ⟨e, he⟩ := C98_succeeds (q := ⟨0.01, 30 * Real.pi / 180⟩) (taper := some (Real.pi / 4)) (cfg := ⟨14, 12.5, 7.3, 3, 0.2, 0.8, 1 / 2⟩)
    (roofO := ⟨⟨0, 10, 20⟩, ⟨0, -3 / 5, 4 / 5⟩⟩) (roofI := ⟨⟨0, 9, 16⟩, ⟨0, -3 / 5, 4 / 5⟩⟩) hq (by norm_num) (by norm_num) (by norm_num) ht hup
    (by norm_num [Vec.dot])
  obtain ⟨-, -, -, -, e1, -, -, -, e2⟩ := C80_edges hq hs hup he
  exact ⟨e, he, C80_fit hs hup he, (e2 rfl rfl).1, e1⟩

/-- C101 of a floor. -/
example (side : Side) : ∃ cfg fp body floor, FullPlan.make cfg side = .ok fp ∧ Body.make cfg fp = .ok body ∧ Floor.make cfg fp body = .ok floor ∧ SaneFloor cfg ∧
    SaneThread cfg.boss cfg.support ∧ ∃ bottom holes, floor.faces[1]? = some (face bottom holes) ∧ fp.bosses.alnumB.headHole ∈ holes := by
  obtain ⟨W, H, he⟩ := exFloor_made
  obtain ⟨fp, body, floor, h1, h2, h3, h4⟩ := he side
  have hs : SaneFloor (exThin W H) := by
    refine ⟨exQuality_sane, ?_, fun _ h => by cases h⟩
    constructor <;> norm_num [exThin, exCfg, exBoss]
  have ht : SaneThread (exThin W H).boss (exThin W H).support := by
    refine ⟨?_, ?_, ?_, fun _ h => by cases h⟩ <;> norm_num [exThin, exCfg, exBoss]
  have c1 := C101_outline h2
  obtain ⟨E, ho, b, hb, r, hr, m, c2, m2, c3⟩ := C101_screws h1 h2 h3 hs
  exact ⟨_, fp, body, floor, h1, h2, h3, hs, ht, b, hb, c2, (c3 _ (by simp)).2.1⟩

end Chrumm.Part
