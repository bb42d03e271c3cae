import Verif.Props.FloorMeets
import Verif.Props.FloorBrackets
import Verif.Props.BodyWith
import Verif.Props.FloorWhole

/-! A floor with brackets: what is proved about them holds of real ones. -/

namespace Chrumm.Part
open Geo Geo.Spec Spec

/-- The example with brackets, and a lip that is too thin to be moved. -/
noncomputable def exThinB (W H : ℝ) : KeyboardCfg := { exCfgB W H none with floor := ⟨3, 1, 0, 0, 2, 0, none⟩ }

theorem exThinB_plan (W H : ℝ) (side : Side) : FullPlan.make (exThinB W H) side = FullPlan.make (exCfgB W H none) side := by
  have e1 : (exThinB W H).plan = (exCfgB W H none).plan := rfl
  have e2 : bodyBoss (exThinB W H) = bodyBoss (exCfgB W H none) := rfl
  have e3 : (exThinB W H).palm = (exCfgB W H none).palm := rfl
  unfold FullPlan.make Bosses.make
  rw [e1, e2, e3]
  rfl

/-- The checks of the brackets hold for a lower lip. -/
theorem bracketChecks_lower {p : Points} {r : Ridge} {i : InnerRim} {f b : CornerBracket} {l l' : ℝ} (hl : l' ≤ l)
    (h : bracketChecks p r i f b l = .ok ()) : bracketChecks p r i f b l' = .ok () := by
  unfold bracketChecks at h ⊢
  dsimp only at h ⊢
  obtain ⟨line, h1, h⟩ := bind_ok h
  obtain ⟨maxY, h2, h⟩ := bind_ok h
  obtain ⟨ds, h3, h⟩ := bind_ok h
  obtain ⟨gap, h4, h⟩ := bind_ok h
  obtain ⟨minZ, h5, h⟩ := bind_ok h
  split_ifs at h with c1
  obtain ⟨w, h6, h⟩ := bind_ok h
  obtain ⟨minB, h7, h⟩ := bind_ok h
  split_ifs at h with c2
  simp only [not_or, not_lt] at c1 c2
  refine bind_ok_of h1 (bind_ok_of h2 (bind_ok_of h3 (bind_ok_of h4 (bind_ok_of h5 ?_))))
  rw [if_neg (by simp only [not_or, not_lt]; exact ⟨c1.1, c1.2.1, by linarith [c1.2.2]⟩)]
  refine bind_ok_of h6 (bind_ok_of h7 ?_)
  rw [if_neg (by simp only [not_or, not_lt]; exact ⟨c2.1, by linarith [c2.2]⟩)]
  rfl

theorem exThinB_joint {W H : ℝ} {fp : FullPlan} {s : BodyStep} {i : InnerRim} {r : Ridge} {j : Joint}
    (h : makeJoint (exCfgB W H none) fp s i r (some exBracket) = .ok j) : makeJoint (exThinB W H) fp s i r (some exBracket) = .ok j := by
  unfold makeJoint at h ⊢
  dsimp only at h ⊢
  obtain ⟨f, h1, h⟩ := bind_ok h
  obtain ⟨b, h2, h⟩ := bind_ok h
  obtain ⟨pinky, h3, h⟩ := bind_ok h
  obtain ⟨ref, h4, h⟩ := bind_ok h
  obtain ⟨t, h5, h⟩ := bind_ok h
  obtain ⟨⟨⟩, h6, h⟩ := bind_ok h
  obtain ⟨x, h7, h⟩ := bind_ok h
  obtain ⟨w, h8, h⟩ := bind_ok h
  obtain ⟨r0, h9, h⟩ := bind_ok h
  have h6' := bracketChecks_lower (l' := (exThinB W H).floor.lipHeight + (exThinB W H).floor.lipMargin) (by norm_num [exThinB, exCfgB, exCfg]) h6
  exact bind_ok_of h1 (bind_ok_of h2 (bind_ok_of h3 (bind_ok_of h4 (bind_ok_of h5 (bind_ok_of h6' (bind_ok_of h7 (bind_ok_of h8 (bind_ok_of h9 h))))))))

theorem exThinB_body {W H : ℝ} {fp : FullPlan} {body : Body} (h : Body.make (exCfgB W H none) fp = .ok body) : Body.make (exThinB W H) fp = .ok body := by
  unfold Body.make at h ⊢
  dsimp only at h ⊢
  obtain ⟨_, h0, h⟩ := bind_ok h
  obtain ⟨keys, h1, h⟩ := bind_ok h
  obtain ⟨c, h2, h⟩ := bind_ok h
  obtain ⟨s, h3, h⟩ := bind_ok h
  obtain ⟨o, h4, h⟩ := bind_ok h
  obtain ⟨i, h5, h⟩ := bind_ok h
  obtain ⟨e, h6, h⟩ := bind_ok h
  obtain ⟨r, h7, h⟩ := bind_ok h
  obtain ⟨j, h8, h⟩ := bind_ok h
  obtain ⟨hitch, h9, h⟩ := bind_ok h
  have h8' := exThinB_joint h8
  exact bind_ok_of h0 (bind_ok_of h1 (bind_ok_of h2 (bind_ok_of h3 (bind_ok_of h4 (bind_ok_of h5 (bind_ok_of h6 (bind_ok_of h7
    (bind_ok_of h8' (bind_ok_of h9 h)))))))))

theorem exFloorBracket {a d : Vec} (h : a.z + 1 / 1000 ≤ d.z) : SaneFloorBracket exQuality exBracket a d := by
  have hs := exBracketQ
  refine ⟨hs.angle, hs.hole, hs.bore, hs.nut, ?_, hs.corner, h, ?_⟩
  · linarith [hs.taper, hs.taper']
  · norm_num [exBracket]

/-- A bracket of the example reaches the thin lip. -/
theorem exReached {a d : Vec} {x : ℝ} (ha : a.z = -2) (hd : d.z = 2) (hx : x = 0) : LipReached exBracket a d d x := by
  right
  refine ⟨le_rfl, ?_⟩
  subst hx
  rw [ha, hd]
  have hn := exNut
  have s1 : Real.sqrt 3 < 2 := by
    rw [Real.sqrt_lt' (by norm_num)]; norm_num
  have ec : Real.cos exBracket.taperAngle = Real.sqrt 3 / 2 := Real.cos_pi_div_six
  have es : Real.sin exBracket.taperAngle = 1 / 2 := Real.sin_pi_div_six
  have e1 : exBracket.wallMargin = 1 / 2 := by norm_num [exBracket]
  have e2 : exBracket.baseMargin = 1 / 5 := by norm_num [exBracket]
  have e3 : exBracket.taperMargin = 21 / 10 := rfl
  have e4 : max (exBracket.counterboreDiameter / 2) (exBracket.nutAcrossFlats / 2) = 59 / 20 := by norm_num [exBracket]
  have e5 : exBracket.counterboreDiameter / 2 = 59 / 20 := by norm_num [exBracket]
  have e6 := le_max_left (exBracket.counterboreDiameter / 2) (hexTangentDist exBracket.nutRadius (exBracket.taperAngle - Real.pi / 2))
  rw [ec, es, e1, e2, e3, e4]
  generalize max (exBracket.counterboreDiameter / 2) exBracket.nutRadius = R at *
  generalize max (exBracket.counterboreDiameter / 2) (hexTangentDist exBracket.nutRadius (exBracket.taperAngle - Real.pi / 2)) = T at *
  nlinarith [Real.sqrt_nonneg 3]

theorem setEnds_of {l : List Vec} (hl : l ≠ []) (a b : Vec) : ∃ e, setEnds l a b = .ok e ∧ e ≠ [] := by
  refine ⟨(l.set 0 a).set (l.length - 1) b, by unfold setEnds; rw [if_neg hl]; rfl, ?_⟩
  intro h
  have := congrArg List.length h
  simp at this
  exact hl this

/-- The joint of the example's floor can be made. -/
theorem exFloorJoint {W H : ℝ} {side : Side} {body : Body} {f b : CornerBracket} {I O : List Vec} {A B : Vec} (hI : I ≠ []) (hO : O ≠ [])
    (hA : I.headD 0 = A) (hB : I.getLastD 0 = B) (za : A.z = 0) (zb : B.z = 0) (hF : body.bracketF = some f) (hBB : body.bracketB = some b)
    (high : ∀ p ∈ f.splitEdge, 10 ≤ p.z) (hy : A.y < B.y) :
    ∃ j, floorJoint (exThinB W H) side body ⟨edgeTranslated O ⟨0, 0, -3⟩, O, I, edgeTranslated I ⟨0, 0, 2⟩, edgeTranslated I ⟨0, 0, 2⟩,
      edgeTranslated I ⟨0, 0, -3 + 1 + 0⟩, edgeTranslated I ⟨0, 0, -3 + 1⟩⟩ (some exBracket) = .ok j ∧ j.profile.p2 = I ∧ j.profile.p3 ≠ [] := by
  have i0 : ∀ v, pyIndex (edgeTranslated I v) 0 = .ok (A + v) := by
    intro v
    rw [pyIndex_zero, ← hA]
    cases I with
    | nil => exact absurd rfl hI
    | cons w ws => rfl
  have i1 : ∀ v, pyIndex (edgeTranslated I v) (-1) = .ok (B + v) := by
    intro v
    rw [pyIndex_last, ← hB]
    unfold edgeTranslated
    rw [List.getLast?_map, List.getLast?_eq_some_getLast hI, List.getLastD_eq_getLast?, List.getLast?_eq_some_getLast hI]
    rfl
  have mv : ∀ v : Vec, edgeTranslated I v ≠ [] := by
    intro v e
    unfold edgeTranslated at e
    exact hI (List.map_eq_nil_iff.mp e)
  have tp : ∀ t ∈ (exThinB W H).taper, t < Real.pi := fun t ht => by cases ht
  have e7 : max exBracket.counterboreDiameter exBracket.nutAcrossFlats + exBracket.baseMargin + exBracket.apexMargin = 697 / 100 := by norm_num [exBracket]
  have hq : (exThinB W H).quality.maxChordHeight = 2 := rfl
  have made : ∀ (v w : Vec) (n : Bool), v.z = 0 → ∃ k, FloorBracket.make (exThinB W H).quality (exThinB W H).taper exBracket (v + ⟨0, 0, -3 + 1⟩) (w + ⟨0, 0, -3 + 1⟩)
      (v + ⟨0, 0, -3 + 1 + 0⟩) (v + ⟨0, 0, 2⟩) (v + ⟨0, 0, 2⟩) n = .ok k ∧ (∃ l0 l1 l2 l3, k.lipEdge = [l0, l1, l2, l3]) ∧
        ∀ p ∈ k.splitEdge, p.z ≤ 5 := by
    intro v w n hv
    have sf : SaneFloorBracket (exThinB W H).quality exBracket (v + (⟨0, 0, -3 + 1⟩ : Vec)) (v + (⟨0, 0, 2⟩ : Vec)) :=
      exFloorBracket (by simp only [Vec.add_z, hv]; norm_num)
    obtain ⟨k, hk⟩ := C102_floor_succeeds (q := (exThinB W H).quality) (taper := (exThinB W H).taper) (cfg := exBracket) (b := w + (⟨0, 0, -3 + 1⟩ : Vec))
      (c := v + (⟨0, 0, -3 + 1 + 0⟩ : Vec)) (e := v + (⟨0, 0, 2⟩ : Vec)) n exBracketQ tp sf
      (by rw [e7]; simp only [Vec.add_z, hv]; norm_num) (by rw [e7]; simp only [Vec.add_z, hv]; norm_num) (by rw [e7, hq]; simp only [Vec.add_z, hv]; norm_num)
    refine ⟨k, hk, ⟨_, _, _, _, (C82_floor_edges hk).1⟩, fun p hp => ?_⟩
    have := C102_top hk sf rfl (by
      rw [e7]
      simp only [Vec.add_z, hv]
      norm_num) p hp
    rw [e7] at this
    simp only [Vec.add_z, hv] at this
    norm_num at this
    linarith
  obtain ⟨kf, mf, ⟨f0, f1, f2, f3, lf⟩, tf⟩ := made A B (decide (side = (exThinB W H).nutSide)) za
  obtain ⟨kb, mb, ⟨b0, b1, b2, b3, lb⟩, tb⟩ := made B A (decide (side = (exThinB W H).nutSide)) zb
  have chk : floorBracketChecks (exThinB W H) body kf kb = .ok () := by
    unfold floorBracketChecks
    rw [hF, hBB]
    dsimp only
    rw [if_neg]
    · rfl
    · intro hany
      rw [List.any_eq_true] at hany
      obtain ⟨v, hv, hc⟩ := hany
      obtain ⟨p, hp, rfl⟩ := List.mem_map.mp hv
      obtain ⟨-, r, hr, hlt⟩ := contains_box hc
      obtain ⟨r', hr', rfl⟩ := List.mem_map.mp hr
      have h1 := high p hp
      have h2 := tf r' hr'
      dsimp only at hlt
      linarith
  obtain ⟨s6, g6, -⟩ := setEnds_of (mv ⟨0, 0, -3 + 1⟩) f3 b3
  obtain ⟨s5, g5, -⟩ := setEnds_of (mv ⟨0, 0, -3 + 1 + 0⟩) f2 b2
  obtain ⟨s4, g4, -⟩ := setEnds_of (mv ⟨0, 0, 2⟩) f1 b1
  obtain ⟨s3, g3, n3⟩ := setEnds_of (mv ⟨0, 0, 2⟩) f0 b0
  have nO : edgeTranslated O ⟨0, 0, -3⟩ ≠ [] := by
    intro e
    unfold edgeTranslated at e
    exact hO (List.map_eq_nil_iff.mp e)
  obtain ⟨xs, hx⟩ := mapM_ok_of [edgeTranslated O ⟨0, 0, -3⟩, O, I] (f := fun e => pyIndex e 0) (by
    intro e he
    simp only [List.mem_cons, List.not_mem_nil, or_false] at he
    rcases he with rfl | rfl | rfl <;> exact (index_some (by assumption)).1)
  obtain ⟨ys, hys⟩ := mapM_ok_of [I, O, edgeTranslated O ⟨0, 0, -3⟩] (f := fun e => pyIndex e (-1)) (by
    intro e he
    simp only [List.mem_cons, List.not_mem_nil, or_false] at he
    rcases he with rfl | rfl | rfl <;> exact (index_some (by assumption)).2)
  have at4 : ∀ (k : FloorBracket) {w x y z : Vec}, k.lipEdge = [w, x, y, z] → pyIndex k.lipEdge (-1) = .ok z ∧ pyIndex k.lipEdge (-2) = .ok y ∧
      pyIndex k.lipEdge (-3) = .ok x ∧ pyIndex k.lipEdge (-4) = .ok w := by
    intro k w x y z hk
    rw [hk]
    exact ⟨rfl, rfl, rfl, rfl⟩
  obtain ⟨p1, p2, p3, p4⟩ := at4 kf lf
  obtain ⟨q1, q2, q3, q4⟩ := at4 kb lb
  unfold floorJoint
  dsimp only
  refine ⟨_, bind_ok_of (i0 _) (bind_ok_of (i1 _) (bind_ok_of (i0 _) (bind_ok_of (i0 _) (bind_ok_of (i0 _) (bind_ok_of mf (bind_ok_of (i1 _) (bind_ok_of (i1 _)
    (bind_ok_of (i1 _) (bind_ok_of mb (bind_ok_of chk (bind_ok_of p1 (bind_ok_of q1 (bind_ok_of g6 (bind_ok_of p2 (bind_ok_of q2 (bind_ok_of g5
    (bind_ok_of p3 (bind_ok_of q3 (bind_ok_of g4 (bind_ok_of p4 (bind_ok_of q4 (bind_ok_of g3 (bind_ok_of hx (bind_ok_of hys rfl))))))))))))))))))))))))
    , rfl, n3⟩

/-- A whole floor with brackets. -/
theorem exFloorB_made : ∃ W H, ∀ side, ∃ fp body floor, FullPlan.make (exThinB W H) side = .ok fp ∧ Body.make (exThinB W H) fp = .ok body ∧
    Floor.make (exThinB W H) fp body = .ok floor ∧ SaneProfile floor.sketch True ∧ ∀ k ∈ floor.joint.brackets, MeetsLip floor.sketch k.1 k.2 := by
  obtain ⟨W, H, h⟩ := exBodyB_high none (by simp)
  refine ⟨W, H, fun side => ?_⟩
  obtain ⟨fp, body, h1, h2, -, -, -, -, -, ⟨f, b, hF, hB, high⟩, xL, x0, xR, yF, y1, yB, zO, e⟩ := h side
  have k1 := e.left_eq
  have k2 := e.thumb_le
  have k3 := e.back_ge
  have k4 := e.front_le
  obtain ⟨n1, n2, n3, n4⟩ := outlines_at h2 (by rw [e.points]; simp only [exPoints]; linarith) (by rw [e.points]; simp only [exPoints]; linarith)
    (by rw [e.points]; simp only [exPoints]; linarith)
  have hy : fp.plan.points.thumbILF.yz.xy.y < fp.plan.points.alnumILB.yz.xy.y := by
    rw [e.points]
    simp only [exPoints, Vec.xy, Vec.yz]
    linarith
  have hn : ∀ x : ℝ, |x| < 1 / 1000000 → naiveOffset2D body.outlineI x = .ok body.outlineI := by
    intro x hx
    unfold naiveOffset2D
    rw [if_pos hx]
    rfl
  have pr : floorProfile (exThinB W H).floor body.outlineI body.outlineO = .ok ⟨edgeTranslated body.outlineO ⟨0, 0, -3⟩, body.outlineO, body.outlineI,
      edgeTranslated body.outlineI ⟨0, 0, 2⟩, edgeTranslated body.outlineI ⟨0, 0, 2⟩, edgeTranslated body.outlineI ⟨0, 0, -3 + 1 + 0⟩,
      edgeTranslated body.outlineI ⟨0, 0, -3 + 1⟩⟩ := by
    refine bind_ok_of (hn _ ?_) (bind_ok_of (hn _ ?_) (bind_ok_of (hn _ ?_) rfl)) <;> simp [exThinB]
  obtain ⟨j, jn, j2, j3⟩ := exFloorJoint (W := W) (H := H) (side := fp.plan.side) n1 n4 n2 n3 rfl rfl hF hB high hy
  have fl : ∃ floor, Floor.make (exThinB W H) fp body = .ok floor ∧ floor.sketch = ⟨edgeTranslated body.outlineO ⟨0, 0, -3⟩, body.outlineO, body.outlineI,
      edgeTranslated body.outlineI ⟨0, 0, 2⟩, edgeTranslated body.outlineI ⟨0, 0, 2⟩, edgeTranslated body.outlineI ⟨0, 0, -3 + 1 + 0⟩,
      edgeTranslated body.outlineI ⟨0, 0, -3 + 1⟩⟩ := by
    have gaps : ∀ {l : List Vec}, l ≠ [] → ∃ g, fillGaps l = .ok g := by
      intro l hl
      obtain ⟨⟨a, ha⟩, c, hc⟩ := index_some hl
      exact ⟨_, bind_ok_of ha (bind_ok_of hc rfl)⟩
    obtain ⟨g2, hg2⟩ := gaps (l := j.profile.p2) (by rw [j2]; exact n1)
    obtain ⟨g3, hg3⟩ := gaps j3
    unfold Floor.make
    exact ⟨_, bind_ok_of pr (bind_ok_of jn (bind_ok_of (a := ([], [])) rfl (bind_ok_of (a := none) rfl (bind_ok_of (a := _) rfl
      (bind_ok_of hg2 (bind_ok_of hg3 rfl)))))), rfl⟩
  obtain ⟨floor, hf, es⟩ := fl
  have hd : ∀ v : Vec, (edgeTranslated body.outlineI v).headD 0 = fp.plan.points.thumbILF.yz.xy + v := by
    intro v
    rw [translated_head v n1, n2]
  have hl : ∀ v : Vec, (edgeTranslated body.outlineI v).getLastD 0 = fp.plan.points.alnumILB.yz.xy + v := by
    intro v
    rw [translated_last v n1, n3]
  have back : ∀ v : Vec, Backwards (edgeTranslated body.outlineI v) := by
    intro v
    unfold Backwards
    rw [hd, hl]
    simp only [Vec.add_y]
    linarith
  have hb' := exThinB_body h2
  refine ⟨fp, body, floor, (exThinB_plan W H side).trans h1, hb', hf, ?_, ?_⟩
  · rw [es]
    exact ⟨by rw [n2]; rfl, by rw [n3]; rfl, fun _ => back _, fun _ => back _, fun _ => back _⟩
  · refine C84_lip hb' hf rfl (exFloorBracket (by norm_num [exThinB])) (by rw [es]; exact back _) ?_ ?_
    · rw [es]
      dsimp only
      rw [hd, hd]
      exact exReached (by simp only [Vec.add_z, Vec.xy]; norm_num) (by simp only [Vec.add_z, Vec.xy]; norm_num) rfl
    · rw [es]
      dsimp only
      rw [hl, hl]
      exact exReached (by simp only [Vec.mirroredY, Vec.add_z, Vec.xy]; norm_num) (by simp only [Vec.mirroredY, Vec.add_z, Vec.xy]; norm_num) rfl

/-- C84 and C100 hold of a real floor with brackets. -/
example : ∃ cfg side fp body floor, FullPlan.make cfg side = .ok fp ∧ Body.make cfg fp = .ok body ∧ Floor.make cfg fp body = .ok floor ∧
    Fit (floor.faces ++ floor.pieces) [] ∧
    ∃ f b bodyF bodyB, floor.joint.brackets = some (f, b) ∧ body.bracketF = some bodyF ∧ body.bracketB = some bodyB ∧
      ∀ p ∈ bodyF.splitEdge, ¬ InsideOutline (f.splitEdge.map sideView) (sideView p) := by
  obtain ⟨W, H, he⟩ := exFloorB_made
  obtain ⟨fp, body, floor, h1, h2, h3, h4, h5⟩ := he .left
  have hs : SaneFloor (exThinB W H) := by
    refine ⟨exQuality_sane, ?_, fun _ h => by cases h⟩
    constructor <;> norm_num [exThinB, exCfgB, exCfg, exBoss]
  obtain ⟨f, b, bodyF, bodyB, g1, g2, g3, -, g4, -⟩ := C100_floor h3 (show (exThinB W H).bracket = some exBracket from rfl)
  exact ⟨_, _, fp, body, floor, h1, h2, h3, C84_floor h1 h3 hs (by simpa [exThinB, exCfgB, exCfg] using h4) h5, f, b, bodyF, bodyB, g1, g2, g3, g4⟩

end Chrumm.Part
