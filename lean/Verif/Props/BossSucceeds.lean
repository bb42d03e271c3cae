import Verif.Props.BossWall

/-! C78: bosses can be built. -/

namespace Chrumm.Part
open Geo Geo.Spec Spec Classical

/-- Circles can be drawn that are not smaller than a chord is high. -/
theorem arc_ok {q : Quality} (hq : SaneQuality q) {radius start span : ℝ} {center : Vec}
    (hr : radius < 1 / 1000000 ∨ q.maxChordHeight ≤ 2 * radius) (hs : span ≠ 0) :
    ∃ pts, arc2D q radius start span center = .ok pts ∧ pts ≠ [] := by
  have hqa : 0 < q.maxChordAngle := by linarith [hq.angle]
  have hqh : 0 < q.maxChordHeight := by linarith [hq.height]
  obtain ⟨h1, h2, -⟩ := C53_succeeds q radius start span center hqa hqh
  by_cases hc : radius < 1 / 1000000
  · exact ⟨_, h1 hc, by simp⟩
  · push Not at hc
    obtain ⟨pts, hp⟩ := (h2 hc).mpr ⟨hr.resolve_left (not_lt.mpr hc), hs⟩
    refine ⟨pts, hp, ?_⟩
    have := (C53_ends hc hqa hp).1
    rintro rfl
    simp at this

theorem meshDown_ok (k : Bool) : ∀ (l : List (List Vec)), (∀ e ∈ l, e ≠ []) → ∃ ts, meshDown k l = .ok ts
  | [], _ => ⟨_, rfl⟩
  | [_], _ => ⟨_, rfl⟩
  | a :: b :: rest, h => by
    obtain ⟨t, ht⟩ := C32_total a b k (h a (by simp)) (h b (by simp))
    obtain ⟨ts, hts⟩ := meshDown_ok k (b :: rest) (fun e he => h e (by simp [he]))
    refine ⟨t ++ ts, ?_⟩
    rw [meshDown, ht, hts]
    rfl

theorem meshUp_ok (k : Bool) : ∀ (l : List (List Vec)), (∀ e ∈ l, e ≠ []) → ∃ ts, meshUp k l = .ok ts
  | [], _ => ⟨_, rfl⟩
  | [_], _ => ⟨_, rfl⟩
  | a :: b :: rest, h => by
    obtain ⟨t, ht⟩ := C32_total b a k (h b (by simp)) (h a (by simp))
    obtain ⟨ts, hts⟩ := meshUp_ok k (b :: rest) (fun e he => h e (by simp [he]))
    refine ⟨t ++ ts, ?_⟩
    rw [meshUp, ht, hts]
    rfl

theorem transition_ok {q : Quality} (hq : SaneQuality q) {P R F a : ℝ} (hR : q.maxChordHeight ≤ 2 * R)
    (hF : F < 1 / 1000000 ∨ q.maxChordHeight ≤ 2 * F) : ∃ e, smoothTransition q P R F a = .ok e := by
  obtain ⟨-, s2, s3⟩ := sin89_pos
  have hpi := Real.pi_pos
  unfold smoothTransition transitionArcs
  dsimp only
  generalize ht : min (max (max 0 a) (angle2D ⟨Real.sqrt (max 0 ((R + F) ^ 2 - (R - P + F) ^ 2)), R - P + F, 0⟩)) (89 * Real.pi / 180) = t
  have t0 : 0 ≤ t := by
    rw [← ht]
    exact le_min (le_trans (le_max_left _ _) (le_max_left _ _)) s3.le
  have t1 : t < Real.pi / 2 := by
    have : t ≤ 89 * Real.pi / 180 := by rw [← ht]; exact min_le_right _ _
    linarith
  have hcos : Real.cos t ≠ 0 := (Real.cos_pos_of_mem_Ioo ⟨by linarith, t1⟩).ne'
  have hspan : tau / 4 - t ≠ 0 := by unfold tau; intro e; linarith
  obtain ⟨fa, h1, h1'⟩ := arc_ok hq (start := -tau / 4) (span := -(tau / 4 - t))
    (center := ⟨Real.sqrt (max 0 ((R + F) ^ 2 - (R - P + F) ^ 2)), R - P + F, 0⟩) hF (neg_ne_zero.mpr hspan)
  obtain ⟨ba, h2, h2'⟩ := arc_ok hq (start := t) (span := tau / 4 - t) (center := 0) (Or.inr hR) hspan
  have h3 : pyIndex ba 0 = .ok (ba.head h2') := by
    rw [pyIndex_zero, ← List.head?_eq_getElem?, List.head?_eq_some_head h2']
  have h4 : pyIndex fa (-1) = .ok (fa.getLast h1') := by
    rw [pyIndex_last, List.getLast?_eq_some_getLast h1']
  rw [h1, h2]
  simp only [bind, Except.bind, h3, h4, pyDiv, if_neg hcos]
  exact ⟨_, rfl⟩

/-- C78, C79. A boss can be built if none of its circles is smaller than a chord is high, and the thread fits below the
roof. -/
theorem C78_succeeds (q : Quality) (wallThickness outerHeight : ℝ) (cfg : BossCfg) (support : Option SupportCfg)
    (pos printDirection : Vec) (wallDirection : Option Vec) (roofPlane : Option Plane) (hq : SaneQuality q)
    (hclear : 1 / 1000000 ≤ cfg.clearanceHoleDiameter ∧ q.maxChordHeight ≤ cfg.clearanceHoleDiameter)
    (hthread : 1 / 500000 ≤ cfg.threadDiameter ∧ q.maxChordHeight ≤ cfg.threadDiameter)
    (hboss : q.maxChordHeight ≤ cfg.diameter)
    (hfillet : cfg.innerWallFillet < 1 / 1000000 ∨ q.maxChordHeight ≤ 2 * cfg.innerWallFillet)
    (htaper : ∀ s ∈ support, s.holeTaperAngle < Real.pi)
    (hroof : ∀ roof ∈ roofPlane, UnitNormal roof ∧ 1 / 1000000 ≤ roof.normal.z ∧
      roof.distance ⟨pos.x, pos.y, cfg.minThreadLength⟩ ≤ -cfg.threadRoofMargin ∧ cfg.minThreadLength ≤ cfg.maxThreadLength) :
    ∃ boss, Boss.make q wallThickness outerHeight cfg support pos printDirection wallDirection roofPlane = .ok boss ∧
      boss.pos = pos := by
  have hqa : 0 < q.maxChordAngle := by linarith [hq.angle]
  have hqh : 0 < q.maxChordHeight := by linarith [hq.height]
  have hpi := Real.pi_pos
  have htau : tau ≠ 0 := by unfold tau; linarith
  have wall : ∃ e, bossWall q wallThickness cfg support pos wallDirection = .ok e := by
    rcases wallDirection with _ | d
    · exact ⟨_, rfl⟩
    · unfold bossWall
      dsimp only
      split_ifs
      · exact ⟨_, rfl⟩
      · obtain ⟨e1, h1⟩ := transition_ok hq (P := cfg.diameter / 2 * 2 + cfg.outerWallMargin - wallThickness)
          (R := cfg.diameter / 2) (F := cfg.innerWallFillet) (a := (taperAngles support d).1) (by linarith) hfillet
        obtain ⟨e2, h2⟩ := transition_ok hq (P := cfg.diameter / 2 * 2 + cfg.outerWallMargin - wallThickness)
          (R := cfg.diameter / 2) (F := cfg.innerWallFillet) (a := (taperAngles support d).2) (by linarith) hfillet
        rw [h1, h2]
        exact ⟨_, rfl⟩
  have head : ∃ e, bossHead q outerHeight cfg pos = .ok e := by
    unfold bossHead
    dsimp only
    obtain ⟨arc, h1, h1'⟩ := arc_ok hq (radius := cfg.clearanceHoleDiameter / 2) (start := 0) (span := tau) (center := 0)
      (Or.inr (by linarith [hclear.2])) htau
    have hd : cfg.clearanceHoleDiameter / 2 ≠ 0 := by intro e; linarith [hclear.1]
    rw [h1]
    simp only [bind, Except.bind, pyDiv, if_neg hd]
    generalize hm : meshDown true _ = m
    have : ∃ ts, m = .ok ts := by
      rw [← hm]
      apply meshDown_ok
      simp [profileRing, edgeTranslated, edgeScaled, h1']
    obtain ⟨ts, rfl⟩ := this
    exact ⟨_, rfl⟩
  have thread : ∃ e, bossThread q cfg support pos printDirection roofPlane = .ok e := by
    have tip : ∃ tp, bossTip cfg pos roofPlane = .ok tp ∧ 1 / 1000000 ≤ tp.normal.z := by
      rcases roofPlane with _ | roof
      · have hn : (⟨0, 0, 1⟩ : Vec).normalized = .ok ⟨0, 0, 1⟩ :=
          UnitOf.normalized ⟨by norm_num [Vec.dot], 1, one_pos, by ext <;> simp⟩
        refine ⟨⟨⟨pos.x, pos.y, cfg.maxThreadLength⟩, ⟨0, 0, 1⟩⟩, ?_, by norm_num⟩
        unfold bossTip Plane.make
        dsimp only
        rw [hn]
        rfl
      · obtain ⟨hu, hz, hd, hl⟩ := hroof roof rfl
        have hun : roof.normal.dot roof.normal = 1 := by
          unfold UnitNormal at hu
          simp only [Vec.dot]
          linarith
        have hnn : roof.normal.normalized = .ok roof.normal := UnitOf.normalized ⟨hun, 1, one_pos, by ext <;> simp⟩
        have hz0 : 0 < roof.normal.z := by linarith
        have hs := (not_congr (C78_too_short cfg pos roof hu hz)).mpr (by
          rintro (h | h) <;> linarith)
        unfold bossTip Plane.translated Plane.make Plane.projectZ at hs ⊢
        dsimp only at hs ⊢
        rw [hnn] at hs ⊢
        simp only [bind, Except.bind, pure, Except.pure, pyDiv] at hs ⊢
        have hnz : ¬ isZero roof.normal.z := by unfold isZero; rw [abs_of_pos hz0]; norm_num at hz ⊢; exact hz
        rw [if_neg hnz, if_neg hz0.ne'] at hs ⊢
        dsimp only at hs ⊢
        split_ifs at hs ⊢ with hif
        · exact absurd rfl hs
        · exact ⟨_, rfl, hz⟩
    obtain ⟨tp, h1, hz⟩ := tip
    have hole : ∃ pts, uprightHole2D q (support.map SupportCfg.holeTaperAngle) (cfg.threadDiameter / 2) = .ok pts ∧ pts ≠ [] := by
      have key : ∀ a : Option ℝ, (∀ x ∈ a, x < Real.pi) → ∃ pts, uprightHole2D q a (cfg.threadDiameter / 2) = .ok pts ∧ pts ≠ [] := by
        intro a ha
        by_cases hp : ∀ x ∈ a, x ≤ 0
        · rw [(C67_round q _ a hp).1]
          exact arc_ok hq (Or.inr (by linarith [hthread.2])) htau
        · push Not at hp
          obtain ⟨x, hx, hx0⟩ := hp
          rw [Option.mem_def] at hx
          subst hx
          obtain ⟨pts, h⟩ := (C67_succeeds q (cfg.threadDiameter / 2) x hqa hqh (by linarith [hthread.1])
            (by linarith [hthread.2]) (ha x rfl)).1
          refine ⟨pts, h, ?_⟩
          unfold uprightHole2D at h
          dsimp only at h
          rw [if_pos hx0] at h
          obtain ⟨arc, -, hb⟩ := bind_ok h
          obtain ⟨t, -, hc⟩ := bind_ok hb
          obtain rfl := Except.ok.inj hc
          simp
      apply key
      intro x hx
      obtain ⟨s, hs, rfl⟩ := Option.mem_map.mp hx
      exact htaper s hs
    obtain ⟨pts, h2, h2'⟩ := hole
    have hd : cfg.threadDiameter / 2 ≠ 0 := by intro e; linarith [hthread.1]
    have hz0 : 0 < tp.normal.z := by linarith
    have proj : ∀ l : List Vec, ∃ l', l.mapM tp.projectZ = .ok l' ∧ (l ≠ [] → l' ≠ []) := by
      intro l
      obtain ⟨l', hl⟩ := mapM_ok_of (f := tp.projectZ) l (by
        intro x _
        unfold Plane.projectZ
        rw [if_neg (by unfold isZero; rw [abs_of_pos hz0]; norm_num at hz ⊢; exact hz)]
        simp only [bind, Except.bind, pyDiv, if_neg hz0.ne']
        exact ⟨_, rfl⟩)
      refine ⟨l', hl, ?_⟩
      have := (mapM_ok hl).length_eq
      rintro h0 rfl
      exact h0 (List.length_eq_zero_iff.mp this)
    unfold bossThread
    dsimp only
    rw [h1]
    simp only [bind, Except.bind]
    rw [h2]
    simp only [pyDiv, if_neg hd]
    obtain ⟨l', hl, hl'⟩ := proj (profileRing (edgeTransformed (edgeScaled pts (1 / (cfg.threadDiameter / 2)))
      (Mat.rotatedZ 1 (angle2D printDirection - tau / 4))) pos (cfg.threadDiameter / 2) cfg.threadChamfer)
    rw [hl]
    dsimp only
    generalize hm : meshUp true _ = m
    have : ∃ ts, m = .ok ts := by
      rw [← hm]
      apply meshUp_ok
      have := hl' (by simp [profileRing, edgeTranslated, edgeScaled, edgeTransformed, h2'])
      simp [profileRing, edgeTranslated, edgeScaled, edgeTransformed, h2', this]
    obtain ⟨ts, rfl⟩ := this
    exact ⟨_, rfl⟩
  obtain ⟨w, hw⟩ := wall
  obtain ⟨⟨h1, h2, h3⟩, hh⟩ := head
  obtain ⟨⟨t1, t2⟩, ht⟩ := thread
  refine ⟨{ pos, wallEdge := w, headHole := h2, threadHole := t1, clearanceHole := h1, headTriangles := h3, threadTriangles := t2 }, ?_, rfl⟩
  unfold Boss.make
  rw [hw, hh, ht]
  rfl

/-- The bosses of the default configuration, below a roof that is 10 high and tilted by 3:4. -/
noncomputable def defaultBoss : BossCfg := ⟨92 / 10, 3, 4 / 10, 64 / 10, 4, 13 / 10, 42 / 10, 65 / 10, 8, 17 / 10, 1⟩

noncomputable def exampleRoof : Plane := ⟨⟨0, 0, 10⟩, ⟨28 / 100, 0, 96 / 100⟩⟩

theorem exampleRoof_ok : UnitNormal exampleRoof ∧ NotTooSteep defaultBoss exampleRoof ∧
    exampleRoof.normal.x ^ 2 + exampleRoof.normal.y ^ 2 ≤ 2 * exampleRoof.normal.z ^ 2 := by
  refine ⟨by norm_num [UnitNormal, exampleRoof], ⟨by norm_num [exampleRoof], ?_⟩, by norm_num [exampleRoof]⟩
  simp only [exampleRoof, defaultBoss]
  rw [show ((28 / 100 : ℝ) ^ 2 + 0 ^ 2) = (28 / 100) ^ 2 by norm_num, Real.sqrt_sq (by norm_num)]
  norm_num

example : ∃ boss, Boss.make ⟨1 / 100, 1 / 10⟩ (22 / 10) 3 defaultBoss none 0 ⟨0, 1, 0⟩ (some ⟨1, 0, 0⟩) (some exampleRoof) = .ok boss ∧
    boss.pos = 0 ∧ SaneQuality ⟨1 / 100, 1 / 10⟩ ∧ SaneHead 3 defaultBoss ∧ SaneThread defaultBoss none := by
  have hpi := Real.pi_gt_three
  have hq : SaneQuality ⟨1 / 100, 1 / 10⟩ := ⟨by norm_num, by norm_num, by norm_num; linarith⟩
  obtain ⟨b, h1, h2⟩ := C78_succeeds ⟨1 / 100, 1 / 10⟩ (22 / 10) 3 defaultBoss none 0 ⟨0, 1, 0⟩ (some ⟨1, 0, 0⟩) (some exampleRoof) hq
    (by norm_num [defaultBoss]) (by norm_num [defaultBoss]) (by norm_num [defaultBoss]) (by norm_num [defaultBoss]) (by simp)
    (by
      rintro r ⟨⟩
      refine ⟨exampleRoof_ok.1, by norm_num [exampleRoof], ?_, by norm_num [defaultBoss]⟩
      norm_num [Plane.distance, exampleRoof, defaultBoss, Vec.dot])
  exact ⟨b, h1, h2, hq, ⟨by norm_num [defaultBoss], by norm_num [defaultBoss], by norm_num [defaultBoss], by norm_num [defaultBoss],
    by norm_num [defaultBoss]⟩, ⟨by norm_num [defaultBoss], by norm_num [defaultBoss], by norm_num [defaultBoss], by simp⟩⟩

/-- The default boss at a wall of the default thickness has a bump, to which C79 applies. -/
example : ∃ edge, bossWall ⟨1 / 100, 1 / 10⟩ (22 / 10) defaultBoss none 0 (some ⟨1, 0, 0⟩) = .ok edge ∧
    1 / 1000000 ≤ defaultBoss.diameter / 2 ∧
    (defaultBoss.innerWallFillet = 0 ∨ 1 / 1000000 ≤ defaultBoss.innerWallFillet) ∧
    (defaultBoss.diameter / 2 + defaultBoss.innerWallFillet) * (1 - Real.sin (89 * Real.pi / 180)) ≤
      defaultBoss.diameter + defaultBoss.outerWallMargin - 22 / 10 ∧
    (22 / 10) / 10 ≤ defaultBoss.diameter + defaultBoss.outerWallMargin - 22 / 10 := by
  have hpi := Real.pi_gt_three
  have hq : SaneQuality ⟨1 / 100, 1 / 10⟩ := ⟨by norm_num, by norm_num, by norm_num; linarith⟩
  have hs : 1 / 2 ≤ Real.sin (89 * Real.pi / 180) := by
    rw [← Real.sin_pi_div_six]
    exact Real.sin_le_sin_of_le_of_le_pi_div_two (by linarith) (by linarith) (by linarith)
  refine Exists.elim ?_ fun e he => ⟨e, he, by norm_num [defaultBoss], Or.inr (by norm_num [defaultBoss]), ?_, by norm_num [defaultBoss]⟩
  · unfold bossWall
    dsimp only
    rw [if_neg (by norm_num [defaultBoss])]
    obtain ⟨r, h1⟩ := transition_ok hq (P := defaultBoss.diameter / 2 * 2 + defaultBoss.outerWallMargin - 22 / 10)
      (R := defaultBoss.diameter / 2) (F := defaultBoss.innerWallFillet) (a := (taperAngles none ⟨1, 0, 0⟩).1)
      (by norm_num [defaultBoss]) (Or.inr (by norm_num [defaultBoss]))
    obtain ⟨l, h2⟩ := transition_ok hq (P := defaultBoss.diameter / 2 * 2 + defaultBoss.outerWallMargin - 22 / 10)
      (R := defaultBoss.diameter / 2) (F := defaultBoss.innerWallFillet) (a := (taperAngles none ⟨1, 0, 0⟩).2)
      (by norm_num [defaultBoss]) (Or.inr (by norm_num [defaultBoss]))
    rw [h1]
    change ∃ e, (smoothTransition _ _ _ _ _ >>= _) = _
    rw [h2]
    exact ⟨_, rfl⟩
  · norm_num [defaultBoss]
    nlinarith

end Chrumm.Part
