import Verif.Props.BracketShape
import Verif.Props.HexGrid

/-! Brackets of sensible dimensions can be made (C102). -/

namespace Chrumm.Part
open Geo Geo.Spec Spec

theorem upright_meets {l m : Line} (hl : UprightLine l) (hm : UprightLine m)
    (h : 1 / 1000000 ≤ (l.dir.y * m.dir.z - l.dir.z * m.dir.y) ^ 2) : ∃ r, l.intersect m = .ok r := by
  have e := intersect_eq (upright_unit hl) (upright_unit hm)
  dsimp only at e
  rw [upright_det hl hm, if_neg (by
    unfold isZero
    rw [abs_of_nonneg (sq_nonneg _)]
    exact not_lt.mpr h)] at e
  exact ⟨_, e⟩

theorem archCorner_exists {q : Quality} {r : ℝ} {a b c : Vec} (hq : 0 < q.maxChordAngle) (hh : 0 < q.maxChordHeight)
    (hr : 1 / 1000000 ≤ r) (hf : q.maxChordHeight ≤ 2 * r) (hl : (a.y - b.y) * (c.z - b.z) - (a.z - b.z) * (c.y - b.y) ≠ 0) :
    ∃ pts, archCorner q r a b c = .ok pts := by
  obtain ⟨arc, h⟩ := C54_succeeds q r ⟨a.y, a.z, 0⟩ ⟨b.y, b.z, 0⟩ ⟨c.y, c.z, 0⟩ hq hh hr hf (by simpa [left] using hl)
  exact ⟨_, bind_ok_of h rfl⟩

theorem maybeUpright_exists {q : Quality} {taper : Option ℝ} {r : ℝ} (u : Bool) (hq : 0 < q.maxChordAngle) (hh : 0 < q.maxChordHeight)
    (hr : 1 / 1000000 ≤ r) (hf : q.maxChordHeight ≤ 2 * r) (ht : ∀ t ∈ taper, t < Real.pi) : ∃ pts, maybeUpright q taper r u = .ok pts := by
  have h1 : ∃ pts, arc2D q r 0 tau 0 = .ok pts := arc_exists hq hh hr hf (by unfold tau; positivity)
  cases u with
  | false => exact h1
  | true =>
    change ∃ pts, uprightHole2D q taper r = .ok pts
    cases taper with
    | none => exact h1
    | some t => exact (C67_succeeds q r t hq hh hr hf (ht t rfl)).1

theorem screwHole_exists {q : Quality} {taper : Option ℝ} {cfg : BracketCfg} (hs : SaneBracket q cfg) (ht : ∀ t ∈ taper, t < Real.pi) (c : Vec) (n u : Bool) :
    ∃ ps l r, screwHole q taper cfg c n u = .ok (ps, l, r) := by
  obtain ⟨hole, h1⟩ := maybeUpright_exists (r := cfg.holeDiameter / 2) u hs.angle hs.height (by linarith [hs.hole]) (by linarith [hs.hole']) ht
  obtain ⟨bore, h2⟩ : ∃ bore, boreSketch q taper cfg u n = .ok bore := by
    cases n with
    | true => exact ⟨_, rfl⟩
    | false => exact maybeUpright_exists (r := cfg.counterboreDiameter / 2) u hs.angle hs.height (by linarith [hs.bore]) (by linarith [hs.bore']) ht
  refine ⟨_, _, _, bind_ok_of h1 (bind_ok_of h2 rfl)⟩

theorem hexTangentDist_ge {r x : ℝ} (hr : 0 ≤ r) : r * (Real.sqrt 3 / 2) ≤ hexTangentDist r x := by
  rw [hexTangentDist_eq]
  apply mul_le_mul_of_nonneg_left _ hr
  have h1 := Real.sin_sq_add_cos_sq x
  generalize Real.sin x = u at *
  generalize Real.cos x = w at *
  have h3 : Real.sqrt 3 * Real.sqrt 3 = 3 := Real.mul_self_sqrt (by norm_num)
  have s3 : 0 < Real.sqrt 3 := by positivity
  unfold hexSupport
  have a1 : |u| ^ 2 + |w| ^ 2 = 1 := by rw [sq_abs, sq_abs]; exact h1
  have u0 := abs_nonneg u
  have w0 := abs_nonneg w
  generalize |u| = u at *
  generalize |w| = w at *
  by_contra hc
  push Not at hc
  obtain ⟨c1, c2⟩ := max_lt_iff.mp hc
  -- w < 1 - u / √3 and u < √3 / 2
  have c3 : u + Real.sqrt 3 * w < Real.sqrt 3 := by linarith
  have c4 : (Real.sqrt 3 * w) ^ 2 < (Real.sqrt 3 - u) ^ 2 := by
    apply pow_lt_pow_left₀ (by linarith) (by positivity) (by norm_num)
  have c5 : 3 * w ^ 2 < 3 - 2 * Real.sqrt 3 * u + u ^ 2 := by
    calc 3 * w ^ 2 = (Real.sqrt 3 * w) ^ 2 := by rw [mul_pow, pow_two (Real.sqrt 3), h3]
      _ < (Real.sqrt 3 - u) ^ 2 := c4
      _ = _ := by linear_combination h3
  have c6 : u * (2 * Real.sqrt 3 - 4 * u) < 0 := by nlinarith
  have c7 : 0 ≤ u * (2 * Real.sqrt 3 - 4 * u) := mul_nonneg u0 (by linarith)
  linarith

set_option maxHeartbeats 1000000 in
theorem cornerSketch_exists {q : Quality} {cfg : BracketCfg} {a b c : Vec} {x y : ℝ} (hs : SaneBracket q cfg) (ha : a.x = 0) (hb : b.x = 0) (hc : c.x = 0)
    (hab : b.y < a.y) (h0 : 0 ≤ b.z - a.z) (h1 : b.z - a.z ≤ a.y - b.y) (hx : 0 ≤ x) (hy : 0 ≤ y) :
    ∃ s, cornerSketch q cfg a b c x y = .ok s := by
  have hab' : b - a ≠ 0 := by
    intro h
    have := congrArg Vec.y h
    simp at this
    linarith
  obtain ⟨d, i1, -⟩ := Vec.normalized_ok (b - a) hab'
  have u := normalized_unit i1
  have x1 := normalized_x i1 (by simp [ha, hb])
  obtain ⟨u1, k, hk, e⟩ := u
  have d1 : d.y ^ 2 + d.z ^ 2 = 1 := by
    simp only [Vec.dot, x1] at u1
    linarith
  have e1 : b.y - a.y = d.y * k := by have := congrArg Vec.y e; simpa using this
  have e2 : b.z - a.z = d.z * k := by have := congrArg Vec.z e; simpa using this
  have dz : 0 ≤ d.z := by
    by_contra hneg
    push Not at hneg
    have := mul_neg_of_neg_of_pos hneg hk
    linarith
  have dy : d.y ≤ -d.z := by
    by_contra hneg
    push Not at hneg
    have : 0 < (d.y + d.z) * k := mul_pos (by linarith) hk
    linarith
  have dy2 : 1 / 2 ≤ d.y ^ 2 := by nlinarith
  have dy1 : d.y ≤ -1 / 2 := by nlinarith
  have sc := Real.sin_sq_add_cos_sq cfg.taperAngle
  have t0 := hs.taper
  have t1 := hs.taper'
  have hR : 0 < cfg.nutRadius := by unfold BracketCfg.nutRadius; have := hs.nut; positivity
  have hA : cfg.nutAcrossFlats / 2 = cfg.nutRadius * (Real.sqrt 3 / 2) := by unfold BracketCfg.nutRadius; field_simp
  have hT : max (cfg.counterboreDiameter / 2) (cfg.nutAcrossFlats / 2) ≤
      max (cfg.counterboreDiameter / 2) (hexTangentDist cfg.nutRadius (cfg.taperAngle - Real.pi / 2)) :=
    max_le_max le_rfl (by rw [hA]; exact hexTangentDist_ge hR.le)
  have hA0 : 0 < max (cfg.counterboreDiameter / 2) (cfg.nutAcrossFlats / 2) := lt_max_of_lt_left (by linarith [hs.bore])
  have hW0 : 0 < max (cfg.counterboreDiameter / 2) cfg.nutRadius := lt_max_of_lt_right hR
  have hB0 : 0 < max (cfg.counterboreDiameter / 2) (hexTangentDist cfg.nutRadius (angle2D ⟨-d.y, -d.z, 0⟩)) := lt_max_of_lt_left (by linarith [hs.bore])
  unfold cornerSketch
  dsimp only
  refine bind_ex i1 ?_
  generalize max (cfg.counterboreDiameter / 2) (hexTangentDist cfg.nutRadius (cfg.taperAngle - Real.pi / 2)) = T at *
  generalize max (cfg.counterboreDiameter / 2) (cfg.nutAcrossFlats / 2) = A at *
  generalize max (cfg.counterboreDiameter / 2) cfg.nutRadius = W at *
  generalize max (cfg.counterboreDiameter / 2) (hexTangentDist cfg.nutRadius (angle2D ⟨-d.y, -d.z, 0⟩)) = B at *
  rw [line_self (d := (⟨0, 0, 1⟩ : Vec)) (by simp [Vec.dot]), value_bind, line_self (d := d) u1, value_bind]
  have up1 : UprightLine ⟨a - (⟨0, d.z, -d.y⟩ : Vec) * (B + cfg.baseMargin + x), d⟩ := ⟨by simp [ha], x1, d1⟩
  have up2 : UprightLine ⟨c - (⟨0, 1, 0⟩ : Vec) * (W + cfg.wallMargin + x), ⟨0, 0, 1⟩⟩ := ⟨by simp [hc], rfl, by simp⟩
  obtain ⟨sc', i4⟩ := upright_meets up1 up2 (by simp only; nlinarith)
  obtain ⟨⟨v1, g1⟩, v2, g2⟩ := upright_intersect up1 up2 i4
  refine bind_ex i4 ?_
  rw [line_self (d := (⟨0, 0, 1⟩ : Vec)) (by simp [Vec.dot]), value_bind, line_self (d := d) u1, value_bind,
    line_self (d := (⟨0, 1, 0⟩ : Vec)) (by simp [Vec.dot]), value_bind, line_self (by simp only [Vec.dot]; linarith), value_bind]
  have scx : sc'.x = 0 := by rw [g2]; simp [hc]
  have scy : sc'.y = c.y - (W + cfg.wallMargin + x) := by rw [g2]; simp
  have scr : (sc'.z - a.z) * d.y - (sc'.y - a.y) * d.z = B + cfg.baseMargin + x := by
    rw [g1]
    simp only [Vec.add_y, Vec.sub_y, Vec.mul_y, Vec.add_z, Vec.sub_z, Vec.mul_z]
    linear_combination (B + cfg.baseMargin + x) * d1
  have up3 : UprightLine ⟨c, ⟨0, 0, 1⟩⟩ := ⟨hc, rfl, by simp⟩
  have up4 : UprightLine ⟨sc' - ⟨0, 0, A + cfg.apexMargin⟩, ⟨0, 1, 0⟩⟩ := ⟨by simp [scx], rfl, by simp⟩
  have up5 : UprightLine ⟨sc' + (⟨0, -Real.cos cfg.taperAngle, -Real.sin cfg.taperAngle⟩ : Vec) * (T + cfg.taperMargin + y),
      ⟨0, -Real.sin cfg.taperAngle, Real.cos cfg.taperAngle⟩⟩ := ⟨by simp [scx], rfl, by simp only; linarith⟩
  have up6 : UprightLine ⟨a, d⟩ := ⟨ha, x1, d1⟩
  obtain ⟨p1, i9⟩ := upright_meets up3 up4 (by norm_num)
  obtain ⟨p2, i10⟩ := upright_meets up5 up4 (by simp only; nlinarith)
  obtain ⟨p3, i11⟩ := upright_meets up5 up6 (by
    simp only
    have : -Real.sin cfg.taperAngle * d.z - Real.cos cfg.taperAngle * d.y ≥ 1 / 200 := by
      nlinarith [mul_nonneg t0 dz, mul_nonneg t0 (by linarith : 0 ≤ -d.y - d.z)]
    nlinarith)
  refine bind_ex i9 (bind_ex i10 (bind_ex i11 ?_))
  obtain ⟨⟨v3, g3⟩, v4, g4⟩ := upright_intersect up3 up4 i9
  obtain ⟨⟨v5, g5⟩, v6, g6⟩ := upright_intersect up5 up4 i10
  obtain ⟨⟨v7, g7⟩, v8, g8⟩ := upright_intersect up5 up6 i11
  have q1 : p1.y = c.y := by rw [g3]; simp
  have q2 : p1.z = sc'.z - (A + cfg.apexMargin) := by rw [g4]; simp
  have q3 : p2.z = sc'.z - (A + cfg.apexMargin) := by rw [g6]; simp
  have q4 : (sc'.y - p2.y) * Real.cos cfg.taperAngle + (sc'.z - p2.z) * Real.sin cfg.taperAngle = T + cfg.taperMargin + y := by
    rw [g5]
    simp only [Vec.add_y, Vec.sub_y, Vec.mul_y, Vec.add_z, Vec.sub_z, Vec.mul_z]
    linear_combination (T + cfg.taperMargin + y) * sc
  have q5 : (sc'.y - p3.y) * Real.cos cfg.taperAngle + (sc'.z - p3.z) * Real.sin cfg.taperAngle = T + cfg.taperMargin + y := by
    rw [g7]
    simp only [Vec.add_y, Vec.sub_y, Vec.mul_y, Vec.add_z, Vec.sub_z, Vec.mul_z]
    linear_combination (T + cfg.taperMargin + y) * sc
  have q6 : (p3.z - a.z) * d.y - (p3.y - a.y) * d.z = 0 := by
    rw [g8]
    simp only [Vec.add_y, Vec.mul_y, Vec.add_z, Vec.mul_z]
    ring
  have cpos : 0 < Real.cos cfg.taperAngle := by linarith
  have Qn : 0 ≤ sc'.y - p2.y := by
    rw [q3] at q4
    have s1 : Real.sin cfg.taperAngle ≤ 1 := Real.sin_le_one _
    have := hs.apex
    have := hs.side
    have h5 : (A + cfg.apexMargin) * Real.sin cfg.taperAngle ≤ (A + cfg.apexMargin) * 1 := mul_le_mul_of_nonneg_left s1 (by linarith)
    have h6 : 0 ≤ (sc'.y - p2.y) * Real.cos cfg.taperAngle := by linarith
    by_contra hneg
    push Not at hneg
    have := mul_neg_of_neg_of_pos hneg cpos
    linarith
  have ne1 : p1.y - p2.y ≠ 0 := by
    have := hs.wall
    intro h
    linarith
  have ne2 : p3.z - p2.z ≠ 0 := by
    intro h
    have hz : p3.z = p2.z := by linarith
    have hy' : p3.y = p2.y := by
      rw [hz] at q5
      apply mul_right_cancel₀ cpos.ne'
      linarith
    rw [hz, hy', q3] at q6
    have := hs.base
    have := hs.apex
    have h7 : 0 ≤ (sc'.y - p2.y) * d.z := mul_nonneg Qn dz
    have h8 : 0 ≤ (A + cfg.apexMargin) * -d.y := mul_nonneg (by linarith) (by linarith)
    linarith
  obtain ⟨arc, i12⟩ := archCorner_exists (a := p1) (b := p2) (c := p3) hs.angle hs.height hs.corner hs.corner' (by
    rw [q2, q3, sub_self, zero_mul, sub_zero]
    rw [q3] at ne2
    exact mul_ne_zero ne1 ne2)
  exact ⟨_, bind_ok_of i12 rfl⟩

theorem cornerForward_exists {q : Quality} {taper : Option ℝ} {cfg : BracketCfg} {a b c : Vec} {x y : ℝ} (n : Bool) (hs : SaneBracket q cfg)
    (ht : ∀ t ∈ taper, t < Real.pi) (ha : a.x = 0) (hb : b.x = 0) (hc : c.x = 0)
    (hab : b.y < a.y) (h0 : 0 ≤ b.z - a.z) (h1 : b.z - a.z ≤ a.y - b.y) (hx : 0 ≤ x) (hy : 0 ≤ y) :
    ∃ k, cornerForward q taper cfg none a b c x y n = .ok k := by
  obtain ⟨s, h⟩ := cornerSketch_exists (c := c) hs ha hb hc hab h0 h1 hx hy
  obtain ⟨ps, l, r, h2⟩ := screwHole_exists hs ht s.screwCenter n false
  unfold cornerForward
  dsimp only
  refine bind_ex h ?_
  refine bind_ex (a := s.archLBG) (pyIndex_zero.mpr (by simp)) (bind_ex (a := s.archLFT) (pyIndex_last.mpr (by rw [List.getLast?_append]; simp)) (bind_ex (a := s.archLBG + ⟨cfg.holeLength + cfg.counterboreLength, 0, 0⟩)
    (pyIndex_zero.mpr (by simp [edgeTranslated])) (bind_ex (a := s.archLFT + ⟨cfg.holeLength + cfg.counterboreLength, 0, 0⟩) (pyIndex_last.mpr (by unfold edgeTranslated; rw [List.map_append, List.getLast?_append]; simp)) (bind_ex h2 ⟨_, rfl⟩))))

/-- C102. Corner brackets (without a ziptie) of sensible dimensions can be made below roofs that do not rise by more than 45 degrees from the wall. -/
theorem C102_corner_succeeds {q : Quality} {taper : Option ℝ} {cfg : BracketCfg} {a b c : Vec} (n : Bool) (hs : SaneBracket q cfg)
    (ht : ∀ t ∈ taper, t < Real.pi) (he : 0 ≤ cfg.backCornerExtraMargin) (h0 : a.z ≤ b.z) (h1 : b.z - a.z ≤ |b.y - a.y|) (hab : a.y ≠ b.y) :
    ∃ k, CornerBracket.make q taper cfg none a b c n = .ok k := by
  unfold CornerBracket.make
  dsimp only
  rcases lt_or_gt_of_ne hab with hlt | hlt
  · rw [if_pos (by simpa only [Vec.yz] using hlt)]
    rw [abs_of_pos (by linarith)] at h1
    obtain ⟨m, hm⟩ := cornerForward_exists (taper := taper) (x := 0) (y := 0) (a := a.yz.mirroredY) (b := b.yz.mirroredY) (c := c.yz.mirroredY) n hs ht rfl rfl rfl
      (by simp only [Vec.yz, Vec.mirroredY]; linarith) (by simp only [Vec.yz, Vec.mirroredY]; linarith) (by simp only [Vec.yz, Vec.mirroredY]; linarith) le_rfl le_rfl
    exact ⟨_, bind_ok_of hm rfl⟩
  · rw [if_neg (by simp only [Vec.yz]; linarith)]
    rw [abs_of_neg (by linarith)] at h1
    exact cornerForward_exists n hs ht rfl rfl rfl (by simpa only [Vec.yz] using hlt) (by simp only [Vec.yz]; linarith) (by simp only [Vec.yz]; linarith) he le_rfl

set_option maxHeartbeats 1000000 in
theorem floorSketch_exists {q : Quality} {cfg : BracketCfg} {g t : ℝ} (hs : SaneBracket q cfg) (hgt : t ≤ max cfg.counterboreDiameter cfg.nutAcrossFlats + cfg.baseMargin + cfg.apexMargin)
    (h1 : t + 1 / 1000000 ≤ g + (max cfg.counterboreDiameter cfg.nutAcrossFlats + cfg.baseMargin + cfg.apexMargin))
    (h2 : t + q.maxChordHeight / 2 ≤ g + (max cfg.counterboreDiameter cfg.nutAcrossFlats + cfg.baseMargin + cfg.apexMargin)) :
    ∃ r, floorSketch q cfg g t = .ok r := by
  have sc := Real.sin_sq_add_cos_sq cfg.taperAngle
  have t0 := hs.taper
  have t1 := hs.taper'
  have cpos : 0 < Real.cos cfg.taperAngle := by linarith
  have c2 : 1 / 1000000 ≤ Real.cos cfg.taperAngle ^ 2 := by nlinarith
  have s1 : Real.sin cfg.taperAngle < 1 := by linarith [Real.cos_le_one cfg.taperAngle]
  have hm : max cfg.counterboreDiameter cfg.nutAcrossFlats = 2 * max (cfg.counterboreDiameter / 2) (cfg.nutAcrossFlats / 2) := by
    rw [← mul_max_of_nonneg _ _ (by norm_num : (0 : ℝ) ≤ 2) |>.symm]
    congr 1 <;> ring
  rw [hm] at hgt h1 h2
  have hR : 0 < cfg.nutRadius := by unfold BracketCfg.nutRadius; have := hs.nut; positivity
  have hA : cfg.nutAcrossFlats / 2 = cfg.nutRadius * (Real.sqrt 3 / 2) := by unfold BracketCfg.nutRadius; field_simp
  have hT : max (cfg.counterboreDiameter / 2) (cfg.nutAcrossFlats / 2) ≤
      max (cfg.counterboreDiameter / 2) (hexTangentDist cfg.nutRadius (cfg.taperAngle - Real.pi / 2)) :=
    max_le_max le_rfl (by rw [hA]; exact hexTangentDist_ge hR.le)
  have hA0 : 0 < max (cfg.counterboreDiameter / 2) (cfg.nutAcrossFlats / 2) := lt_max_of_lt_left (by linarith [hs.bore])
  have hap := hs.apex
  have hsi := hs.side
  have hba := hs.base
  unfold floorSketch
  dsimp only
  generalize max (cfg.counterboreDiameter / 2) (hexTangentDist cfg.nutRadius (cfg.taperAngle - Real.pi / 2)) = T at *
  generalize max (cfg.counterboreDiameter / 2) (cfg.nutAcrossFlats / 2) = H at *
  rw [max_eq_left (by linarith : t ≤ H + cfg.baseMargin + (H + cfg.apexMargin))]
  obtain ⟨B, hB⟩ : ∃ B, B = H + cfg.baseMargin + (H + cfg.apexMargin) := ⟨_, rfl⟩
  rw [← hB]
  rw [line_self (by simp only [Vec.dot]; linarith), value_bind, line_self (by simp only [Vec.dot, Vec.mirroredY]; linarith), value_bind,
    line_self (d := (⟨0, 1, 0⟩ : Vec)) (by simp [Vec.dot]), value_bind, line_self (d := (⟨0, 1, 0⟩ : Vec)) (by simp [Vec.dot]), value_bind,
    line_self (d := (⟨0, 1, 0⟩ : Vec)) (by simp [Vec.dot]), value_bind]
  have lev : ∀ v : ℝ, UprightLine ⟨⟨0, 0, v⟩, ⟨0, 1, 0⟩⟩ := fun v => ⟨rfl, rfl, by simp⟩
  have upF : UprightLine ⟨⟨0, 0, g + (H + cfg.baseMargin)⟩ + (⟨0, -Real.cos cfg.taperAngle, Real.sin cfg.taperAngle⟩ : Vec) * (T + cfg.taperMargin),
    ⟨0, Real.sin cfg.taperAngle, Real.cos cfg.taperAngle⟩⟩ := ⟨by simp, rfl, by simp only; linarith⟩
  have upB : UprightLine ⟨((⟨0, 0, g + (H + cfg.baseMargin)⟩ + (⟨0, -Real.cos cfg.taperAngle, Real.sin cfg.taperAngle⟩ : Vec) * (T + cfg.taperMargin) : Vec)).mirroredY,
    (⟨0, Real.sin cfg.taperAngle, Real.cos cfg.taperAngle⟩ : Vec).mirroredY⟩ := ⟨by simp [Vec.mirroredY], rfl, by simp only [Vec.mirroredY]; linarith⟩
  obtain ⟨FG, i1⟩ := upright_meets upF (lev t) (by simp only; nlinarith)
  obtain ⟨FT, i2⟩ := upright_meets upF (lev (g + B)) (by simp only; nlinarith)
  obtain ⟨BT, i3⟩ := upright_meets upB (lev (g + B)) (by simp only [Vec.mirroredY]; nlinarith)
  obtain ⟨BG, i4⟩ := upright_meets upB (lev g) (by simp only [Vec.mirroredY]; nlinarith)
  obtain ⟨-, t2, e2⟩ := upright_intersect upF (lev t) i1
  obtain ⟨⟨t3, e3⟩, t4, e4⟩ := upright_intersect upF (lev (g + B)) i2
  obtain ⟨⟨t5, e5⟩, t6, e6⟩ := upright_intersect upB (lev (g + B)) i3
  obtain ⟨-, t8, e8⟩ := upright_intersect upB (lev g) i4
  have FGz : FG.z = t := by rw [e2]; simp
  have FTz : FT.z = g + B := by rw [e4]; simp
  have BTz : BT.z = g + B := by rw [e6]; simp
  have BGz : BG.z = g := by rw [e8]; simp
  have f1 : -FT.y * Real.cos cfg.taperAngle + (FT.z - (g + (H + cfg.baseMargin))) * Real.sin cfg.taperAngle = T + cfg.taperMargin := by
    rw [e3]
    simp
    linear_combination (T + cfg.taperMargin) * sc
  have f2 : BT.y * Real.cos cfg.taperAngle + (BT.z - (g + (H + cfg.baseMargin))) * Real.sin cfg.taperAngle = T + cfg.taperMargin := by
    rw [e5]
    simp [Vec.mirroredY]
    linear_combination (T + cfg.taperMargin) * sc
  have ne : BT.y - FT.y ≠ 0 := by
    intro h
    have h0 : (BT.y - FT.y) * Real.cos cfg.taperAngle = 0 := by rw [h, zero_mul]
    rw [FTz] at f1
    rw [BTz] at f2
    have h5 : (H + cfg.apexMargin) * Real.sin cfg.taperAngle < (H + cfg.apexMargin) * 1 := mul_lt_mul_of_pos_left s1 (by linarith)
    have h6 : (g + B - (g + (H + cfg.baseMargin))) * Real.sin cfg.taperAngle = (H + cfg.apexMargin) * Real.sin cfg.taperAngle := by rw [hB]; ring
    rw [h6] at f1 f2
    linarith
  refine ?_
  obtain ⟨cF, i5⟩ := archCorner_exists (r := min cfg.cornerRadius (g + B - t)) (a := BT) (b := FT) (c := FG) hs.angle hs.height
    (le_min hs.corner (by linarith)) (by rcases min_choice cfg.cornerRadius (g + B - t) with e | e <;> rw [e]; exact hs.corner'; linarith) (by
      rw [BTz, FTz, FGz, sub_self, zero_mul, sub_zero]
      exact mul_ne_zero ne (by intro h; linarith))
  obtain ⟨cB, i6⟩ := archCorner_exists (r := cfg.cornerRadius) (a := BG) (b := BT) (c := FT) hs.angle hs.height hs.corner hs.corner' (by
      rw [BTz, FTz, BGz, sub_self, mul_zero, zero_sub, neg_ne_zero]
      exact mul_ne_zero (by intro h; linarith) (by intro h; apply ne; linarith))
  refine bind_ex i1 (bind_ex i2 (bind_ex i3 (bind_ex i4 ?_)))
  rw [if_neg (by linarith)]
  exact ⟨_, bind_ok_of i5 (bind_ok_of i6 rfl)⟩

theorem floorForward_exists {q : Quality} {taper : Option ℝ} {cfg : BracketCfg} {a c d e : Vec} {x : ℝ} (n : Bool) (hs : SaneBracket q cfg)
    (ht : ∀ t ∈ taper, t < Real.pi) (hf : SaneFloorBracket q cfg a d) (hgt : d.z ≤ max cfg.counterboreDiameter cfg.nutAcrossFlats + cfg.baseMargin + cfg.apexMargin)
    (h1 : d.z + 1 / 1000000 ≤ a.z + (max cfg.counterboreDiameter cfg.nutAcrossFlats + cfg.baseMargin + cfg.apexMargin))
    (h2 : d.z + q.maxChordHeight / 2 ≤ a.z + (max cfg.counterboreDiameter cfg.nutAcrossFlats + cfg.baseMargin + cfg.apexMargin)) :
    ∃ k, floorForward q taper cfg a c d e x n = .ok k := by
  obtain ⟨⟨arch, z⟩, h⟩ := floorSketch_exists hs hgt h1 h2
  obtain ⟨-, g, f, ig, ih, -⟩ := floorSketch_ok h hf.quality hf.taper hf.corner hf.lip hf.foot
  obtain ⟨ps, l, r, h2⟩ := screwHole_exists hs ht ⟨0, floorCenterY cfg x d e f, z⟩ n true
  unfold floorForward
  dsimp only
  refine bind_ex h ?_
  refine bind_ex ih ?_
  refine bind_ex h2 ?_
  rw [pyIndex_zero] at ig
  rw [pyIndex_last] at ih
  refine bind_ex (a := f + (⟨0, floorCenterY cfg x d e f, z⟩ : Vec).xy) (pyIndex_last.mpr (by simp [edgeTranslated, ih])) ?_
  cases arch with
  | nil => simp at ig
  | cons w ws =>
    dsimp only
    by_cases hcl : (f + (⟨0, floorCenterY cfg x d e f, z⟩ : Vec).xy).isClose e
    · simp only [if_pos hcl]
      exact bind_ex (pyIndex_zero.mpr rfl) (bind_ex (pyIndex_zero.mpr rfl) ⟨_, rfl⟩)
    · simp only [if_neg hcl]
      exact bind_ex (pyIndex_zero.mpr rfl) (bind_ex (pyIndex_zero.mpr rfl) ⟨_, rfl⟩)

/-- C102. Floor brackets of sensible dimensions can be made if they are higher than the lip. -/
theorem C102_floor_succeeds {q : Quality} {taper : Option ℝ} {cfg : BracketCfg} {a b c d e : Vec} (n : Bool) (hs : SaneBracket q cfg)
    (ht : ∀ t ∈ taper, t < Real.pi) (hf : SaneFloorBracket q cfg a d) (hgt : d.z ≤ max cfg.counterboreDiameter cfg.nutAcrossFlats + cfg.baseMargin + cfg.apexMargin)
    (h1 : d.z + 1 / 1000000 ≤ a.z + (max cfg.counterboreDiameter cfg.nutAcrossFlats + cfg.baseMargin + cfg.apexMargin))
    (h2 : d.z + q.maxChordHeight / 2 ≤ a.z + (max cfg.counterboreDiameter cfg.nutAcrossFlats + cfg.baseMargin + cfg.apexMargin)) :
    ∃ k, FloorBracket.make q taper cfg a b c d e n = .ok k := by
  have hf' : SaneFloorBracket q cfg a.yz d.yz := ⟨hf.1, hf.2, hf.3, hf.4, hf.5, hf.6, hf.7, hf.8⟩
  have hf'' : SaneFloorBracket q cfg a.yz.mirroredY d.yz.mirroredY := ⟨hf.1, hf.2, hf.3, hf.4, hf.5, hf.6, hf.7, hf.8⟩
  unfold FloorBracket.make
  dsimp only
  by_cases hab : a.yz.y > b.yz.y
  · rw [if_pos hab]
    obtain ⟨m, hm⟩ := floorForward_exists (taper := taper) (x := 0) (c := c.yz.mirroredY) (e := e.yz.mirroredY) n hs ht hf'' hgt h1 h2
    exact ⟨_, bind_ok_of hm rfl⟩
  · rw [if_neg hab]
    exact floorForward_exists n hs ht hf' hgt h1 h2

/-! ### An example: the screws of `chrumm.json` -/

/-- The values of `chrumm.json`. -/
noncomputable def exBracket : BracketCfg :=
  { nutAcrossFlats := 57 / 10, counterboreDiameter := 59 / 10, counterboreLength := 27 / 10, holeDiameter := 33 / 10, holeLength := 18 / 10
    taperAngle := Real.pi / 6, taperMargin := 21 / 10, wallMargin := 5 / 10, baseMargin := 2 / 10, apexMargin := 87 / 100
    backCornerExtraMargin := 5 / 10, frontFloorExtraMargin := 0, cornerRadius := 15 / 10 }

theorem exBracket_sane : SaneBracket ⟨1 / 10, 1⟩ exBracket := by
  have h3 : (0.1 : ℝ) ≤ Real.sqrt 3 / 2 - 1 / 2 := by
    have : (1.7 : ℝ) ≤ Real.sqrt 3 := Real.le_sqrt_of_sq_le (by norm_num)
    linarith
  constructor <;> simp only [exBracket, Real.sin_pi_div_six, Real.cos_pi_div_six] <;> norm_num
  norm_num at h3
  linarith

/-- C102 for the bracket of the example below a roof that rises by one in five. -/
example : ∃ k center, CornerBracket.make ⟨1 / 10, 1⟩ (some (Real.pi / 4)) exBracket none ⟨0, 50, 20⟩ ⟨0, 0, 30⟩ ⟨0, 50, 0⟩ true = .ok k ∧
    CornerFits exBracket ⟨0, 50, 20⟩ ⟨0, 0, 30⟩ ⟨0, 50, 0⟩ (5 / 10) 0 true center k := by
  have hs := exBracket_sane
  obtain ⟨k, hk⟩ := C102_corner_succeeds (taper := some (Real.pi / 4)) (a := ⟨0, 50, 20⟩) (b := ⟨0, 0, 30⟩) (c := ⟨0, 50, 0⟩) true hs
    (by intro t ht; obtain rfl := Option.mem_some_iff.mp ht; linarith [Real.pi_pos]) (by norm_num [exBracket]) (by norm_num) (by norm_num) (by norm_num)
  obtain ⟨center, hc⟩ := C102_back hk (by norm_num) hs.angle hs.hole hs.bore hs.nut
  exact ⟨k, center, hk, hc⟩

theorem exBracket_floor : SaneFloorBracket ⟨1 / 10, 1⟩ exBracket ⟨0, 2, 1⟩ ⟨0, 1, 3⟩ := by
  have hs := exBracket_sane
  refine ⟨hs.angle, hs.hole, hs.bore, hs.nut, ?_, hs.corner, by norm_num, ?_⟩
  · linarith [hs.taper, hs.taper']
  · norm_num [exBracket]

/-- C102 for the floor bracket of the example, in front of which there is a lip that is 2 high and 1 thick. -/
example : ∃ k center, FloorBracket.make ⟨1 / 10, 1⟩ (some (Real.pi / 4)) exBracket ⟨0, 2, 1⟩ ⟨0, 50, 1⟩ ⟨0, 2, 1⟩ ⟨0, 1, 3⟩ ⟨0, 0, 3⟩ true = .ok k ∧
    FloorFits exBracket ⟨0, 2, 1⟩ ⟨0, 1, 3⟩ ⟨0, 0, 3⟩ 0 true center k := by
  have hs := exBracket_sane
  obtain ⟨k, hk⟩ := C102_floor_succeeds (taper := some (Real.pi / 4)) (b := ⟨0, 50, 1⟩) (c := ⟨0, 2, 1⟩) (e := ⟨0, 0, 3⟩) true hs
    (by intro t ht; obtain rfl := Option.mem_some_iff.mp ht; linarith [Real.pi_pos]) exBracket_floor (by norm_num [exBracket]) (by norm_num [exBracket]) (by norm_num [exBracket])
  obtain ⟨center, hc⟩ := (C102_floor hk exBracket_floor).1 (by norm_num)
  exact ⟨k, center, hk, hc⟩

end Chrumm.Part
