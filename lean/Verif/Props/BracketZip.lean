import Verif.Props.BracketRoof
import Verif.Props.Collisions

/-! Corner brackets that hold the ziptie of a cable: when they can be made, and how far they reach. -/

namespace Chrumm.Part
open Geo Geo.Spec Spec

/-- The lines of the sketch of a corner bracket. -/
structure SketchLines (q : Quality) (cfg : BracketCfg) (a b c : Vec) (x y : ℝ) (s : CornerSketch) (d : Vec) : Prop where
  unit : UnitOf d (b - a)
  flat : d.x = 0
  center_x : s.screwCenter.x = 0
  center_y : s.screwCenter.y = c.y - (max (cfg.counterboreDiameter / 2) cfg.nutRadius + cfg.wallMargin + x)
  center_z : (s.screwCenter.z - a.z) * d.y - (s.screwCenter.y - a.y) * d.z =
    max (cfg.counterboreDiameter / 2) (hexTangentDist cfg.nutRadius (angle2D ⟨-d.y, -d.z, 0⟩)) + cfg.baseMargin + x
  roof : s.roofLine = ⟨a, d⟩
  apex : s.apexLine = ⟨s.screwCenter - ⟨0, 0, max (cfg.counterboreDiameter / 2) (cfg.nutAcrossFlats / 2) + cfg.apexMargin⟩, ⟨0, 1, 0⟩⟩
  taperDir : s.taperDir = ⟨0, -Real.sin cfg.taperAngle, Real.cos cfg.taperAngle⟩
  taperOrtho : s.taperOrtho = ⟨0, -Real.cos cfg.taperAngle, -Real.sin cfg.taperAngle⟩
  taper : s.taperLine = ⟨s.screwCenter + s.taperOrtho * (max (cfg.counterboreDiameter / 2) (hexTangentDist cfg.nutRadius (cfg.taperAngle - Real.pi / 2)) +
    cfg.taperMargin + y), s.taperDir⟩
  bottom : s.archLBG = ⟨0, c.y, s.screwCenter.z - (max (cfg.counterboreDiameter / 2) (cfg.nutAcrossFlats / 2) + cfg.apexMargin)⟩
  arch : ∃ g, archCorner q cfg.cornerRadius s.archLBG g s.archLFT = .ok s.arcL ∧
    g.z = s.screwCenter.z - (max (cfg.counterboreDiameter / 2) (cfg.nutAcrossFlats / 2) + cfg.apexMargin) ∧
    (s.screwCenter.y - g.y) * Real.cos cfg.taperAngle + (s.screwCenter.z - g.z) * Real.sin cfg.taperAngle =
      max (cfg.counterboreDiameter / 2) (hexTangentDist cfg.nutRadius (cfg.taperAngle - Real.pi / 2)) + cfg.taperMargin + y
  top_x : s.archLFT.x = 0
  top_roof : (s.archLFT.y - a.y) * d.z - (s.archLFT.z - a.z) * d.y = 0
  top_taper : (s.screwCenter.y - s.archLFT.y) * Real.cos cfg.taperAngle + (s.screwCenter.z - s.archLFT.z) * Real.sin cfg.taperAngle =
    max (cfg.counterboreDiameter / 2) (hexTangentDist cfg.nutRadius (cfg.taperAngle - Real.pi / 2)) + cfg.taperMargin + y

theorem cornerSketch_lines {q : Quality} {cfg : BracketCfg} {a b c : Vec} {x y : ℝ} {s : CornerSketch}
    (h : cornerSketch q cfg a b c x y = .ok s) (ha : a.x = 0) (hb : b.x = 0) (hc : c.x = 0) : ∃ d, SketchLines q cfg a b c x y s d := by
  unfold cornerSketch at h
  dsimp only at h
  obtain ⟨d, i1, h⟩ := bind_ok h
  have u := normalized_unit i1
  have x1 := normalized_x i1 (by simp [ha, hb])
  have d1 : d.y ^ 2 + d.z ^ 2 = 1 := by
    have := u.1
    simp only [Vec.dot, x1] at this
    linarith
  have hu := Real.sin_sq_add_cos_sq cfg.taperAngle
  rw [line_self (d := (⟨0, 0, 1⟩ : Vec)) (by simp [Vec.dot]), value_bind, line_self (d := d) u.1, value_bind] at h
  obtain ⟨sc, i4, h⟩ := bind_ok h
  rw [line_self (d := (⟨0, 0, 1⟩ : Vec)) (by simp [Vec.dot]), value_bind, line_self (d := d) u.1, value_bind,
    line_self (d := (⟨0, 1, 0⟩ : Vec)) (by simp [Vec.dot]), value_bind, line_self (by simp only [Vec.dot]; linarith), value_bind] at h
  obtain ⟨p1, i9, h⟩ := bind_ok h
  obtain ⟨p2, i10, h⟩ := bind_ok h
  obtain ⟨p3, i11, h⟩ := bind_ok h
  obtain ⟨arc, i12, h⟩ := bind_ok h
  obtain rfl := Except.ok.inj h
  obtain ⟨⟨t1, e1⟩, t2, e2⟩ := upright_intersect (l := ⟨_, _⟩) (m := ⟨_, _⟩) ⟨by simp [ha], x1, d1⟩ ⟨by simp [hc], rfl, by simp⟩ i4
  have scx : sc.x = 0 := by rw [e2]; simp [hc]
  obtain ⟨⟨t3, e3⟩, t4, e4⟩ := upright_intersect (l := ⟨_, _⟩) (m := ⟨_, _⟩) ⟨hc, rfl, by simp⟩ ⟨by simp [scx], rfl, by simp⟩ i9
  obtain ⟨⟨t5, e5⟩, t6, e6⟩ := upright_intersect (l := ⟨_, _⟩) (m := ⟨_, _⟩) ⟨by simp [scx], rfl, by simp only; linarith⟩ ⟨ha, x1, d1⟩ i11
  obtain ⟨⟨t7, e7⟩, t8, e8⟩ := upright_intersect (l := ⟨_, _⟩) (m := ⟨_, _⟩) ⟨by simp [scx], rfl, by simp only; linarith⟩ ⟨by simp [scx], rfl, by simp⟩ i10
  refine ⟨d, u, x1, scx, ?_, ?_, rfl, rfl, rfl, rfl, rfl, ?_, ⟨p2, i12, ?_, ?_⟩, ?_, ?_, ?_⟩
  · dsimp only; rw [e2]; simp
  · dsimp only
    rw [e1]
    simp only [Vec.add_y, Vec.sub_y, Vec.mul_y, Vec.add_z, Vec.sub_z, Vec.mul_z]
    linear_combination (max (cfg.counterboreDiameter / 2) (hexTangentDist cfg.nutRadius (angle2D ⟨-d.y, -d.z, 0⟩)) + cfg.baseMargin + x) * d1
  · dsimp only
    ext
    · rw [e3]; simp [hc]
    · rw [e3]; simp
    · rw [e4]; simp
  · dsimp only; rw [e8]; simp
  · dsimp only
    rw [e7]
    simp only [Vec.add_y, Vec.sub_y, Vec.mul_y, Vec.add_z, Vec.sub_z, Vec.mul_z]
    linear_combination (max (cfg.counterboreDiameter / 2) (hexTangentDist cfg.nutRadius (cfg.taperAngle - Real.pi / 2)) + cfg.taperMargin + y) * hu
  · dsimp only; rw [e6]; simp [ha, x1]
  · dsimp only; rw [e6]; simp; ring
  · dsimp only
    rw [e5]
    simp only [Vec.add_y, Vec.sub_y, Vec.mul_y, Vec.add_z, Vec.sub_z, Vec.mul_z]
    linear_combination (max (cfg.counterboreDiameter / 2) (hexTangentDist cfg.nutRadius (cfg.taperAngle - Real.pi / 2)) + cfg.taperMargin + y) * hu

/-- A rounded corner between a level side and a rising one: it is not below the corner, and does not reach before it by more than the radius. -/
theorem archCorner_reach {q : Quality} {r : ℝ} {a b c : Vec} {pts : List Vec} (hr : 1 / 1000000 ≤ r) (hq : 0 < q.maxChordAngle)
    (ha : a.z = b.z) (hab : b.y < a.y) (hc : b.z < c.z) (h : archCorner q r a b c = .ok pts) :
    (∀ p ∈ pts, p.x = 0 ∧ b.z ≤ p.z ∧ b.y - r ≤ p.y) ∧ pts ≠ [] := by
  have hl := archCorner_level hr hq (.inr ⟨ha, hc⟩) h
  obtain ⟨p0, hp0, -⟩ := hl.2
  refine ⟨fun p hp => ⟨(hl.1 p hp).1, (hl.1 p hp).2, ?_⟩, by rintro rfl; simp at hp0⟩
  unfold archCorner at h
  obtain ⟨arc, h1, h⟩ := bind_ok h
  obtain rfl := Except.ok.inj h
  obtain ⟨u, w, m, D, hD, ⟨u1, k, hk, ue⟩, ⟨w1, j, hj, we⟩, hh, hla, o1, o2, hc'⟩ := C54_tangent hr hq h1
  have ux := congrArg Vec.x ue
  have uy := congrArg Vec.y ue
  have uz := congrArg Vec.z ue
  simp only [Vec.xy, Vec.sub_x, Vec.sub_y, Vec.sub_z, Vec.mul_x, Vec.mul_y, Vec.mul_z] at ux uy uz
  have uz' : u.z = 0 := by rcases mul_eq_zero.mp uz.symm with h | h; exact h; exact absurd h hk.ne'
  have uy' : u.y = 0 := by
    have : u.y * k = 0 := by linarith
    rcases mul_eq_zero.mp this with h | h; exact h; exact absurd h hk.ne'
  have ux' : 0 < u.x := by
    have : 0 < u.x * k := by linarith
    exact (mul_pos_iff_of_pos_right hk).mp this
  simp only [Vec.dot, Vec.xy, Vec.sub_x, Vec.sub_y, Vec.sub_z, Vec.add_x, Vec.add_y, Vec.add_z, Vec.mul_x, Vec.mul_y, Vec.mul_z, uz', uy'] at o1
  have hm : m.x = b.y + u.x * D := by
    have : (b.y + u.x * D - m.x) * u.x = 0 := by linarith
    rcases mul_eq_zero.mp this with h | h
    · linarith
    · exact absurd h ux'.ne'
  obtain ⟨v, hv, rfl⟩ := List.mem_map.mp hp
  have := (hc' v hv).1.2
  simp only [distSq2D] at this
  have h2 : (m.x - v.x) ^ 2 ≤ r ^ 2 := by nlinarith [sq_nonneg (m.y - v.y)]
  have h3 := (abs_le.mp (abs_le_of_sq_le_sq h2 (by linarith))).2
  have := mul_pos ux' hD
  dsimp only
  linarith

/-- The line is in the split plane. -/
theorem upright_line {p d : Vec} (h1 : p.x = 0) (h2 : d.x = 0) (h3 : d.y ^ 2 + d.z ^ 2 = 1) : UprightLine ⟨p, d⟩ := ⟨h1, h2, h3⟩

theorem taper_det {s c : ℝ} {d : Vec} (h0 : 0 ≤ s) (h1 : s + 1 / 100 ≤ c) (h2 : d.y ≤ -1 / 2) (h3 : 0 ≤ d.z) (h4 : d.z ≤ -d.y) :
    s * d.z + 1 / 200 ≤ c * -d.y := by
  nlinarith [mul_nonneg h0 h3, mul_nonneg h0 (by linarith : 0 ≤ -d.y - d.z)]

theorem taper_up {u w e z s c K B : ℝ} (hc : 0 < c) (h : s * z + 1 / 200 ≤ c * e) (hz : 0 ≤ z) (h1 : u * c - w * s = K) (h2 : w * e = u * z + B)
    (hK : 0 ≤ K) (hB : 0 ≤ B) : 0 ≤ w := by
  have : w * (c * e - s * z) = K * z + B * c := by linear_combination c * h2 + z * h1
  have h3 : 0 ≤ K * z + B * c := by positivity
  rw [← this] at h3
  exact nonneg_of_mul_nonneg_left h3 (by linarith)

set_option maxHeartbeats 1000000 in
/-- The hump, if there is room for the cable between it and the bump; otherwise, the generation fails. -/
theorem zipHump_cases {q : Quality} {cfg : BracketCfg} {cable : CableCfg} {a b c d : Vec} {x : ℝ} {s : CornerSketch} (hs : SaneBracket q cfg)
    (hz : SaneZip q cfg cable) (ha : a.x = 0) (hx : 0 ≤ x) (hab : d.y ≤ -1 / 2) (h0 : 0 ≤ d.z) (h1 : d.z ≤ -d.y)
    (hl : SketchLines q cfg a b c x cable.bracketInset s d) :
    (¬ CableRoom cfg cable x → zipHump q cfg cable s = .error .valueError) ∧
    (CableRoom cfg cable x → ∃ l t g, zipHump q cfg cable s = .ok (l, t, g) ∧ l ≠ [] ∧ t.x = 0 ∧ g.x = 0 ∧
      (∀ p ∈ l, p.x = 0 ∧ s.archLBG.z - cable.gripHumpHeight ≤ p.z)) := by
  have sc := Real.sin_sq_add_cos_sq cfg.taperAngle
  have t0 := hs.taper
  have t1 := hs.taper'
  have cpos : 0 < Real.cos cfg.taperAngle := by linarith
  have c2 : 1 / 1000000 ≤ Real.cos cfg.taperAngle ^ 2 := by nlinarith
  have u1 : d.dot d = 1 := hl.unit.1
  have d1 : d.y ^ 2 + d.z ^ 2 = 1 := by
    have := u1
    simp only [Vec.dot, hl.flat] at this
    linarith
  have td : s.taperDir.dot s.taperDir = 1 := by rw [hl.taperDir]; simp only [Vec.dot]; linarith
  have cx := hl.center_x
  unfold zipHump
  dsimp only
  unfold Line.translated
  rw [hl.taper, hl.apex, hl.roof]
  dsimp only
  rw [line_self td, value_bind, line_self (d := (⟨0, 1, 0⟩ : Vec)) (by simp [Vec.dot]), value_bind]
  have ey := hl.center_y
  have ez := hl.center_z
  have eb := hl.bottom
  have B0 : 0 < max (cfg.counterboreDiameter / 2) (hexTangentDist cfg.nutRadius (angle2D ⟨-d.y, -d.z, 0⟩)) := lt_max_of_lt_left (by linarith [hs.bore])
  have A0 : 1 / 1000 ≤ max (cfg.counterboreDiameter / 2) (cfg.nutAcrossFlats / 2) := le_max_of_le_left (by linarith [hz.bore])
  have T0 : 0 < max (cfg.counterboreDiameter / 2) (hexTangentDist cfg.nutRadius (cfg.taperAngle - Real.pi / 2)) := lt_max_of_lt_left (by linarith [hs.bore])
  unfold CableRoom
  dsimp only
  generalize max (cfg.counterboreDiameter / 2) (hexTangentDist cfg.nutRadius (cfg.taperAngle - Real.pi / 2)) = T at *
  generalize max (cfg.counterboreDiameter / 2) (cfg.nutAcrossFlats / 2) = A at *
  generalize max (cfg.counterboreDiameter / 2) cfg.nutRadius = W at *
  generalize max (cfg.counterboreDiameter / 2) (hexTangentDist cfg.nutRadius (angle2D ⟨-d.y, -d.z, 0⟩)) = B at *
  rw [hl.taperDir, hl.taperOrtho, eb]
  generalize s.screwCenter = S at *
  dsimp only
  have flat := hl.flat
  clear hl
  have hR := hz.bend
  have hR' := hz.bend'
  have hg := hz.grip
  have hg' := hz.grip'
  have up1 : UprightLine ⟨S + (⟨0, -Real.cos cfg.taperAngle, -Real.sin cfg.taperAngle⟩ : Vec) * (T + cfg.taperMargin + cable.bracketInset) +
      (⟨0, -Real.cos cfg.taperAngle, -Real.sin cfg.taperAngle⟩ : Vec) * (cable.ziptieHeight + cfg.taperMargin - cable.minBendRadius),
      ⟨0, -Real.sin cfg.taperAngle, Real.cos cfg.taperAngle⟩⟩ := ⟨by simp [cx], rfl, by simp only; linarith⟩
  have up2 : UprightLine ⟨S - ⟨0, 0, A + cfg.apexMargin⟩ + ⟨0, 0, cable.minBendRadius - cable.gripHumpHeight⟩, ⟨0, 1, 0⟩⟩ := ⟨by simp [cx], rfl, by simp⟩
  obtain ⟨hc, i1⟩ := upright_meets up1 up2 (by simp only; nlinarith)
  obtain ⟨⟨v1, g1⟩, v2, g2⟩ := upright_intersect up1 up2 i1
  rw [i1, value_bind]
  have hcx : hc.x = 0 := by rw [g2]; simp [cx]
  have hcz : hc.z = S.z - (A + cfg.apexMargin) + (cable.minBendRadius - cable.gripHumpHeight) := by rw [g2]; simp
  have hct : (S.y - hc.y) * Real.cos cfg.taperAngle + (S.z - hc.z) * Real.sin cfg.taperAngle =
      T + cfg.taperMargin + cable.bracketInset + cable.ziptieHeight + cfg.taperMargin - cable.minBendRadius := by
    rw [g1]
    simp only [Vec.add_y, Vec.sub_y, Vec.mul_y, Vec.add_z, Vec.sub_z, Vec.mul_z]
    linear_combination (T + cfg.taperMargin + cable.bracketInset + cable.ziptieHeight + cfg.taperMargin - cable.minBendRadius) * sc
  have hcy : c.y - hc.y = W + cfg.wallMargin + x + (T + cfg.taperMargin + cable.bracketInset + cable.ziptieHeight + cfg.taperMargin - cable.minBendRadius -
      (A + cfg.apexMargin + cable.gripHumpHeight - cable.minBendRadius) * Real.sin cfg.taperAngle) / Real.cos cfg.taperAngle := by
    rw [← hct, hcz]
    field_simp
    linear_combination Real.cos cfg.taperAngle * (-1) * ey
  rw [← hcy]
  have mag : (hc - ((⟨0, c.y, S.z - (A + cfg.apexMargin)⟩ : Vec) - ⟨0, 0, cable.diameter + cable.minBendRadius⟩)).magnitude =
      Real.sqrt ((cable.diameter + 2 * cable.minBendRadius - cable.gripHumpHeight) ^ 2 + (c.y - hc.y) ^ 2) := by
    unfold Vec.magnitude
    congr 1
    simp only [Vec.sub_x, Vec.sub_y, Vec.sub_z, hcx, hcz]
    ring
  rw [mag]
  have pos : 0 ≤ cable.diameter + 2 * cable.minBendRadius := by linarith [hz.diameter]
  have key : (cable.diameter > Real.sqrt ((cable.diameter + 2 * cable.minBendRadius - cable.gripHumpHeight) ^ 2 + (c.y - hc.y) ^ 2) - 2 * cable.minBendRadius) ↔
      ¬ (cable.diameter + 2 * cable.minBendRadius) ^ 2 ≤ (cable.diameter + 2 * cable.minBendRadius - cable.gripHumpHeight) ^ 2 + (c.y - hc.y) ^ 2 := by
    rw [← Real.le_sqrt pos (by positivity), gt_iff_lt, not_le]
    constructor <;> intro h <;> linarith
  constructor
  · intro hno
    rw [if_pos (key.mpr hno)]
  · intro hroom
    rw [if_neg (by rw [key]; exact not_not.mpr hroom)]
    have hR0 : cable.minBendRadius ≠ 0 := by linarith
    have r1 : ¬ ((cable.minBendRadius - cable.gripHumpHeight) / cable.minBendRadius < -1 ∨ 1 < (cable.minBendRadius - cable.gripHumpHeight) / cable.minBendRadius) := by
      rw [div_lt_iff₀ (by linarith), lt_div_iff₀ (by linarith)]
      push Not
      constructor <;> linarith
    rw [show pyDiv (cable.minBendRadius - cable.gripHumpHeight) cable.minBendRadius = .ok ((cable.minBendRadius - cable.gripHumpHeight) / cable.minBendRadius) by
      unfold pyDiv; rw [if_neg hR0], value_bind]
    unfold pyAsin
    rw [if_neg r1, value_bind]
    have pi := Real.pi_pos
    obtain ⟨arc, i2⟩ := arc_exists (q := q) (radius := cable.minBendRadius) (start := cfg.taperAngle) (center := 0)
      (span := Real.pi - cfg.taperAngle - max (Real.arcsin ((cable.minBendRadius - cable.gripHumpHeight) / cable.minBendRadius)) cfg.taperAngle)
      hs.angle hs.height hR hR' (by
        have := Real.arcsin_le_pi_div_two ((cable.minBendRadius - cable.gripHumpHeight) / cable.minBendRadius)
        have : max (Real.arcsin ((cable.minBendRadius - cable.gripHumpHeight) / cable.minBendRadius)) cfg.taperAngle ≤ Real.pi / 2 := max_le this hz.taper'.le
        have := hz.taper'
        intro h
        linarith)
    have a1 := (C53_ends hR hs.angle i2).1
    have a2 := C53_on_circle hR hs.angle i2
    rw [i2, value_bind]
    have e0 : pyIndex (arc.map fun p => ((⟨0, -p.x, -p.y⟩ : Vec) + hc)) 0 =
        .ok (⟨0, hc.y - cable.minBendRadius * Real.cos cfg.taperAngle, hc.z - cable.minBendRadius * Real.sin cfg.taperAngle⟩ : Vec) := by
      refine pyIndex_zero.mpr ?_
      rw [← List.head?_eq_getElem?, List.head?_map, a1]
      simp only [Option.map_some, Option.some.injEq, circlePoint]
      ext <;> simp [hcx] <;> ring
    have na : (arc.map fun p => ((⟨0, -p.x, -p.y⟩ : Vec) + hc)) ≠ [] := by
      intro h
      rw [h] at e0
      exact absurd (pyIndex_zero.mp e0) (by simp)
    obtain ⟨hl1, e1⟩ := (index_some na).2
    have m1 : hl1 ∈ (arc.map fun p => ((⟨0, -p.x, -p.y⟩ : Vec) + hc)) := List.mem_of_getLast? (pyIndex_last.mp e1)
    have arcs : ∀ p ∈ (arc.map fun p => ((⟨0, -p.x, -p.y⟩ : Vec) + hc)), p.x = 0 ∧ S.z - (A + cfg.apexMargin) - cable.gripHumpHeight ≤ p.z := by
      intro p hp
      obtain ⟨v, hv, rfl⟩ := List.mem_map.mp hp
      have := (a2 v hv).2
      simp only [distSq2D, Vec.zero_x, Vec.zero_y] at this
      have h2 : v.y ^ 2 ≤ cable.minBendRadius ^ 2 := by nlinarith [sq_nonneg (0 - v.x)]
      have h3 := (abs_le.mp (abs_le_of_sq_le_sq h2 (by linarith))).2
      simp only [Vec.add_x, Vec.add_z, hcx, hcz]
      constructor <;> linarith
    rw [e0, value_bind, e1, value_bind]
    rw [line_self (d := (⟨0, -Real.sin cfg.taperAngle, Real.cos cfg.taperAngle⟩ : Vec)) (by simp only [Vec.dot]; linarith), value_bind,
      line_self (d := (⟨0, -Real.sin cfg.taperAngle, Real.cos cfg.taperAngle⟩ : Vec).mirroredY) (by simp only [Vec.dot, Vec.mirroredY]; linarith), value_bind,
      line_self (d := (⟨0, 1, 0⟩ : Vec)) (by simp [Vec.dot]), value_bind]
    have upF : UprightLine ⟨⟨0, hc.y - cable.minBendRadius * Real.cos cfg.taperAngle, hc.z - cable.minBendRadius * Real.sin cfg.taperAngle⟩,
      ⟨0, -Real.sin cfg.taperAngle, Real.cos cfg.taperAngle⟩⟩ := ⟨rfl, rfl, by simp only; linarith⟩
    have upR : UprightLine ⟨a, d⟩ := ⟨ha, flat, d1⟩
    have upB : UprightLine ⟨hl1, (⟨0, -Real.sin cfg.taperAngle, Real.cos cfg.taperAngle⟩ : Vec).mirroredY⟩ := ⟨(arcs _ m1).1, rfl, by simp only [Vec.mirroredY]; linarith⟩
    have upA : UprightLine ⟨S - ⟨0, 0, A + cfg.apexMargin⟩, ⟨0, 1, 0⟩⟩ := ⟨by simp [cx], rfl, by simp⟩
    have upG : UprightLine ⟨S - ⟨0, 0, A + cfg.apexMargin⟩ - ⟨0, 0, cable.gripHumpHeight⟩, ⟨0, 1, 0⟩⟩ := ⟨by simp [cx], rfl, by simp⟩
    have det : Real.sin cfg.taperAngle * d.z + 1 / 200 ≤ Real.cos cfg.taperAngle * -d.y :=
       taper_det t0 t1 hab h0 h1
    obtain ⟨lt, i3⟩ := upright_meets upF upR (by
      have : 1 / 200 ≤ -Real.sin cfg.taperAngle * d.z - Real.cos cfg.taperAngle * d.y := by linarith
      simp only
      exact (by norm_num : (1 / 1000000 : ℝ) ≤ (1 / 200) ^ 2).trans (pow_le_pow_left₀ (by norm_num) this 2))
    obtain ⟨lb, i4⟩ := upright_meets upB upA (by simpa [Vec.mirroredY] using c2)
    obtain ⟨lg, i5⟩ := upright_meets upG upF (by simpa using c2)
    obtain ⟨⟨w1, k1⟩, w2, k2⟩ := upright_intersect upF upR i3
    obtain ⟨-, w3, k3⟩ := upright_intersect upB upA i4
    obtain ⟨⟨w4, k4⟩, -⟩ := upright_intersect upG upF i5
    have ltx : lt.x = 0 := by rw [k1]; simp
    have lbx : lb.x = 0 := by rw [k3]; simp [cx]
    have lbz : lb.z = S.z - (A + cfg.apexMargin) := by rw [k3]; simp
    have lgx : lg.x = 0 := by rw [k4]; simp [cx]
    have t1' : (S.y - lt.y) * Real.cos cfg.taperAngle - (lt.z - S.z) * Real.sin cfg.taperAngle =
        T + cfg.taperMargin + cable.bracketInset + cable.ziptieHeight + cfg.taperMargin := by
      rw [k1]
      simp only [Vec.add_y, Vec.add_z, Vec.mul_y, Vec.mul_z]
      linear_combination hct + cable.minBendRadius * sc
    have t2' : (lt.z - S.z) * -d.y = (S.y - lt.y) * d.z + (B + cfg.baseMargin + x) := by
      rw [k2]
      simp only [Vec.add_y, Vec.add_z, Vec.mul_y, Vec.mul_z]
      linear_combination ez
    have ltz : S.z ≤ lt.z := by
      have := hs.apex
      have := hs.side
      have := hs.base
      have := taper_up cpos det h0 t1' t2' (by linarith [hz.inset, hz.zip]) (by linarith)
      linarith
    have n0 : lt :: ((arc.map fun p => ((⟨0, -p.x, -p.y⟩ : Vec) + hc)) ++ [lb]) = [lt] ++ (arc.map fun p => ((⟨0, -p.x, -p.y⟩ : Vec) + hc)) ++ [lb] := by simp
    refine ⟨_, _, _, by rw [i3, value_bind, i4, value_bind, i5, value_bind]; rfl, ?_, ltx, lgx, ?_⟩
    · rw [← n0]
      refine (collapsed_last (apart_z ?_)).1
      rw [abs_of_pos (by linarith [hs.apex])]
      linarith [hs.apex]
    · intro p hp
      have hp := (C35_subsequence _ _).1.subset hp
      rw [← n0, List.mem_cons, List.mem_append, List.mem_singleton] at hp
      rcases hp with rfl | hp | rfl
      · exact ⟨ltx, by linarith [hs.apex]⟩
      · exact arcs p hp
      · exact ⟨lbx, by linarith⟩

theorem archCorner_ne {q : Quality} {r : ℝ} {a b c : Vec} {pts : List Vec} (hr : 1 / 1000000 ≤ r) (hq : 0 < q.maxChordAngle)
    (h : archCorner q r a b c = .ok pts) : pts ≠ [] := by
  unfold archCorner at h
  obtain ⟨arc, h1, h⟩ := bind_ok h
  obtain rfl := Except.ok.inj h
  obtain ⟨u, w, m, D, hD, -, -, hh, -⟩ := C54_tangent hr hq h1
  intro h
  rw [List.map_eq_nil_iff] at h
  rw [h] at hh
  simp at hh

/-- The direction of a roof that does not rise by more than 45 degrees. -/
theorem roof_dir {a b d : Vec} (hd : UnitOf d (b - a)) (hx : d.x = 0) (hab : b.y < a.y) (h0 : 0 ≤ b.z - a.z) (h1 : b.z - a.z ≤ a.y - b.y) :
    d.y ≤ -1 / 2 ∧ 0 ≤ d.z ∧ d.z ≤ -d.y := by
  obtain ⟨u1, k, hk, e⟩ := hd
  have ey := congrArg Vec.y e
  have ez := congrArg Vec.z e
  simp only [Vec.sub_y, Vec.sub_z, Vec.mul_y, Vec.mul_z] at ey ez
  simp only [Vec.dot, hx] at u1
  have dy : d.y < 0 := by
    by_contra hneg
    have := mul_nonneg (not_lt.mp hneg) hk.le
    linarith
  have dz : 0 ≤ d.z := by
    by_contra hneg
    have := mul_neg_of_neg_of_pos (not_le.mp hneg) hk
    linarith
  have dyz : d.z ≤ -d.y := by
    by_contra hneg
    have : 0 < (d.y + d.z) * k := mul_pos (by linarith) hk
    linarith
  refine ⟨?_, dz, dyz⟩
  have : 1 / 2 ≤ d.y ^ 2 := by nlinarith
  nlinarith

theorem zipHole_exists {q : Quality} {cfg : BracketCfg} {cable : CableCfg} {s : CornerSketch} (t g : Vec) (hs : SaneBracket q cfg)
    (hz : SaneZip q cfg cable) (ha : s.arcL ≠ []) : ∃ l, zipHole q cfg cable s t g = .ok l ∧ l ≠ [] := by
  unfold zipHole
  dsimp only
  obtain ⟨arc, i1⟩ := arc_exists (q := q) (radius := cable.ziptieHeight / 2) (start := 0) (span := -Real.pi)
    (center := ⟨0, cable.ziptieHeight / 2 - cable.ziptieWidth / 2, 0⟩) hs.angle hs.height (by linarith [hz.zip]) (by linarith [hz.zip']) (by linarith [Real.pi_pos])
  have a1 := (C53_ends (by linarith [hz.zip]) hs.angle i1).1
  have n1 : arc ≠ [] := by rintro rfl; simp at a1
  rw [i1, value_bind]
  have n2 : edgeTransformed arc ((1 : Mat).rotatedZ cfg.taperAngle) ≠ [] := by simpa [edgeTransformed] using n1
  generalize edgeTransformed arc ((1 : Mat).rotatedZ cfg.taperAngle) = half at *
  have n3 : ((half ++ (half.map Vec.mirroredX).map Vec.mirroredY).map fun p => ((⟨0, p.x, p.y⟩ : Vec) + (t * (4 / 10 : ℝ) + g * (6 / 10 : ℝ) -
      s.taperOrtho * (cable.ziptieHeight / 2 + cfg.taperMargin)))) ≠ [] := by simpa using n2
  generalize ((half ++ (half.map Vec.mirroredX).map Vec.mirroredY).map fun p => ((⟨0, p.x, p.y⟩ : Vec) + (t * (4 / 10 : ℝ) + g * (6 / 10 : ℝ) -
      s.taperOrtho * (cable.ziptieHeight / 2 + cfg.taperMargin)))) = l at *
  obtain ⟨z0, e0⟩ := (index_some n3).1
  obtain ⟨a1, e1⟩ := (index_some ha).2
  rw [e0, value_bind, e1, value_bind]
  refine ⟨_, rfl, ?_⟩
  split_ifs
  · simpa [edgeTranslated] using n3
  · exact n3

set_option maxHeartbeats 1000000 in
/-- A corner bracket with a ziptie can be made if and only if there is room for the cable. -/
theorem cornerForward_zip {q : Quality} {taper : Option ℝ} {cfg : BracketCfg} {cable : CableCfg} {a b c : Vec} {x : ℝ} (n : Bool) (hs : SaneBracket q cfg)
    (hz : SaneZip q cfg cable) (ht : ∀ t ∈ taper, t < Real.pi) (ha : a.x = 0) (hb : b.x = 0) (hc : c.x = 0)
    (hab : b.y < a.y) (h0 : 0 ≤ b.z - a.z) (h1 : b.z - a.z ≤ a.y - b.y) (hx : 0 ≤ x) :
    (¬ CableRoom cfg cable x → cornerForward q taper cfg (some cable) a b c x cable.bracketInset n = .error .valueError) ∧
    (CableRoom cfg cable x → ∃ k, cornerForward q taper cfg (some cable) a b c x cable.bracketInset n = .ok k) := by
  obtain ⟨s, h⟩ := cornerSketch_exists (c := c) hs ha hb hc hab h0 h1 hx hz.inset
  obtain ⟨d, hl⟩ := cornerSketch_lines h ha hb hc
  obtain ⟨ps, l, r, h2⟩ := screwHole_exists hs ht s.screwCenter n false
  obtain ⟨d1, d2, d3⟩ := roof_dir hl.unit hl.flat hab h0 h1
  obtain ⟨c1, c2⟩ := zipHump_cases hs hz ha hx d1 d2 d3 hl
  obtain ⟨g, hg, -⟩ := hl.arch
  have ha' := archCorner_ne hs.corner hs.angle hg
  unfold cornerForward
  dsimp only
  rw [h, value_bind]
  have e1 : pyIndex ([s.archLBG] ++ s.arcL ++ [s.archLFT]) 0 = .ok s.archLBG := pyIndex_zero.mpr (by simp)
  have e2 : pyIndex ([s.archLBG] ++ s.arcL ++ [s.archLFT]) (-1) = .ok s.archLFT := pyIndex_last.mpr (by rw [List.getLast?_append]; simp)
  obtain ⟨m3, e3⟩ := (index_some (l := edgeTranslated ([s.archLBG] ++ s.arcL ++ [s.archLFT]) ⟨cfg.holeLength + cfg.counterboreLength, 0, 0⟩) (by simp [edgeTranslated])).1
  obtain ⟨m4, e4⟩ := (index_some (l := edgeTranslated ([s.archLBG] ++ s.arcL ++ [s.archLFT]) ⟨cfg.holeLength + cfg.counterboreLength, 0, 0⟩) (by simp [edgeTranslated])).2
  rw [e1, value_bind, e2, value_bind, e3, value_bind, e4, value_bind, h2, value_bind]
  dsimp only
  unfold cornerFinish cornerZip
  dsimp only
  constructor
  · intro hno
    rw [c1 hno]
    rfl
  · intro hroom
    obtain ⟨hL, t, g', i1, nL, -⟩ := c2 hroom
    obtain ⟨z, i2, nz⟩ := zipHole_exists t g' hs hz ha'
    rw [i1, value_bind]
    dsimp only
    rw [i2, value_bind, e1, value_bind]
    have nR : edgeTranslated hL ⟨cable.gripHumpWidth / 2, 0, 0⟩ ≠ [] := by simpa [edgeTranslated] using nL
    have nz' : edgeTranslated z ⟨cable.gripHumpWidth / 2, 0, 0⟩ ≠ [] := by simpa [edgeTranslated] using nz
    obtain ⟨x1, f1⟩ := (index_some nL).1
    obtain ⟨x2, f2⟩ := (index_some nL).2
    obtain ⟨x3, f3⟩ := (index_some nR).1
    obtain ⟨x4, f4⟩ := (index_some nR).2
    obtain ⟨x5, f5⟩ := (index_some nz').1
    obtain ⟨x6, f6⟩ := (index_some nz').2
    obtain ⟨x7, f7⟩ := (index_some (by simp : s.archLBG :: edgeTranslated ([s.archLBG] ++ s.arcL ++ [s.archLFT]) ⟨cfg.holeLength + cfg.counterboreLength, 0, 0⟩ ≠ [])).2
    rw [f1, value_bind, f2, value_bind, f3, value_bind, f4, value_bind, f5, value_bind, f6, value_bind, f7]
    exact ⟨_, rfl⟩

/-- **C102** The bracket at the back wall, with a ziptie for a cable, can be made below roofs that do not rise by more than 45 degrees if there is room for the cable; if not, a
`ValueError` tells so. -/
theorem C102_zip {q : Quality} {taper : Option ℝ} {cfg : BracketCfg} {cable : CableCfg} {a b c : Vec} (n : Bool) (hs : SaneBracket q cfg)
    (hz : SaneZip q cfg cable) (ht : ∀ t ∈ taper, t < Real.pi) (he : 0 ≤ cfg.backCornerExtraMargin) (hab : b.y < a.y) (h0 : a.z ≤ b.z) (h1 : b.z - a.z ≤ a.y - b.y) :
    (CableRoom cfg cable cfg.backCornerExtraMargin → ∃ k, CornerBracket.make q taper cfg (some cable) a b c n = .ok k) ∧
    (¬ CableRoom cfg cable cfg.backCornerExtraMargin → CornerBracket.make q taper cfg (some cable) a b c n = .error .valueError) := by
  unfold CornerBracket.make
  dsimp only
  rw [if_neg (by simp only [Vec.yz]; linarith)]
  obtain ⟨c1, c2⟩ := cornerForward_zip (c := c.yz) (a := a.yz) (b := b.yz) n hs hz ht rfl rfl rfl hab (by simp only [Vec.yz]; linarith) h1 he
  exact ⟨c2, c1⟩

theorem hexTangentDist_le {R t : ℝ} (hR : 0 ≤ R) : hexTangentDist R t ≤ R := by
  unfold hexTangentDist
  have := mul_le_mul_of_nonneg_left (Real.cos_le_one (pyMod |t| (Real.pi / 3) - Real.pi / 6)) hR
  linarith

/-- There is room for the cable of the example. -/
theorem exCable_room {h : ℝ} (hh : 9 / 5 ≤ h) : CableRoom exBracket { exampleCable with ziptieHeight := h } (5 / 10) := by
  unfold CableRoom
  simp only [exBracket, exampleCable, Real.sin_pi_div_six, Real.cos_pi_div_six]
  have e1 : (59 / 10 / 2 : ℝ) ≤ max (59 / 10 / 2) (BracketCfg.nutRadius exBracket) := le_max_left _ _
  have e2 : (59 / 10 / 2 : ℝ) ≤ max (59 / 10 / 2) (hexTangentDist (BracketCfg.nutRadius exBracket) (Real.pi / 6 - Real.pi / 2)) := le_max_left _ _
  have e3 : (max (59 / 10 / 2) (57 / 10 / 2) : ℝ) = 59 / 20 := by norm_num
  unfold exBracket at e1 e2
  rw [e3]
  generalize max (59 / 10 / 2 : ℝ) (BracketCfg.nutRadius _) = u at *
  generalize max (59 / 10 / 2 : ℝ) (hexTangentDist _ _) = v at *
  have h3 : Real.sqrt 3 / 2 ≤ 7 / 8 := by
    have : Real.sqrt 3 ≤ 7 / 4 := Real.sqrt_le_iff.mpr ⟨by norm_num, by norm_num⟩
    linarith
  have h4 : 0 < Real.sqrt 3 / 2 := by positivity
  have h5 : 4 ≤ (v + 21 / 10 + 3 / 5 + h + 21 / 10 - 4 - (59 / 20 + 87 / 100 + 3 - 4) * (1 / 2)) / (Real.sqrt 3 / 2) := by
    rw [le_div_iff₀ h4]
    linarith
  nlinarith

theorem exBracket_zip : SaneZip ⟨1 / 10, 1⟩ exBracket exampleCable := by
  have := Real.pi_pos
  constructor <;> simp only [exBracket, exampleCable] <;> first | linarith | norm_num

/-- C102 for the bracket and the cable of `chrumm.json`: the bracket can be made, but not if the bend radius of the cable were 20. -/
example : (∃ k, CornerBracket.make ⟨1 / 10, 1⟩ (some (Real.pi / 4)) exBracket (some exampleCable) ⟨0, 50, 20⟩ ⟨0, 0, 30⟩ ⟨0, 50, 0⟩ true = .ok k) ∧
    CornerBracket.make ⟨1 / 10, 1⟩ none exBracket (some { exampleCable with minBendRadius := 20 }) ⟨0, 50, 20⟩ ⟨0, 0, 30⟩ ⟨0, 50, 0⟩ true = .error .valueError := by
  constructor
  · refine (C102_zip true exBracket_sane exBracket_zip (by intro t ht; obtain rfl := Option.mem_some_iff.mp ht; linarith [Real.pi_pos]) (by norm_num [exBracket]) (by norm_num)
      (by norm_num) (by norm_num)).1 ?_
    exact exCable_room (h := 9 / 5) le_rfl
  · have hz : SaneZip ⟨1 / 10, 1⟩ exBracket { exampleCable with minBendRadius := 20 } := by
      have := Real.pi_pos
      constructor <;> simp only [exBracket, exampleCable] <;> first | linarith | norm_num
    refine (C102_zip true exBracket_sane hz (by simp) (by norm_num [exBracket]) (by norm_num) (by norm_num) (by norm_num)).2 ?_
    unfold CableRoom
    rw [not_le]
    have n1 : BracketCfg.nutRadius exBracket ≤ 4 := by
      have : (1.7 : ℝ) ≤ Real.sqrt 3 := Real.le_sqrt_of_sq_le (by norm_num)
      unfold BracketCfg.nutRadius exBracket
      rw [div_le_iff₀ (by linarith)]
      norm_num at this ⊢
      linarith
    have n0 : 0 ≤ BracketCfg.nutRadius exBracket := by unfold BracketCfg.nutRadius exBracket; positivity
    have e1 : max (59 / 10 / 2) (BracketCfg.nutRadius exBracket) ≤ 4 := max_le (by norm_num) n1
    have e2 : max (59 / 10 / 2) (hexTangentDist (BracketCfg.nutRadius exBracket) (Real.pi / 6 - Real.pi / 2)) ≤ 4 :=
      max_le (by norm_num) ((hexTangentDist_le n0).trans n1)
    have e1' : (59 / 10 / 2 : ℝ) ≤ max (59 / 10 / 2) (BracketCfg.nutRadius exBracket) := le_max_left _ _
    have e2' : (59 / 10 / 2 : ℝ) ≤ max (59 / 10 / 2) (hexTangentDist (BracketCfg.nutRadius exBracket) (Real.pi / 6 - Real.pi / 2)) := le_max_left _ _
    have e3 : (max (59 / 10 / 2) (57 / 10 / 2) : ℝ) = 59 / 20 := by norm_num
    unfold exBracket at e1 e2 e1' e2'
    simp only [exBracket, exampleCable, Real.sin_pi_div_six, Real.cos_pi_div_six]
    rw [e3]
    generalize max (59 / 10 / 2 : ℝ) (BracketCfg.nutRadius _) = u at *
    generalize max (59 / 10 / 2 : ℝ) (hexTangentDist _ _) = v at *
    have h3 : (17 / 20 : ℝ) ≤ Real.sqrt 3 / 2 := by
      have : (17 / 10 : ℝ) ≤ Real.sqrt 3 := Real.le_sqrt_of_sq_le (by norm_num)
      linarith
    have h4 : 0 < Real.sqrt 3 / 2 := by positivity
    have h5 : (v + 21 / 10 + 3 / 5 + 9 / 5 + 21 / 10 - 20 - (59 / 20 + 87 / 100 + 3 - 20) * (1 / 2)) / (Real.sqrt 3 / 2) ≤ 0 :=
      div_nonpos_of_nonpos_of_nonneg (by linarith) h4.le
    have h6 : -5 ≤ (v + 21 / 10 + 3 / 5 + 9 / 5 + 21 / 10 - 20 - (59 / 20 + 87 / 100 + 3 - 20) * (1 / 2)) / (Real.sqrt 3 / 2) := by
      rw [le_div_iff₀ h4]
      linarith
    nlinarith

/-- How far the arch of a corner bracket reaches. -/
theorem sketch_reach {q : Quality} {cfg : BracketCfg} {a b c d : Vec} {x y R : ℝ} {s : CornerSketch} (hs : SaneBracket q cfg) (hx : 0 ≤ x) (hy : 0 ≤ y)
    (hR : R = max (cfg.counterboreDiameter / 2) cfg.nutRadius) (hab : d.y ≤ -1 / 2) (h0 : 0 ≤ d.z) (h1 : d.z ≤ -d.y)
    (hl : SketchLines q cfg a b c x y s d) :
    a.z - 2 * (R + cfg.baseMargin + x + max 0 (c.y - a.y)) - (R + cfg.apexMargin) ≤ s.archLBG.z ∧
    (∀ p ∈ [s.archLBG] ++ s.arcL ++ [s.archLFT], p.x = 0 ∧ s.archLBG.z ≤ p.z ∧
      (d.z = 0 → c.y - (R + cfg.wallMargin + x) - (2 * R + cfg.taperMargin + y + cfg.baseMargin + x) / Real.cos cfg.taperAngle - cfg.cornerRadius ≤ p.y)) ∧
    (d.z = 0 → s.archLFT.z = a.z) := by
  have sc := Real.sin_sq_add_cos_sq cfg.taperAngle
  have t0 := hs.taper
  have t1 := hs.taper'
  have cpos : 0 < Real.cos cfg.taperAngle := by linarith
  have s1 : Real.sin cfg.taperAngle ≤ 1 := Real.sin_le_one _
  have d1 : d.y ^ 2 + d.z ^ 2 = 1 := by
    have := hl.unit.1
    simp only [Vec.dot, hl.flat] at this
    linarith
  have ey := hl.center_y
  have ez := hl.center_z
  have eb := hl.bottom
  obtain ⟨g, ga, gz, gt⟩ := hl.arch
  have tr := hl.top_roof
  have tt := hl.top_taper
  have tx := hl.top_x
  have hN : 0 < cfg.nutRadius := by unfold BracketCfg.nutRadius; have := hs.nut; positivity
  have hA : cfg.nutAcrossFlats / 2 = cfg.nutRadius * (Real.sqrt 3 / 2) := by unfold BracketCfg.nutRadius; field_simp
  have hA' : cfg.nutAcrossFlats / 2 ≤ cfg.nutRadius := by
    rw [hA]
    have : Real.sqrt 3 ≤ 2 := Real.sqrt_le_iff.mpr ⟨by norm_num, by norm_num⟩
    nlinarith
  have T1 : max (cfg.counterboreDiameter / 2) (cfg.nutAcrossFlats / 2) ≤
      max (cfg.counterboreDiameter / 2) (hexTangentDist cfg.nutRadius (cfg.taperAngle - Real.pi / 2)) :=
    max_le_max le_rfl (by rw [hA]; exact hexTangentDist_ge hN.le)
  have B0 : 0 < max (cfg.counterboreDiameter / 2) (hexTangentDist cfg.nutRadius (angle2D ⟨-d.y, -d.z, 0⟩)) := lt_max_of_lt_left (by linarith [hs.bore])
  have B1 : max (cfg.counterboreDiameter / 2) (hexTangentDist cfg.nutRadius (angle2D ⟨-d.y, -d.z, 0⟩)) ≤ R := by
    rw [hR]; exact max_le_max le_rfl (hexTangentDist_le hN.le)
  have A0 : 0 < max (cfg.counterboreDiameter / 2) (cfg.nutAcrossFlats / 2) := lt_max_of_lt_left (by linarith [hs.bore])
  have A1 : max (cfg.counterboreDiameter / 2) (cfg.nutAcrossFlats / 2) ≤ R := by rw [hR]; exact max_le_max le_rfl hA'
  have T2 : max (cfg.counterboreDiameter / 2) (hexTangentDist cfg.nutRadius (cfg.taperAngle - Real.pi / 2)) ≤ R := by
    rw [hR]; exact max_le_max le_rfl (hexTangentDist_le hN.le)
  rw [← hR] at ey
  generalize max (cfg.counterboreDiameter / 2) (hexTangentDist cfg.nutRadius (cfg.taperAngle - Real.pi / 2)) = T at *
  generalize max (cfg.counterboreDiameter / 2) (cfg.nutAcrossFlats / 2) = A at *
  generalize max (cfg.counterboreDiameter / 2) (hexTangentDist cfg.nutRadius (angle2D ⟨-d.y, -d.z, 0⟩)) = B at *
  have m1 := hs.wall
  have m2 := hs.base
  have m3 := hs.apex
  have m4 := hs.side
  clear hl hR
  rw [eb] at ga ⊢
  generalize s.screwCenter = S at *
  generalize s.archLFT = P at *
  have det := taper_det t0 t1 hab h0 h1
  have Pz : S.z ≤ P.z := by
    have := taper_up (u := S.y - P.y) (w := P.z - S.z) (B := B + cfg.baseMargin + x) (K := T + cfg.taperMargin + y) cpos det h0
      (by linarith) (by linarith) (by linarith) (by linarith)
    linarith
  have As : (A + cfg.apexMargin) * Real.sin cfg.taperAngle ≤ A + cfg.apexMargin := by
    have := mul_le_mul_of_nonneg_left s1 (by linarith : 0 ≤ A + cfg.apexMargin)
    linarith
  have As0 : 0 ≤ (A + cfg.apexMargin) * Real.sin cfg.taperAngle := mul_nonneg (by linarith) t0
  have gt' : (S.y - g.y) * Real.cos cfg.taperAngle = T + cfg.taperMargin + y - (A + cfg.apexMargin) * Real.sin cfg.taperAngle := by
    rw [gz] at gt
    linarith
  have gy0 : 0 ≤ S.y - g.y := by
    by_contra hneg
    have := mul_neg_of_neg_of_pos (not_le.mp hneg) cpos
    linarith
  obtain ⟨ar, -⟩ := archCorner_reach (a := ⟨0, c.y, S.z - (A + cfg.apexMargin)⟩) (b := g) (c := P) hs.corner hs.angle (by simp only; linarith) (by simp only; linarith) (by linarith) ga
  have level : d.z = 0 → P.z = a.z ∧ S.z = a.z - (B + cfg.baseMargin + x) := by
    intro hz
    have hdy : d.y = -1 := by
      have : (d.y - 1) * (d.y + 1) = 0 := by rw [hz] at d1; linarith
      rcases mul_eq_zero.mp this with h | h <;> linarith
    rw [hz, hdy] at tr ez
    constructor <;> linarith
  refine ⟨?_, ?_, fun hz => (level hz).1⟩
  · simp only
    have e1 : (a.z - S.z) * -d.y = B + cfg.baseMargin + x + (S.y - a.y) * d.z := by linarith
    have e2 : S.y - a.y ≤ max 0 (c.y - a.y) := (by linarith : S.y - a.y ≤ c.y - a.y).trans (le_max_right _ _)
    have e3 : (S.y - a.y) * d.z ≤ max 0 (c.y - a.y) := by
      have m0 : 0 ≤ max 0 (c.y - a.y) := le_max_left _ _
      have : d.z ≤ 1 := by nlinarith
      have h5 := mul_le_mul_of_nonneg_right e2 h0
      have h6 := mul_le_mul_of_nonneg_left this m0
      linarith
    have e4 : a.z - S.z ≤ 2 * (B + cfg.baseMargin + x + max 0 (c.y - a.y)) := by
      rcases le_or_gt (a.z - S.z) 0 with h | h
      · have m0 : 0 ≤ max 0 (c.y - a.y) := le_max_left _ _
        linarith
      · have := mul_le_mul_of_nonneg_left (by linarith : 1 / 2 ≤ -d.y) h.le
        linarith
    linarith
  · have gb : g.y = S.y - (T + cfg.taperMargin + y - (A + cfg.apexMargin) * Real.sin cfg.taperAngle) / Real.cos cfg.taperAngle := by
      rw [← gt']
      field_simp
      ring
    have frac : ∀ {u v : ℝ}, u ≤ v → u / Real.cos cfg.taperAngle ≤ v / Real.cos cfg.taperAngle := fun h => div_le_div_of_nonneg_right h cpos.le
    have pos : 0 ≤ (2 * R + cfg.taperMargin + y + cfg.baseMargin + x) / Real.cos cfg.taperAngle := div_nonneg (by linarith) cpos.le
    have hcr := hs.corner
    intro p hp
    rw [List.mem_append, List.mem_append, List.mem_singleton, List.mem_singleton] at hp
    rcases hp with (rfl | hp) | rfl
    · refine ⟨rfl, le_rfl, fun _ => ?_⟩
      simp only
      linarith
    · obtain ⟨p1, p2, p3⟩ := ar p hp
      refine ⟨p1, by simp only; linarith, fun _ => ?_⟩
      have := frac (by linarith : T + cfg.taperMargin + y - (A + cfg.apexMargin) * Real.sin cfg.taperAngle ≤ 2 * R + cfg.taperMargin + y + cfg.baseMargin + x)
      linarith
    · refine ⟨tx, by simp only; linarith, fun hz => ?_⟩
      obtain ⟨l1, l2⟩ := level hz
      have e : p.y = S.y - (T + cfg.taperMargin + y + (B + cfg.baseMargin + x) * Real.sin cfg.taperAngle) / Real.cos cfg.taperAngle := by
        have : (S.y - p.y) * Real.cos cfg.taperAngle = T + cfg.taperMargin + y + (B + cfg.baseMargin + x) * Real.sin cfg.taperAngle := by
          rw [l1, l2] at tt
          linarith
        rw [← this]
        field_simp
        ring
      have h5 : (B + cfg.baseMargin + x) * Real.sin cfg.taperAngle ≤ B + cfg.baseMargin + x := by
        have := mul_le_mul_of_nonneg_left s1 (by linarith : 0 ≤ B + cfg.baseMargin + x)
        linarith
      have := frac (by linarith : T + cfg.taperMargin + y + (B + cfg.baseMargin + x) * Real.sin cfg.taperAngle ≤ 2 * R + cfg.taperMargin + y + cfg.baseMargin + x)
      linarith

/-- The lower limit of a corner bracket below the roof that starts at `a`, at a wall at `c`. -/
noncomputable def bracketLow (cfg : BracketCfg) (a c : Vec) (x : ℝ) : ℝ :=
  a.z - 2 * (max (cfg.counterboreDiameter / 2) cfg.nutRadius + cfg.baseMargin + x + max 0 (c.y - a.y)) -
    (max (cfg.counterboreDiameter / 2) cfg.nutRadius + cfg.apexMargin)

/-- How far a bracket below a level roof reaches from the wall. -/
noncomputable def bracketReach (cfg : BracketCfg) : ℝ :=
  max (cfg.counterboreDiameter / 2) cfg.nutRadius + cfg.wallMargin +
    (2 * max (cfg.counterboreDiameter / 2) cfg.nutRadius + cfg.taperMargin + cfg.baseMargin) / Real.cos cfg.taperAngle + cfg.cornerRadius

/-- The bracket at the front wall, below a level roof. -/
theorem front_made {q : Quality} {taper : Option ℝ} {cfg : BracketCfg} {a b c : Vec} (cable : Option CableCfg) (n : Bool) (hs : SaneBracket q cfg)
    (ht : ∀ t ∈ taper, t < Real.pi) (hab : a.y < b.y) (hz : a.z = b.z) (hca : a.y - c.y ≤ 1) (hca' : 0 ≤ a.y - c.y) :
    ∃ (k : CornerBracket) (f : Vec), CornerBracket.make q taper cfg cable a b c n = .ok k ∧
      k.roofEdge = [⟨cfg.holeLength + cfg.counterboreLength, a.y, a.z⟩, ⟨cfg.holeLength + cfg.counterboreLength, f.y, a.z⟩, ⟨0, f.y, a.z⟩] ∧
      f.y ≤ c.y + bracketReach cfg ∧ k.splitEdge ≠ [] ∧
      ∀ p ∈ k.splitEdge, bracketLow cfg a ⟨0, a.y + 1, 0⟩ 0 ≤ p.z ∧ p.y ≤ c.y + bracketReach cfg := by
  obtain ⟨s, h⟩ := cornerSketch_exists (q := q) (cfg := cfg) (a := a.yz.mirroredY) (b := b.yz.mirroredY) (c := c.yz.mirroredY) (x := 0) (y := 0) hs rfl rfl rfl
    (by simp only [Vec.yz, Vec.mirroredY]; linarith) (by simp only [Vec.yz, Vec.mirroredY]; linarith) (by simp only [Vec.yz, Vec.mirroredY]; linarith) le_rfl le_rfl
  obtain ⟨d, hl⟩ := cornerSketch_lines h rfl rfl rfl
  obtain ⟨ps, l, r, h2⟩ := screwHole_exists hs ht s.screwCenter n false
  obtain ⟨d1, d2, d3⟩ := roof_dir hl.unit hl.flat (by simp only [Vec.yz, Vec.mirroredY]; linarith) (by simp only [Vec.yz, Vec.mirroredY]; linarith)
    (by simp only [Vec.yz, Vec.mirroredY]; linarith)
  have dz : d.z = 0 := by
    obtain ⟨-, k, hk, e⟩ := hl.unit
    have := congrArg Vec.z e
    simp only [Vec.yz, Vec.mirroredY, Vec.sub_z, Vec.mul_z] at this
    have : d.z * k = 0 := by linarith
    rcases mul_eq_zero.mp this with h | h
    · exact h
    · exact absurd h hk.ne'
  obtain ⟨r1, r2, r3⟩ := sketch_reach hs le_rfl le_rfl rfl d1 d2 d3 hl
  have r3 := r3 dz
  have cf : cornerForward q taper cfg none a.yz.mirroredY b.yz.mirroredY c.yz.mirroredY 0 0 n = .ok
      { wallEdge := [s.archLBG, s.archLBG + ⟨cfg.holeLength + cfg.counterboreLength, 0, 0⟩, c.yz.mirroredY + ⟨cfg.holeLength + cfg.counterboreLength, 0, 0⟩]
        roofEdge := [a.yz.mirroredY + ⟨cfg.holeLength + cfg.counterboreLength, 0, 0⟩, s.archLFT + ⟨cfg.holeLength + cfg.counterboreLength, 0, 0⟩, s.archLFT]
        splitEdge := [s.archLBG] ++ s.arcL ++ [s.archLFT]
        splitHoles := [l.reverse]
        pieces := ps ++ [neat (edgeTranslated ([s.archLBG] ++ s.arcL ++ [s.archLFT]) ⟨cfg.holeLength + cfg.counterboreLength, 0, 0⟩ ++
          [a.yz.mirroredY + ⟨cfg.holeLength + cfg.counterboreLength, 0, 0⟩, c.yz.mirroredY + ⟨cfg.holeLength + cfg.counterboreLength, 0, 0⟩]) [r] true] ++
          [strip (edgeTranslated ([s.archLBG] ++ s.arcL ++ [s.archLFT]) ⟨cfg.holeLength + cfg.counterboreLength, 0, 0⟩) ([s.archLBG] ++ s.arcL ++ [s.archLFT])] } := by
    unfold cornerForward
    dsimp only
    exact bind_ok_of h (bind_ok_of (pyIndex_zero.mpr (by simp)) (bind_ok_of (a := s.archLFT) (pyIndex_last.mpr (by rw [List.getLast?_append]; simp))
      (bind_ok_of (a := s.archLBG + ⟨cfg.holeLength + cfg.counterboreLength, 0, 0⟩) (pyIndex_zero.mpr (by simp [edgeTranslated]))
      (bind_ok_of (a := s.archLFT + ⟨cfg.holeLength + cfg.counterboreLength, 0, 0⟩) (pyIndex_last.mpr (by unfold edgeTranslated; rw [List.map_append, List.getLast?_append]; simp))
      (bind_ok_of h2 rfl)))))
  have reach : ∀ p ∈ [s.archLBG] ++ s.arcL ++ [s.archLFT], bracketLow cfg a ⟨0, a.y + 1, 0⟩ 0 ≤ p.z ∧ -p.y ≤ c.y + bracketReach cfg := by
    intro p hp
    obtain ⟨-, p2, p3⟩ := r2 p hp
    have p3 := p3 dz
    simp only [Vec.yz, Vec.mirroredY, add_zero] at r1 p3
    have e1 : max 0 (-c.y - -a.y) ≤ 1 := max_le (by norm_num) (by linarith)
    have e2 : max 0 (a.y + 1 - a.y) = 1 := by rw [show a.y + 1 - a.y = 1 by ring]; norm_num
    unfold bracketLow bracketReach
    dsimp only
    rw [e2]
    constructor <;> linarith
  obtain ⟨K, cf, K1, K2⟩ : ∃ K, cornerForward q taper cfg none a.yz.mirroredY b.yz.mirroredY c.yz.mirroredY 0 0 n = .ok K ∧
      K.roofEdge = [a.yz.mirroredY + ⟨cfg.holeLength + cfg.counterboreLength, 0, 0⟩, s.archLFT + ⟨cfg.holeLength + cfg.counterboreLength, 0, 0⟩, s.archLFT] ∧
      K.splitEdge = [s.archLBG] ++ s.arcL ++ [s.archLFT] := ⟨_, cf, rfl, rfl⟩
  refine ⟨K.mirrored, s.archLFT.mirroredY, ?_, ?_, ?_, ?_, ?_⟩
  · unfold CornerBracket.make
    dsimp only
    rw [if_pos (by simpa only [Vec.yz] using hab)]
    exact bind_ok_of cf rfl
  · have x0 := (r2 s.archLFT (by simp)).1
    simp only [CornerBracket.mirrored, K1, List.map_cons, List.map_nil, List.cons.injEq, and_true]
    simp only [Vec.yz, Vec.mirroredY] at r3
    refine ⟨?_, ?_, ?_⟩ <;> ext <;> simp [Vec.mirroredY, Vec.yz, x0, r3]
  · exact (reach s.archLFT (by simp)).2
  · simp [CornerBracket.mirrored, K2]
  · intro p hp
    simp only [CornerBracket.mirrored, K2, List.mem_reverse, List.mem_map] at hp
    obtain ⟨v, hv, rfl⟩ := hp
    exact reach v hv

end Chrumm.Part
