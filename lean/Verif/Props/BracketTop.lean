import Verif.Props.BracketZip

/-! C102: the height of the floor bracket. -/

namespace Chrumm.Part
open Geo Geo.Spec Spec

/-- The circle that touches a level line, and one that falls from it, is below the level line. -/
theorem tangent_top {b u w m : Vec} {D r : ℝ} (hD : 0 < D) (hr : 0 < r) (u1 : u.x ^ 2 + u.y ^ 2 = 1) (w1 : w.x ^ 2 = 1) (wy : w.y = 0) (uy : u.y < 0)
    (o1 : (b.x + u.x * D - m.x) * u.x + (b.y + u.y * D - m.y) * u.y = 0) (o2 : (b.x + w.x * D - m.x) * w.x = 0)
    (hon : (m.x - (b.x + w.x * D)) ^ 2 + (m.y - b.y) ^ 2 = r ^ 2) : m.y = b.y - r := by
  have := tangent_level (b := ⟨b.x, -b.y, 0⟩) (u := ⟨u.x, -u.y, 0⟩) (w := w) (m := ⟨m.x, -m.y, 0⟩) hD hr (by dsimp only; linarith) w1 wy (by dsimp only; linarith)
    (by dsimp only; linarith) o2 (by dsimp only; linarith)
  dsimp only at this
  linarith

/-- A rounded corner between a level line and one that falls from it does not reach above the level line. -/
theorem archCorner_top {q : Quality} {r : ℝ} {a b c : Vec} {pts : List Vec} (hr : 1 / 1000000 ≤ r) (hq : 0 < q.maxChordAngle)
    (hl : (a.z < b.z ∧ c.z = b.z) ∨ (a.z = b.z ∧ c.z < b.z)) (h : archCorner q r a b c = .ok pts) :
    ∀ p ∈ pts, p.z ≤ b.z := by
  unfold archCorner at h
  obtain ⟨arc, h1, h⟩ := bind_ok h
  obtain rfl := Except.ok.inj h
  obtain ⟨u, w, m, D, hD, ⟨u1, k, hk, ue⟩, ⟨w1, j, hj, we⟩, hh, hla, o1, o2, hc'⟩ := C54_tangent hr hq h1
  have hr0 : 0 < r := by linarith
  have uy := congrArg Vec.y ue
  have uz := congrArg Vec.z ue
  have wy := congrArg Vec.y we
  have wz := congrArg Vec.z we
  simp only [Vec.xy, Vec.sub_y, Vec.sub_z, Vec.mul_y, Vec.mul_z] at uy uz wy wz
  have uz' : u.z = 0 := by rcases mul_eq_zero.mp uz.symm with h | h; exact h; exact absurd h hk.ne'
  have wz' : w.z = 0 := by rcases mul_eq_zero.mp wz.symm with h | h; exact h; exact absurd h hj.ne'
  simp only [Vec.dot, uz', wz'] at u1 w1
  simp only [Vec.dot, Vec.xy, Vec.sub_x, Vec.sub_y, Vec.sub_z, Vec.add_x, Vec.add_y, Vec.add_z, Vec.mul_x, Vec.mul_y, Vec.mul_z, uz', wz'] at o1 o2
  have mf := List.mem_of_mem_head? hh
  have ml := List.mem_of_getLast? hla
  have neg : ∀ {x y : ℝ}, 0 < y → x * y < 0 → x < 0 := fun hy hxy => by
    by_contra hc
    exact absurd (mul_nonneg (not_lt.mp hc) hy.le) (not_le.mpr hxy)
  have main : m.y = b.z - r := by
    rcases hl with ⟨ha, hc⟩ | ⟨ha, hc⟩
    · have wy' : w.y = 0 := by
        have : w.y * j = 0 := by linarith
        rcases mul_eq_zero.mp this with h | h; exact h; exact absurd h hj.ne'
      have uy' : u.y < 0 := neg hk (by linarith)
      have hon := (hc' _ ml).1.2
      simp only [distSq2D, Vec.xy, Vec.add_x, Vec.add_y, Vec.mul_x, Vec.mul_y, wy'] at hon
      exact tangent_top (b := ⟨b.y, b.z, 0⟩) (u := u) (w := w) hD hr0 (by linarith) (by rw [wy'] at w1; linarith) wy' uy' (by linarith) (by rw [wy'] at o2; linarith) (by
        dsimp only; linarith)
    · have uy' : u.y = 0 := by
        have : u.y * k = 0 := by linarith
        rcases mul_eq_zero.mp this with h | h; exact h; exact absurd h hk.ne'
      have wy' : w.y < 0 := neg hj (by linarith)
      have hon := (hc' _ mf).1.2
      simp only [distSq2D, Vec.xy, Vec.add_x, Vec.add_y, Vec.mul_x, Vec.mul_y, uy'] at hon
      exact tangent_top (b := ⟨b.y, b.z, 0⟩) (u := w) (w := u) hD hr0 (by linarith) (by rw [uy'] at u1; linarith) uy' wy' (by linarith) (by rw [uy'] at o1; linarith) (by
        dsimp only; linarith)
  intro v hv
  obtain ⟨p, hp, rfl⟩ := List.mem_map.mp hv
  have := (hc' p hp).1.2
  simp only [distSq2D] at this
  have h2 : (m.y - p.y) ^ 2 ≤ r ^ 2 := by nlinarith [sq_nonneg (m.x - p.x)]
  have := abs_le.mp (abs_le_of_sq_le_sq h2 hr0.le)
  dsimp only
  linarith [this.1]

/-- Nothing of the sketch of the floor bracket is above its top. -/
theorem floorSketch_top {q : Quality} {cfg : BracketCfg} {g t z : ℝ} {arch : List Vec} (h : floorSketch q cfg g t = .ok (arch, z))
    (hq : 0 < q.maxChordAngle) (hτ : 0 < Real.cos cfg.taperAngle) (hr : 1 / 1000000 ≤ cfg.cornerRadius) (hgt : g < t)
    (hst : t + 1 / 1000000 ≤ g + max (max cfg.counterboreDiameter cfg.nutAcrossFlats + cfg.baseMargin + cfg.apexMargin) t) :
    ∀ p ∈ arch, p.z ≤ g + max (max cfg.counterboreDiameter cfg.nutAcrossFlats + cfg.baseMargin + cfg.apexMargin) t := by
  unfold floorSketch at h
  dsimp only at h
  have sc := Real.sin_sq_add_cos_sq cfg.taperAngle
  have hm : max cfg.counterboreDiameter cfg.nutAcrossFlats = 2 * max (cfg.counterboreDiameter / 2) (cfg.nutAcrossFlats / 2) := by
    rw [← mul_max_of_nonneg _ _ (by norm_num : (0 : ℝ) ≤ 2) |>.symm]
    congr 1 <;> ring
  rw [hm] at hst ⊢
  generalize max (cfg.counterboreDiameter / 2) (hexTangentDist cfg.nutRadius (cfg.taperAngle - Real.pi / 2)) + cfg.taperMargin = T at *
  generalize max (cfg.counterboreDiameter / 2) (cfg.nutAcrossFlats / 2) = H at *
  rw [show 2 * H + cfg.baseMargin + cfg.apexMargin = H + cfg.baseMargin + (H + cfg.apexMargin) by ring] at hst ⊢
  generalize max (H + cfg.baseMargin + (H + cfg.apexMargin)) t = B at *
  rw [line_self (by simp only [Vec.dot]; linarith), value_bind, line_self (by simp only [Vec.dot, Vec.mirroredY]; linarith), value_bind,
    line_self (d := (⟨0, 1, 0⟩ : Vec)) (by simp [Vec.dot]), value_bind, line_self (d := (⟨0, 1, 0⟩ : Vec)) (by simp [Vec.dot]), value_bind,
    line_self (d := (⟨0, 1, 0⟩ : Vec)) (by simp [Vec.dot]), value_bind] at h
  obtain ⟨FG, i1, h⟩ := bind_ok h
  obtain ⟨FT, i2, h⟩ := bind_ok h
  obtain ⟨BT, i3, h⟩ := bind_ok h
  obtain ⟨BG, i4, h⟩ := bind_ok h
  by_cases hBt : g + B ≤ t
  · rw [if_pos hBt] at h
    cases h
  rw [if_neg hBt] at h
  obtain ⟨cF, i5, h⟩ := bind_ok h
  obtain ⟨cB, i6, h⟩ := bind_ok h
  obtain ⟨rfl, rfl⟩ := Prod.mk.inj (Except.ok.inj h)
  have lev : ∀ v : ℝ, UprightLine ⟨⟨0, 0, v⟩, ⟨0, 1, 0⟩⟩ := fun v => ⟨rfl, rfl, by simp⟩
  obtain ⟨-, t2, e2⟩ := upright_intersect (l := ⟨_, _⟩) (m := ⟨_, _⟩) ⟨by simp, rfl, by simp only; linarith⟩ (lev _) i1
  obtain ⟨-, t4, e4⟩ := upright_intersect (l := ⟨_, _⟩) (m := ⟨_, _⟩) ⟨by simp, rfl, by simp only; linarith⟩ (lev _) i2
  obtain ⟨-, t6, e6⟩ := upright_intersect (l := ⟨_, _⟩) (m := ⟨_, _⟩) ⟨by simp [Vec.mirroredY], rfl, by simp only [Vec.mirroredY]; linarith⟩ (lev _) i3
  obtain ⟨-, t8, e8⟩ := upright_intersect (l := ⟨_, _⟩) (m := ⟨_, _⟩) ⟨by simp [Vec.mirroredY], rfl, by simp only [Vec.mirroredY]; linarith⟩ (lev _) i4
  have FGz : FG.z = t := by rw [e2]; simp
  have FTz : FT.z = g + B := by rw [e4]; simp
  have BTz : BT.z = g + B := by rw [e6]; simp
  have BGz : BG.z = g := by rw [e8]; simp
  have topF := archCorner_top (le_min hr (by linarith)) hq (.inr ⟨by rw [BTz, FTz], by rw [FGz, FTz]; linarith⟩) i5
  have topB := archCorner_top hr hq (.inl ⟨by rw [BGz, BTz]; linarith, by rw [BTz, FTz]⟩) i6
  intro p hp
  have hp := (C35_subsequence _ _).1.subset hp
  simp only [List.mem_append, List.mem_cons, List.not_mem_nil, or_false] at hp
  rcases hp with ((rfl | hp) | hp) | rfl
  · rw [BGz]; linarith
  · have := topB p hp; linarith
  · have := topF p hp; linarith
  · rw [FGz]; linarith

theorem floorForward_top {q : Quality} {taper : Option ℝ} {cfg : BracketCfg} {a c d e : Vec} {x : ℝ} {n : Bool} {k : FloorBracket}
    (h : floorForward q taper cfg a c d e x n = .ok k) (hs : SaneFloorBracket q cfg a d) (he : e.z = d.z)
    (hst : d.z + 1 / 1000000 ≤ a.z + max (max cfg.counterboreDiameter cfg.nutAcrossFlats + cfg.baseMargin + cfg.apexMargin) d.z) :
    ∀ p ∈ k.splitEdge, p.z ≤ a.z + max (max cfg.counterboreDiameter cfg.nutAcrossFlats + cfg.baseMargin + cfg.apexMargin) d.z := by
  unfold floorForward at h
  obtain ⟨⟨arch, z⟩, i1, h⟩ := bind_ok h
  dsimp only at h
  have top := floorSketch_top i1 hs.1 hs.5 hs.6 (by linarith [hs.7]) hst
  obtain ⟨f', i2, h⟩ := bind_ok h
  obtain ⟨⟨ps, holeL, holeR⟩, i3, h⟩ := bind_ok h
  dsimp only at h
  obtain ⟨l1, i4, h⟩ := bind_ok h
  obtain ⟨l0, i5, h⟩ := bind_ok h
  obtain ⟨r0, i6, h⟩ := bind_ok h
  obtain rfl := Except.ok.inj h
  intro p hp
  have low : ∀ p ∈ edgeTranslated arch (⟨0, floorCenterY cfg x d e f', z⟩ : Vec).xy,
      p.z ≤ a.z + max (max cfg.counterboreDiameter cfg.nutAcrossFlats + cfg.baseMargin + cfg.apexMargin) d.z := by
    intro p hp
    obtain ⟨v, hv, rfl⟩ := List.mem_map.mp hp
    have := top v hv
    simpa [Vec.xy] using this
  dsimp only at hp
  rw [List.mem_reverse] at hp
  split_ifs at hp
  · exact low p hp
  · rcases List.mem_append.mp hp with hp | hp
    · exact low p hp
    · obtain rfl : p = e := by simpa using hp
      linarith

/-- C102: nothing of a floor bracket, seen from the split, is above the top of its arch. -/
theorem C102_top {q : Quality} {taper : Option ℝ} {cfg : BracketCfg} {a b c d e : Vec} {n : Bool} {k : FloorBracket}
    (h : FloorBracket.make q taper cfg a b c d e n = .ok k) (hs : SaneFloorBracket q cfg a d) (he : e.z = d.z)
    (hst : d.z + 1 / 1000000 ≤ a.z + max (max cfg.counterboreDiameter cfg.nutAcrossFlats + cfg.baseMargin + cfg.apexMargin) d.z) :
    ∀ p ∈ k.splitEdge, p.z ≤ a.z + max (max cfg.counterboreDiameter cfg.nutAcrossFlats + cfg.baseMargin + cfg.apexMargin) d.z := by
  unfold FloorBracket.make at h
  dsimp only at h
  by_cases hab : b.y < a.y
  · rw [if_pos (by simpa only [Vec.yz] using hab)] at h
    obtain ⟨m, hm, h⟩ := bind_ok h
    obtain rfl := Except.ok.inj h
    intro p hp
    simp only [FloorBracket.mirrored, List.mem_reverse, List.mem_map] at hp
    obtain ⟨v, hv, rfl⟩ := hp
    exact floorForward_top hm ⟨hs.1, hs.2, hs.3, hs.4, hs.5, hs.6, hs.7, hs.8⟩ he hst v hv
  · rw [if_neg (by simpa only [Vec.yz] using hab)] at h
    have hs' : SaneFloorBracket q cfg a.yz d.yz := ⟨hs.1, hs.2, hs.3, hs.4, hs.5, hs.6, hs.7, hs.8⟩
    have := floorForward_top h hs' he hst
    exact this

/-- C102 for the floor bracket of the example: its top is at 7.97. -/
example : ∃ k, FloorBracket.make ⟨1 / 10, 1⟩ (some (Real.pi / 4)) exBracket ⟨0, 2, 1⟩ ⟨0, 50, 1⟩ ⟨0, 2, 1⟩ ⟨0, 1, 3⟩ ⟨0, 0, 3⟩ true = .ok k ∧
    ∀ p ∈ k.splitEdge, p.z ≤ 797 / 100 := by
  have hs := exBracket_sane
  obtain ⟨k, hk⟩ := C102_floor_succeeds (taper := some (Real.pi / 4)) (b := ⟨0, 50, 1⟩) (c := ⟨0, 2, 1⟩) (e := ⟨0, 0, 3⟩) true hs
    (by intro t ht; obtain rfl := Option.mem_some_iff.mp ht; linarith [Real.pi_pos]) exBracket_floor (by norm_num [exBracket]) (by norm_num [exBracket]) (by norm_num [exBracket])
  refine ⟨k, hk, fun p hp => ?_⟩
  have := C102_top hk exBracket_floor rfl (by norm_num [exBracket]) p hp
  norm_num [exBracket] at this
  linarith

end Chrumm.Part
