import Verif.Props.BracketSucceeds
import Verif.Props.KnobShaft

/-! C102: the screw of the roof bracket. -/

namespace Chrumm.Part
open Geo Geo.Spec Spec

/-- The circle that touches a level line, and one that rises from it, is above the level line. -/
theorem tangent_level {b u w m : Vec} {D r : ℝ} (hD : 0 < D) (hr : 0 < r) (u1 : u.x ^ 2 + u.y ^ 2 = 1) (w1 : w.x ^ 2 = 1) (wy : w.y = 0) (uy : 0 < u.y)
    (o1 : (b.x + u.x * D - m.x) * u.x + (b.y + u.y * D - m.y) * u.y = 0) (o2 : (b.x + w.x * D - m.x) * w.x = 0)
    (hon : (m.x - (b.x + w.x * D)) ^ 2 + (m.y - b.y) ^ 2 = r ^ 2) : m.y = b.y + r := by
  have e1 : m.x = b.x + w.x * D := by linear_combination (-w.x) * o2 + (b.x + w.x * D - m.x) * w1
  rw [e1] at o1 hon
  have e2 : (m.y - b.y) * u.y = D * (1 - w.x * u.x) := by linear_combination (-1 : ℝ) * o1 + D * u1
  have h1 : (w.x * u.x) ^ 2 < 1 := by
    rw [mul_pow, w1]
    nlinarith [pow_pos uy 2]
  have h2 : w.x * u.x < 1 := by nlinarith
  have h3 : 0 < m.y - b.y := by
    have : 0 < (m.y - b.y) * u.y := by rw [e2]; exact mul_pos hD (by linarith)
    exact (mul_pos_iff_of_pos_right uy).mp this
  have h4 : (m.y - b.y) ^ 2 = r ^ 2 := by linarith
  have : (m.y - b.y - r) * (m.y - b.y + r) = 0 := by linear_combination h4
  rcases mul_eq_zero.mp this with h | h <;> linarith

/-- A rounded corner between a level line and one that rises from it does not reach below the level line, but touches it. -/
theorem archCorner_level {q : Quality} {r : ℝ} {a b c : Vec} {pts : List Vec} (hr : 1 / 1000000 ≤ r) (hq : 0 < q.maxChordAngle)
    (hl : (b.z < a.z ∧ c.z = b.z) ∨ (a.z = b.z ∧ b.z < c.z)) (h : archCorner q r a b c = .ok pts) :
    (∀ p ∈ pts, p.x = 0 ∧ b.z ≤ p.z) ∧ ∃ p ∈ pts, p.z = b.z := by
  unfold archCorner at h
  obtain ⟨arc, h1, h⟩ := bind_ok h
  obtain rfl := Except.ok.inj h
  obtain ⟨u, w, m, D, hD, ⟨u1, k, hk, ue⟩, ⟨w1, j, hj, we⟩, hh, hla, o1, o2, hc'⟩ := C54_tangent hr hq h1
  have hr0 : 0 < r := by linarith
  have uy := congrArg Vec.y ue
  have uz := congrArg Vec.z ue
  have wy := congrArg Vec.y we
  have wz := congrArg Vec.z we
  simp only [Vec.xy, Vec.sub_y, Vec.sub_z, Vec.mul_y, Vec.mul_z] at uy uz wy wz
  have uz' : u.z = 0 := by rcases mul_eq_zero.mp uz.symm with h | h; exact h; exact absurd h hk.ne'
  have wz' : w.z = 0 := by rcases mul_eq_zero.mp wz.symm with h | h; exact h; exact absurd h hj.ne'
  simp only [Vec.dot, uz', wz'] at u1 w1
  simp only [Vec.dot, Vec.xy, Vec.sub_x, Vec.sub_y, Vec.sub_z, Vec.add_x, Vec.add_y, Vec.add_z, Vec.mul_x, Vec.mul_y, Vec.mul_z, uz', wz'] at o1 o2
  have mf := List.mem_of_mem_head? hh
  have ml := List.mem_of_getLast? hla
  have main : m.y = b.z + r ∧ ∃ p ∈ arc, p.y = b.z := by
    rcases hl with ⟨ha, hc⟩ | ⟨ha, hc⟩
    · have wy' : w.y = 0 := by
        have : w.y * j = 0 := by linarith
        rcases mul_eq_zero.mp this with h | h; exact h; exact absurd h hj.ne'
      have uy' : 0 < u.y := by
        have : 0 < u.y * k := by linarith
        exact (mul_pos_iff_of_pos_right hk).mp this
      have hon := (hc' _ ml).1.2
      simp only [distSq2D, Vec.xy, Vec.add_x, Vec.add_y, Vec.mul_x, Vec.mul_y, wy'] at hon
      refine ⟨tangent_level (b := ⟨b.y, b.z, 0⟩) (u := u) (w := w) hD hr0 (by linarith) (by rw [wy'] at w1; linarith) wy' uy' (by linarith) (by rw [wy'] at o2; linarith) (by
        dsimp only; linarith), _, ml, by simp [Vec.xy, wy']⟩
    · have uy' : u.y = 0 := by
        have : u.y * k = 0 := by linarith
        rcases mul_eq_zero.mp this with h | h; exact h; exact absurd h hk.ne'
      have wy' : 0 < w.y := by
        have : 0 < w.y * j := by linarith
        exact (mul_pos_iff_of_pos_right hj).mp this
      have hon := (hc' _ mf).1.2
      simp only [distSq2D, Vec.xy, Vec.add_x, Vec.add_y, Vec.mul_x, Vec.mul_y, uy'] at hon
      refine ⟨tangent_level (b := ⟨b.y, b.z, 0⟩) (u := w) (w := u) hD hr0 (by linarith) (by rw [uy'] at u1; linarith) uy' wy' (by linarith) (by rw [uy'] at o1; linarith) (by
        dsimp only; linarith), _, mf, by simp [Vec.xy, uy']⟩
  obtain ⟨hm, p, hp, hpz⟩ := main
  constructor
  · intro v hv
    obtain ⟨p, hp, rfl⟩ := List.mem_map.mp hv
    refine ⟨rfl, ?_⟩
    have := (hc' p hp).1.2
    simp only [distSq2D] at this
    have h2 : (m.y - p.y) ^ 2 ≤ r ^ 2 := by nlinarith [sq_nonneg (m.x - p.x)]
    have := abs_le.mp (abs_le_of_sq_le_sq h2 hr0.le)
    dsimp only
    linarith [this.2]
  · exact ⟨_, List.mem_map_of_mem hp, hpz⟩

/-- What is sketched for a roof bracket, around a screw at the origin. -/
theorem roofSketch_ok {q : Quality} {cfg : BracketCfg} {lf lb : List Vec} {t g : Vec} (h : roofSketch q cfg = .ok (lf, lb, t, g))
    (hq : 0 < q.maxChordAngle) (hτ : 0 < Real.cos cfg.taperAngle) (hr : 1 / 1000000 ≤ cfg.cornerRadius)
    (hh : 0 < max cfg.counterboreDiameter cfg.nutAcrossFlats + cfg.baseMargin + cfg.apexMargin) :
    t = ⟨0, 0, max (cfg.counterboreDiameter / 2) (cfg.nutAcrossFlats / 2) + cfg.baseMargin⟩ ∧
    g = ⟨0, 0, -(max (cfg.counterboreDiameter / 2) (cfg.nutAcrossFlats / 2) + cfg.apexMargin)⟩ ∧
    ∃ F B : Vec, ∃ cF cB : List Vec, lf = F :: cF ∧ lb = cB ++ [B] ∧ F.x = 0 ∧ F.z = t.z ∧ B.x = 0 ∧ B.z = t.z ∧
      -F.y * Real.cos cfg.taperAngle - F.z * Real.sin cfg.taperAngle =
        max (cfg.counterboreDiameter / 2) (hexTangentDist cfg.nutRadius (cfg.taperAngle - Real.pi / 2)) + cfg.taperMargin ∧
      B.y * Real.cos cfg.taperAngle - B.z * Real.sin cfg.taperAngle =
        max (cfg.counterboreDiameter / 2) (hexTangentDist cfg.nutRadius (cfg.taperAngle - Real.pi / 2)) + cfg.taperMargin ∧
      (∀ p ∈ lf ++ lb, p.x = 0 ∧ g.z ≤ p.z) ∧ ∃ p ∈ lf ++ lb, p.z = g.z := by
  unfold roofSketch at h
  dsimp only at h
  have sc := Real.sin_sq_add_cos_sq cfg.taperAngle
  have hm : max cfg.counterboreDiameter cfg.nutAcrossFlats = 2 * max (cfg.counterboreDiameter / 2) (cfg.nutAcrossFlats / 2) := by
    rw [← mul_max_of_nonneg _ _ (by norm_num : (0 : ℝ) ≤ 2) |>.symm]
    congr 1 <;> ring
  rw [hm] at hh
  generalize max (cfg.counterboreDiameter / 2) (hexTangentDist cfg.nutRadius (cfg.taperAngle - Real.pi / 2)) + cfg.taperMargin = T at *
  generalize max (cfg.counterboreDiameter / 2) (cfg.nutAcrossFlats / 2) = H at *
  rw [line_self (by simp only [Vec.dot]; linarith), value_bind, line_self (by simp only [Vec.dot, Vec.mirroredY]; linarith), value_bind,
    line_self (d := (⟨0, 1, 0⟩ : Vec)) (by simp [Vec.dot]), value_bind, line_self (d := (⟨0, 1, 0⟩ : Vec)) (by simp [Vec.dot]), value_bind] at h
  obtain ⟨FT, i1, h⟩ := bind_ok h
  obtain ⟨FG, i2, h⟩ := bind_ok h
  obtain ⟨BG, i3, h⟩ := bind_ok h
  obtain ⟨BT, i4, h⟩ := bind_ok h
  obtain ⟨cF, i5, h⟩ := bind_ok h
  obtain ⟨cB, i6, h⟩ := bind_ok h
  simp only [pure, Except.pure, Except.ok.injEq, Prod.mk.injEq] at h
  obtain ⟨rfl, rfl, rfl, rfl⟩ := h
  have lev : ∀ v : ℝ, UprightLine ⟨⟨0, 0, v⟩, ⟨0, 1, 0⟩⟩ := fun v => ⟨rfl, rfl, by simp⟩
  obtain ⟨⟨t1, e1⟩, t2, e2⟩ := upright_intersect (l := ⟨_, _⟩) (m := ⟨_, _⟩) ⟨by simp [Vec.mirroredY], rfl, by simp only [Vec.mirroredY]; linarith⟩ (lev _) i1
  obtain ⟨-, t4, e4⟩ := upright_intersect (l := ⟨_, _⟩) (m := ⟨_, _⟩) ⟨by simp [Vec.mirroredY], rfl, by simp only [Vec.mirroredY]; linarith⟩ (lev _) i2
  obtain ⟨-, t6, e6⟩ := upright_intersect (l := ⟨_, _⟩) (m := ⟨_, _⟩) ⟨by simp, rfl, by simp only; linarith⟩ (lev _) i3
  obtain ⟨⟨t7, e7⟩, t8, e8⟩ := upright_intersect (l := ⟨_, _⟩) (m := ⟨_, _⟩) ⟨by simp, rfl, by simp only; linarith⟩ (lev _) i4
  have FTz : FT.z = H + cfg.baseMargin := by rw [e2]; simp
  have BTz : BT.z = H + cfg.baseMargin := by rw [e8]; simp
  have FGz : FG.z = -(H + cfg.apexMargin) := by rw [e4]; simp
  have BGz : BG.z = -(H + cfg.apexMargin) := by rw [e6]; simp
  have FTx : FT.x = 0 := by rw [e2]; simp
  have BTx : BT.x = 0 := by rw [e8]; simp
  obtain ⟨k1, p, hp, hpz⟩ := archCorner_level hr hq (Or.inl ⟨by rw [FGz, FTz]; linarith, by rw [FGz, BGz]⟩) i5
  obtain ⟨k2, -⟩ := archCorner_level hr hq (Or.inr ⟨by rw [FGz, BGz], by rw [BGz, BTz]; linarith⟩) i6
  refine ⟨rfl, rfl, FT, BT, cF, cB, rfl, rfl, FTx, FTz, BTx, BTz, ?_, ?_, ?_, p, by simp [hp], by rw [hpz, FGz]⟩
  · rw [e1]
    simp [Vec.mirroredY]
    linear_combination T * sc
  · rw [e7]
    simp
    linear_combination T * sc
  · intro v hv
    simp only [List.cons_append, List.mem_cons, List.mem_append, List.not_mem_nil, or_false] at hv
    dsimp only
    rcases hv with rfl | hv | hv | rfl
    · exact ⟨FTx, by rw [FTz]; linarith⟩
    · exact ⟨(k1 v hv).1, by rw [← FGz]; exact (k1 v hv).2⟩
    · exact ⟨(k2 v hv).1, by rw [← BGz]; exact (k2 v hv).2⟩
    · exact ⟨BTx, by rw [BTz]; linarith⟩

/-- How the roof bracket is placed. -/
theorem roofAlign_turned (θ : ℝ) (t p v : Vec) : v.transformed ((((1 : Mat).translated (-t)).rotatedX θ).translated p) =
    turned θ (p + ⟨-t.x, t.z * Real.sin θ - t.y * Real.cos θ, -(t.y * Real.sin θ) - t.z * Real.cos θ⟩) v := by
  have a1 : Mat.Affine ((1 : Mat).translated (-t)) := (Built.move _ Built.one).affine
  rw [Mat.transformed_translated ((Built.rotX _ _ (Built.move _ Built.one)).affine)]
  unfold Mat.rotatedX turned
  simp only [Mat.rotateBy]
  rw [Mat.transformed_mul a1, Mat.transformed_translated Mat.Affine.one, Vec.transformed_one]
  ext <;> simp [Vec.transformed] <;> ring

/-- What the roof bracket without a mount is made of. -/
theorem roofPlain_parts {q : Quality} {taper : Option ℝ} {cfg : BracketCfg} {A ab : Vec} {n : Bool} {m : Mat} {d F B : Vec} {cF cB : List Vec}
    {k : RoofBracket} (h : roofPlain q taper cfg A ab n m d (F :: cF) (cB ++ [B]) = .ok k) :
    ∃ ps hl hr al, screwHole q taper cfg 0 n false = .ok (ps, hl, hr) ∧
      al = m.translated (A + d * (85 / 100 * (ab.magnitude - (F - B).magnitude) + (F - B).magnitude / 2)) ∧
      k.splitEdge = ((F :: cF ++ (cB ++ [B])).map fun v => v.transformed al).reverse ∧
      k.splitHole = (hl.map fun v => v.transformed al).reverse ∧ (∀ P ∈ ps, Piece.moved (fun v => v.transformed al) P ∈ k.pieces) ∧
      k.roofEdge = [F.transformed al, F.transformed al + ⟨cfg.counterboreLength + cfg.holeLength, 0, 0⟩,
        B.transformed al + ⟨cfg.counterboreLength + cfg.holeLength, 0, 0⟩, B.transformed al] := by
  unfold roofPlain at h
  obtain ⟨f0, h1, h⟩ := bind_ok h
  obtain ⟨b1, h2, h⟩ := bind_ok h
  dsimp only at h
  obtain ⟨l0, h3, h⟩ := bind_ok h
  obtain ⟨l1, h4, h⟩ := bind_ok h
  obtain ⟨r0, h5, h⟩ := bind_ok h
  obtain ⟨r1, h6, h⟩ := bind_ok h
  unfold roofFinish at h
  obtain ⟨⟨ps, hl, hr⟩, h7, h⟩ := bind_ok h
  obtain rfl := Except.ok.inj h
  obtain rfl : F = f0 := by simpa using pyIndex_zero.mp h1
  obtain rfl : B = b1 := by simpa using pyIndex_last.mp h2
  refine ⟨ps, hl, hr, _, h7, rfl, rfl, rfl, fun P hP => by simp [List.mem_map_of_mem hP], ?_⟩
  have e3 := pyIndex_zero.mp h3
  have e4 := pyIndex_last.mp h4
  have e5 := pyIndex_zero.mp h5
  have e6 := pyIndex_last.mp h6
  clear h3 h4 h5 h6
  generalize m.translated _ = al at *
  simp [edgeTransformed, edgeTranslated, List.getLast?_append, List.getLast?_cons] at e3 e4 e5 e6
  subst e3 e4 e5 e6
  rfl

set_option maxHeartbeats 1000000 in
/-- C102. The roof bracket holds its screw at exactly the configured margins. -/
theorem C102_roof {q : Quality} {taper : Option ℝ} {cfg : BracketCfg} {φ i : ℝ} {a b : Vec} {M : Mat} {n : Bool} {k : RoofBracket}
    (h : RoofBracket.make q taper cfg none φ i a b M n = .ok k) (hq : 0 < q.maxChordAngle) (hd : 1 / 500000 ≤ cfg.holeDiameter)
    (hb : 1 / 500000 ≤ cfg.counterboreDiameter) (hn : 0 < cfg.nutAcrossFlats) (hr : 1 / 1000000 ≤ cfg.cornerRadius)
    (hτ : 0 < Real.cos cfg.taperAngle) (hτ' : 0 ≤ Real.sin cfg.taperAngle) (hbase : 0 ≤ cfg.baseMargin) (hapex : 0 ≤ cfg.apexMargin) (hside : 0 ≤ cfg.taperMargin) :
    ∃ θ center, RoofFits cfg a.yz b.yz n θ center k := by
  unfold RoofBracket.make at h
  dsimp only at h
  obtain ⟨⟨lf, lb, t, g⟩, h1, h'⟩ := bind_ok h
  clear h
  obtain ⟨d, h2, h⟩ := bind_ok h'
  clear h'
  dsimp only at h
  have hmax : 0 < max cfg.counterboreDiameter cfg.nutAcrossFlats := lt_max_of_lt_right hn
  obtain ⟨rfl, rfl, F, B, cF, cB, rfl, rfl, Fx, Fz, Bx, Bz, Ft, Bt, hall, p, hp, hpz⟩ := roofSketch_ok h1 hq hτ hr (by linarith)
  obtain ⟨ps, hl, hr', al, k1, ral, k2, k3, k4, k5⟩ := roofPlain_parts h
  have u := normalized_unit h2
  have dx : d.x = 0 := normalized_x h2 (by simp [Vec.yz])
  have Ax : a.yz.x = 0 := rfl
  have Bx' : b.yz.x = 0 := rfl
  generalize a.yz = A at *
  generalize b.yz = C at *
  generalize hH : max (cfg.counterboreDiameter / 2) (cfg.nutAcrossFlats / 2) = H at *
  obtain ⟨u1, κ, hκ, ue⟩ := u
  have d1 : d.y ^ 2 + d.z ^ 2 = 1 := by
    simp only [Vec.dot, dx] at u1
    linarith
  have ey : C.y - A.y = d.y * κ := by simpa using congrArg Vec.y ue
  have ez : C.z - A.z = d.z * κ := by simpa using congrArg Vec.z ue
  obtain ⟨hc, hs⟩ : Real.cos (angle2D ⟨-(C - A).y, -(C - A).z, 0⟩) = -d.y ∧ Real.sin (angle2D ⟨-(C - A).y, -(C - A).z, 0⟩) = -d.z := by
    have e : (⟨-(C - A).y, -(C - A).z, 0⟩ : Vec) = ⟨κ * -d.y, κ * -d.z, 0⟩ := by
      simp only [Vec.sub_y, Vec.sub_z, ey, ez]
      ext <;> simp <;> ring
    rw [e, angle_scaled hκ]
    exact angle2D_unit (v := ⟨-d.y, -d.z, 0⟩) (by simp only; linarith)
  generalize angle2D ⟨-(C - A).y, -(C - A).z, 0⟩ = θ at *
  clear h
  dsimp only at Fz Bz hall hpz
  have hH0 : 0 < H := by rw [← hH]; exact lt_max_of_lt_right (by linarith)
  have hT0 : 0 < max (cfg.counterboreDiameter / 2) (hexTangentDist cfg.nutRadius (cfg.taperAngle - Real.pi / 2)) := lt_max_of_lt_left (by linarith)
  have hFB : F.y = -B.y := by
    apply mul_right_cancel₀ hτ.ne'
    rw [Fz] at Ft
    rw [Bz] at Bt
    linarith
  have hB0 : 0 < B.y := by
    have : 0 ≤ B.z * Real.sin cfg.taperAngle := mul_nonneg (by rw [Bz]; linarith) hτ'
    exact (mul_pos_iff_of_pos_right hτ).mp (by linarith)
  have hW : (F - B).magnitude = 2 * B.y := by
    unfold Vec.magnitude
    simp only [Vec.sub_x, Vec.sub_y, Vec.sub_z, Fx, Bx, Fz, Bz, hFB]
    rw [show ((0 : ℝ) - 0) * (0 - 0) + (-B.y - B.y) * (-B.y - B.y) + (H + cfg.baseMargin - (H + cfg.baseMargin)) * (H + cfg.baseMargin - (H + cfg.baseMargin)) = (2 * B.y) ^ 2 by ring]
    exact Real.sqrt_sq (by linarith)
  have hL : Real.sqrt ((C.y - A.y) ^ 2 + (C.z - A.z) ^ 2) = κ := by
    rw [ey, ez, show (d.y * κ) ^ 2 + (d.z * κ) ^ 2 = κ ^ 2 by linear_combination κ ^ 2 * d1]
    exact Real.sqrt_sq hκ.le
  have hL' : (C - A).magnitude = κ := by
    rw [← hL]
    unfold Vec.magnitude
    simp [Ax, Bx', pow_two]
  rw [hW, hL'] at ral
  generalize hs' : (85 / 100 * (κ - 2 * B.y) + 2 * B.y / 2) = s at *
  obtain ⟨center, hce⟩ : ∃ center : Vec, center = A + d * s + ⟨0, (H + cfg.baseMargin) * Real.sin θ, -((H + cfg.baseMargin) * Real.cos θ)⟩ := ⟨_, rfl⟩
  have hal : (fun v : Vec => v.transformed al) = turned θ center := by
    funext v
    rw [ral, roofAlign_turned, hce]
    congr 1
    ext <;> simp
  have hal' : ∀ v : Vec, v.transformed al = turned θ center v := fun v => congrFun hal v
  rw [hal] at k2 k3 k4
  rw [hal', hal'] at k5
  have hbel : ∀ v, below A C (turned θ center v) = H + cfg.baseMargin - v.z := by
    intro v
    rw [below_unit ⟨u1, κ, hκ, ue⟩ dx, hce]
    simp only [turned, Vec.add_x, Vec.add_y, Vec.add_z, Vec.mul_y, Vec.mul_z, hc, hs]
    linear_combination (H + cfg.baseMargin - v.z) * d1
  have halo : ∀ v, alongRoof A C (turned θ center v) = s - v.y := by
    intro v
    unfold alongRoof
    rw [hL, div_eq_iff hκ.ne', ey, ez, hce]
    simp only [turned, Vec.add_x, Vec.add_y, Vec.add_z, Vec.mul_y, Vec.mul_z, hc, hs]
    linear_combination (κ * (s - v.y)) * d1
  have hcx : center.x = 0 := by rw [hce]; simp [Ax, dx]
  have sc := Real.sin_sq_add_cos_sq cfg.taperAngle
  have hd0 : 0 ≤ cfg.counterboreDiameter := by linarith
  have s3 : 0 < Real.sqrt 3 := by positivity
  have h33 : Real.sqrt 3 * Real.sqrt 3 = 3 := Real.mul_self_sqrt (by norm_num)
  have hA : cfg.nutAcrossFlats = cfg.nutRadius * Real.sqrt 3 := by unfold BracketCfg.nutRadius; field_simp
  have hup : cfg.nutAcrossFlats / 2 = cfg.nutRadius * hexSupport 0 1 := by
    unfold hexSupport
    norm_num
    rw [max_eq_right (by positivity), hA]
    ring
  have hdn : cfg.nutAcrossFlats / 2 = cfg.nutRadius * hexSupport 0 (-1) := by rw [hup, hexSupport_abs (u' := 0) (w' := -1) rfl (by norm_num)]
  refine ⟨θ, center, ⟨?_, κ, hκ, ?_⟩, ⟨ps, hl, screwHole_ok k1 rfl hq hd hb hn, k4, k3⟩, ?_, ⟨turned θ center p, ?_, ?_, ?_⟩,
    ⟨turned θ center B, turned θ center F, ?_, ?_, ?_, ?_, ?_, ?_, k5, ?_, ?_, ?_, ?_⟩⟩
  · simp only [Vec.dot, hc, hs]
    linarith
  · rw [ue, hc, hs]
    ext <;> simp [dx]
  · refine screw_margin (u := 0) (w := 1) (d := H + cfg.baseMargin) (by norm_num) hn.le hd0 hup (fun v => ?_) (by rw [hH])
    rw [hbel]
    simp
  · rw [k2]
    simp only [List.mem_reverse]
    exact List.mem_map_of_mem hp
  · intro p' hp'
    rw [k2] at hp'
    obtain ⟨w, hw, rfl⟩ := List.mem_map.mp (List.mem_reverse.mp hp')
    rw [hbel, hbel]
    have := (hall w hw).2
    linarith
  · refine screw_margin (u := 0) (w := -1) (d := H + cfg.apexMargin) (by norm_num) hn.le hd0 hdn (fun v => ?_) (by rw [hH])
    rw [hbel, hbel]
    simp
    linarith
  · rw [k2]
    simp
  · rw [k2, List.getLast?_reverse]
    simp
  · simp [turned, hcx, Bx]
  · simp [turned, hcx, Fx]
  · rw [hbel, Bz]; ring
  · rw [hbel, Fz]; ring
  · rw [hL, halo, halo, hFB, ← hs']
    ring
  · rw [halo, halo, hFB]
    linarith
  · refine screw_margin (u := Real.cos cfg.taperAngle) (w := -Real.sin cfg.taperAngle) (d := B.y * Real.cos cfg.taperAngle - B.z * Real.sin cfg.taperAngle)
      (by linarith) hn.le hd0 (hexTangentDist_eq cfg.nutRadius (cfg.taperAngle - Real.pi / 2) |>.trans ?_) (fun v => ?_) Bt
    · rw [Real.sin_sub_pi_div_two, Real.cos_sub_pi_div_two, hexSupport_abs (abs_neg _) (abs_neg _).symm]
    · rw [halo, halo, hbel, Bz]
      simp
      ring
  · refine screw_margin (u := -Real.cos cfg.taperAngle) (w := -Real.sin cfg.taperAngle) (d := -F.y * Real.cos cfg.taperAngle - F.z * Real.sin cfg.taperAngle)
      (by linarith) hn.le hd0 (hexTangentDist_eq cfg.nutRadius (cfg.taperAngle - Real.pi / 2) |>.trans ?_) (fun v => ?_) Ft
    · rw [Real.sin_sub_pi_div_two, Real.cos_sub_pi_div_two, hexSupport_abs rfl (abs_neg _).symm]
    · rw [halo, halo, hbel, Fz]
      simp
      ring

theorem roofSketch_exists {q : Quality} {cfg : BracketCfg} (hs : SaneBracket q cfg) : ∃ lf lb t g, roofSketch q cfg = .ok (lf, lb, t, g) := by
  have sc := Real.sin_sq_add_cos_sq cfg.taperAngle
  have t0 := hs.taper
  have t1 := hs.taper'
  have cpos : 0 < Real.cos cfg.taperAngle := by linarith
  have c2 : 1 / 1000000 ≤ Real.cos cfg.taperAngle ^ 2 := by nlinarith
  have s1 : Real.sin cfg.taperAngle < 1 := by linarith [Real.cos_le_one cfg.taperAngle]
  have hR : 0 < cfg.nutRadius := by unfold BracketCfg.nutRadius; have := hs.nut; positivity
  have hA : cfg.nutAcrossFlats / 2 = cfg.nutRadius * (Real.sqrt 3 / 2) := by unfold BracketCfg.nutRadius; field_simp
  have hT : max (cfg.counterboreDiameter / 2) (cfg.nutAcrossFlats / 2) ≤
      max (cfg.counterboreDiameter / 2) (hexTangentDist cfg.nutRadius (cfg.taperAngle - Real.pi / 2)) :=
    max_le_max le_rfl (by rw [hA]; exact hexTangentDist_ge hR.le)
  have hA0 : 0 < max (cfg.counterboreDiameter / 2) (cfg.nutAcrossFlats / 2) := lt_max_of_lt_left (by linarith [hs.bore])
  have hap := hs.apex
  have hsi := hs.side
  have hba := hs.base
  unfold roofSketch
  dsimp only
  generalize max (cfg.counterboreDiameter / 2) (hexTangentDist cfg.nutRadius (cfg.taperAngle - Real.pi / 2)) = T at *
  generalize max (cfg.counterboreDiameter / 2) (cfg.nutAcrossFlats / 2) = H at *
  rw [line_self (by simp only [Vec.dot]; linarith), value_bind, line_self (by simp only [Vec.dot, Vec.mirroredY]; linarith), value_bind,
    line_self (d := (⟨0, 1, 0⟩ : Vec)) (by simp [Vec.dot]), value_bind, line_self (d := (⟨0, 1, 0⟩ : Vec)) (by simp [Vec.dot]), value_bind]
  have lev : ∀ v : ℝ, UprightLine ⟨⟨0, 0, v⟩, ⟨0, 1, 0⟩⟩ := fun v => ⟨rfl, rfl, by simp⟩
  have upB : UprightLine ⟨(⟨0, Real.cos cfg.taperAngle, -Real.sin cfg.taperAngle⟩ : Vec) * (T + cfg.taperMargin),
    ⟨0, Real.sin cfg.taperAngle, Real.cos cfg.taperAngle⟩⟩ := ⟨by simp, rfl, by simp only; linarith⟩
  have upF : UprightLine ⟨((⟨0, Real.cos cfg.taperAngle, -Real.sin cfg.taperAngle⟩ : Vec) * (T + cfg.taperMargin)).mirroredY,
    (⟨0, Real.sin cfg.taperAngle, Real.cos cfg.taperAngle⟩ : Vec).mirroredY⟩ := ⟨by simp [Vec.mirroredY], rfl, by simp only [Vec.mirroredY]; linarith⟩
  obtain ⟨FT, i1⟩ := upright_meets upF (lev (H + cfg.baseMargin)) (by simp only [Vec.mirroredY]; nlinarith)
  obtain ⟨FG, i2⟩ := upright_meets upF (lev (-(H + cfg.apexMargin))) (by simp only [Vec.mirroredY]; nlinarith)
  obtain ⟨BG, i3⟩ := upright_meets upB (lev (-(H + cfg.apexMargin))) (by simp only; nlinarith)
  obtain ⟨BT, i4⟩ := upright_meets upB (lev (H + cfg.baseMargin)) (by simp only; nlinarith)
  obtain ⟨-, t2, e2⟩ := upright_intersect upF (lev _) i1
  obtain ⟨⟨t3, e3⟩, t4, e4⟩ := upright_intersect upF (lev _) i2
  obtain ⟨⟨t5, e5⟩, t6, e6⟩ := upright_intersect upB (lev _) i3
  obtain ⟨-, t8, e8⟩ := upright_intersect upB (lev _) i4
  have FTz : FT.z = H + cfg.baseMargin := by rw [e2]; simp
  have BTz : BT.z = H + cfg.baseMargin := by rw [e8]; simp
  have FGz : FG.z = -(H + cfg.apexMargin) := by rw [e4]; simp
  have BGz : BG.z = -(H + cfg.apexMargin) := by rw [e6]; simp
  have f1 : -FG.y * Real.cos cfg.taperAngle - FG.z * Real.sin cfg.taperAngle = T + cfg.taperMargin := by
    rw [e3]
    simp [Vec.mirroredY]
    linear_combination (T + cfg.taperMargin) * sc
  have f2 : BG.y * Real.cos cfg.taperAngle - BG.z * Real.sin cfg.taperAngle = T + cfg.taperMargin := by
    rw [e5]
    simp
    linear_combination (T + cfg.taperMargin) * sc
  have ne : BG.y - FG.y ≠ 0 := by
    intro h
    have h0 : (BG.y - FG.y) * Real.cos cfg.taperAngle = 0 := by rw [h, zero_mul]
    rw [FGz] at f1
    rw [BGz] at f2
    have h5 : (H + cfg.apexMargin) * Real.sin cfg.taperAngle < (H + cfg.apexMargin) * 1 := mul_lt_mul_of_pos_left s1 (by linarith)
    linarith
  obtain ⟨cF, i5⟩ := archCorner_exists (r := cfg.cornerRadius) (a := FT) (b := FG) (c := BG) hs.angle hs.height hs.corner hs.corner' (by
      rw [FTz, FGz, BGz, sub_self, mul_zero, zero_sub, neg_ne_zero]
      exact mul_ne_zero (by intro h; linarith) ne)
  obtain ⟨cB, i6⟩ := archCorner_exists (r := cfg.cornerRadius) (a := FG) (b := BG) (c := BT) hs.angle hs.height hs.corner hs.corner' (by
      rw [BTz, FGz, BGz, sub_self, zero_mul, sub_zero]
      exact mul_ne_zero (by intro h; apply ne; linarith) (by intro h; linarith))
  exact ⟨_, _, _, _, bind_ok_of i1 (bind_ok_of i2 (bind_ok_of i3 (bind_ok_of i4 (bind_ok_of i5 (bind_ok_of i6 rfl)))))⟩

/-- C102. A roof bracket of sensible dimensions can be made below every roof. -/
theorem C102_roof_succeeds {q : Quality} {taper : Option ℝ} {cfg : BracketCfg} {φ i : ℝ} {a b : Vec} {M : Mat} (n : Bool) (hs : SaneBracket q cfg)
    (ht : ∀ t ∈ taper, t < Real.pi) (hab : a.yz ≠ b.yz) : ∃ k, RoofBracket.make q taper cfg none φ i a b M n = .ok k := by
  obtain ⟨lf, lb, t, g, h1⟩ := roofSketch_exists hs
  have hmax : 0 < max cfg.counterboreDiameter cfg.nutAcrossFlats := lt_max_of_lt_right hs.nut
  obtain ⟨-, -, F, B, cF, cB, rfl, rfl, -⟩ := roofSketch_ok h1 hs.angle (by linarith [hs.taper, hs.taper']) hs.corner (by linarith [hs.base, hs.apex])
  obtain ⟨d, h2, -⟩ := Vec.normalized_ok (b.yz - a.yz) (fun e => hab (by
    have ey := congrArg Vec.y e
    have ez := congrArg Vec.z e
    simp only [Vec.sub_y, Vec.sub_z, Vec.zero_y, Vec.zero_z] at ey ez
    ext
    · rfl
    · linarith
    · linarith))
  obtain ⟨ps, l, r, h3⟩ := screwHole_exists hs ht 0 n false
  unfold RoofBracket.make
  dsimp only
  refine bind_ex h1 (bind_ex h2 ?_)
  unfold roofPlain
  dsimp only
  have ls : ∀ {l : List Vec} (n : l ≠ []), pyIndex l (-1) = .ok (l.getLast n) := fun n => pyIndex_last.mpr (List.getLast?_eq_some_getLast n)
  refine bind_ex (a := F) (pyIndex_zero.mpr rfl) (bind_ex (a := B) (pyIndex_last.mpr (by simp)) ?_)
  refine bind_ex (pyIndex_zero.mpr rfl) (bind_ex (ls (by simp [edgeTransformed])) (bind_ex (pyIndex_zero.mpr rfl) (bind_ex (ls (by simp [edgeTransformed, edgeTranslated])) ?_)))
  unfold roofFinish
  exact bind_ex h3 ⟨_, rfl⟩

/-- C102 for the roof bracket of the example, below a roof that rises by one in five. -/
example : ∃ k θ center, RoofBracket.make ⟨1 / 10, 1⟩ (some (Real.pi / 4)) exBracket none 0 0 ⟨0, 50, 20⟩ ⟨0, 0, 30⟩ 1 true = .ok k ∧
    RoofFits exBracket ⟨0, 50, 20⟩ ⟨0, 0, 30⟩ true θ center k := by
  have hs := exBracket_sane
  obtain ⟨k, hk⟩ := C102_roof_succeeds (taper := some (Real.pi / 4)) (φ := 0) (i := 0) (a := ⟨0, 50, 20⟩) (b := ⟨0, 0, 30⟩) (M := 1) true hs
    (by intro t ht; obtain rfl := Option.mem_some_iff.mp ht; linarith [Real.pi_pos]) (by simp [Vec.yz])
  obtain ⟨θ, center, hc⟩ := C102_roof hk hs.angle hs.hole hs.bore hs.nut hs.corner (by linarith [hs.taper, hs.taper']) hs.taper hs.base hs.apex (hs.apex.trans hs.side)
  exact ⟨k, θ, center, hk, hc⟩

end Chrumm.Part
