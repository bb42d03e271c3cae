import Verif.Spec.Encoder
import Verif.Props.Pieces
import Verif.Props.Layout
import Verif.Props.Align

/-! C80: the encoder hole. -/

namespace Chrumm.Part
open Geo Geo.Spec Spec Classical

/-- Alignment of the z axis with an upward normal. -/
theorem align_up {n : Vec} {m : Mat} (pos : Vec) (hn : Upwards n) (h : Mat.fromAlignment ⟨0, 0, 1⟩ n = .ok m) :
    (∀ p q : Vec, distSq (p.transformed (m.translated pos)) (q.transformed (m.translated pos)) = distSq p q) ∧
    (∀ p q : Vec, p.z = q.z → ((p.transformed (m.translated pos) - q.transformed (m.translated pos)).dot n) ^ 2 ≤
      1 / 4 * distSq p q) ∧
    (n.x = 0 → ∀ p : Vec, (p.transformed (m.translated pos)).x = p.x + pos.x) := by
  obtain ⟨hu, hz⟩ := hn
  have ha : UnitOf (⟨0, 0, 1⟩ : Vec) ⟨0, 0, 1⟩ := ⟨by simp [Vec.dot], 1, one_pos, by ext <;> simp⟩
  have hb : UnitOf n n := ⟨hu, 1, one_pos, by ext <;> simp⟩
  have e := fromAlignment_eq ha hb
  have haff := fromAlignment_affine h
  rw [h] at e
  have hd : 1 + (⟨0, 0, 1⟩ : Vec).dot n = 1 + n.z := by simp [Vec.dot]
  split_ifs at e with h1 h2
  · obtain rfl := Except.ok.inj e
    have ht : ∀ v : Vec, v.transformed ((1 : Mat).translated pos) = v + pos := by
      intro v
      rw [Mat.transformed_translated Mat.Affine.one, Vec.transformed_one]
    rw [← near_iff] at h1
    obtain ⟨n1, n2, -⟩ := h1
    simp only [zero_sub, abs_neg] at n1 n2
    refine ⟨fun p q => ?_, fun p q hpq => ?_, fun _ p => by rw [ht]; simp⟩
    · simp only [ht, distSq, Vec.add_x, Vec.add_y, Vec.add_z]; ring
    · simp only [ht, distSq, Vec.dot, Vec.sub_x, Vec.sub_y, Vec.sub_z, Vec.add_x, Vec.add_y, Vec.add_z, hpq]
      have k1 : n.x ^ 2 ≤ 1 / 8 := by rw [← sq_abs]; nlinarith [abs_nonneg n.x]
      have k2 : n.y ^ 2 ≤ 1 / 8 := by rw [← sq_abs]; nlinarith [abs_nonneg n.y]
      have h3 : ((p.x - q.x) * n.x + (p.y - q.y) * n.y) ^ 2 ≤ ((p.x - q.x) ^ 2 + (p.y - q.y) ^ 2) * (n.x ^ 2 + n.y ^ 2) := by
        nlinarith [sq_nonneg ((p.x - q.x) * n.y - (p.y - q.y) * n.x)]
      have h4 : ((p.x - q.x) ^ 2 + (p.y - q.y) ^ 2) * (n.x ^ 2 + n.y ^ 2) ≤ ((p.x - q.x) ^ 2 + (p.y - q.y) ^ 2) * (1 / 4) :=
        mul_le_mul_of_nonneg_left (by linarith) (by positivity)
      have h5 : ∀ c : ℝ, ((p.x + pos.x - (q.x + pos.x)) * n.x + (p.y + pos.y - (q.y + pos.y)) * n.y + (c + pos.z - (c + pos.z)) * n.z) =
        (p.x - q.x) * n.x + (p.y - q.y) * n.y := by intro c; ring
      rw [h5]
      linarith
  · exfalso
    rw [← near_iff] at h2
    have := (abs_lt.mp h2.2.2).2
    simp only [Vec.neg_z] at this
    linarith
  · obtain rfl := Except.ok.inj e
    have hne : 1 + (⟨0, 0, 1⟩ : Vec).dot n ≠ 0 := by rw [hd]; linarith
    have hr := alignMat_rigid ha.1 hb.1 hne
    have hm := alignMat_maps ha.1 hb.1 hne
    have ht : ∀ v : Vec, v.transformed ((alignMat ⟨0, 0, 1⟩ n).translated pos) = v.transformed (alignMat ⟨0, 0, 1⟩ n) + pos := by
      intro v
      rw [Mat.transformed_translated haff]
    have hap := alignMat_apply ⟨0, 0, 1⟩ n
    refine ⟨fun p q => ?_, fun p q hpq => ?_, fun hx p => ?_⟩
    · have := hr.1 p q
      simp only [ht, distSq, Vec.add_x, Vec.add_y, Vec.add_z] at this ⊢
      linear_combination this
    · have hk : (1 / (1 + n.z)) * (1 + n.z) = 1 := by rw [hd] at hne; field_simp
      have : (p.transformed ((alignMat ⟨0, 0, 1⟩ n).translated pos) - q.transformed ((alignMat ⟨0, 0, 1⟩ n).translated pos)).dot n = 0 := by
        rw [ht, ht, hap, hap, hd]
        generalize 1 / (1 + n.z) = k at hk
        simp only [Vec.dot, Vec.cross, Vec.add_x, Vec.add_y, Vec.add_z, Vec.sub_x, Vec.sub_y, Vec.sub_z, Vec.mul_x, Vec.mul_y,
          Vec.mul_z, hpq] at hu ⊢
        have hw : ∃ w, w = (p.x - q.x) * n.x + (p.y - q.y) * n.y := ⟨_, rfl⟩
        obtain ⟨w, hw⟩ := hw
        linear_combination -(k * ((p.x - q.x) * n.x + (p.y - q.y) * n.y)) * hu -
          ((p.x - q.x) * n.x + (p.y - q.y) * n.y) * (1 - n.z) * hk
      rw [this]
      have : 0 ≤ distSq p q := by unfold distSq; positivity
      linarith
    · rw [ht, hap]
      simp [Vec.cross, hx]

theorem drop_ok {n p v : Vec} {plane : Plane} (hn : n.dot n = 1)
    (h : (do let line ← Line.make p n; plane.intersectLine line) = .ok v) : v = p + n * (plane.normal.dot (plane.pos - p) / plane.normal.dot n) ∧ plane.normal.dot n ≠ 0 := by
  obtain ⟨l, h1, h2⟩ := bind_ok h
  unfold Line.make at h1
  have hu : UnitOf n n := ⟨hn, 1, one_pos, by ext <;> simp⟩
  rw [hu.normalized] at h1
  obtain rfl := Except.ok.inj h1
  unfold Plane.intersectLine at h2
  dsimp only at h2
  split_ifs at h2
  obtain ⟨k, h4, h3⟩ := bind_ok h2
  rw [← (Except.ok.inj h3)]
  unfold pyDiv at h4
  split_ifs at h4 with h5
  rw [← Except.ok.inj h4]
  exact ⟨rfl, h5⟩

theorem drop_on {a b n p : Vec} (h : b.dot n ≠ 0) : OnPlane a b (p + n * (b.dot (a - p) / b.dot n)) := by
  have hk : b.dot (a - p) / b.dot n * b.dot n = b.dot (a - p) := div_mul_cancel₀ _ h
  generalize b.dot (a - p) / b.dot n = k at hk
  simp only [OnPlane, Vec.dot, Vec.sub_x, Vec.sub_y, Vec.sub_z, Vec.add_x, Vec.add_y, Vec.add_z, Vec.mul_x, Vec.mul_y,
    Vec.mul_z] at hk ⊢
  linear_combination hk

theorem drop_apart {n p q : Vec} (k l : ℝ) (hn : n.dot n = 1) (h : ((p - q).dot n) ^ 2 ≤ 1 / 4 * distSq p q) :
    3 / 4 * distSq p q ≤ distSq (p + n * k) (q + n * l) := by
  have e : distSq (p + n * k) (q + n * l) = distSq p q + 2 * (k - l) * (p - q).dot n + (k - l) ^ 2 := by
    simp only [Vec.dot] at hn
    simp only [distSq, Vec.dot, Vec.add_x, Vec.add_y, Vec.add_z, Vec.mul_x, Vec.mul_y, Vec.mul_z, Vec.sub_x, Vec.sub_y, Vec.sub_z]
    linear_combination (k - l) ^ 2 * hn
  rw [e]
  nlinarith [sq_nonneg (k - l + (p - q).dot n)]

theorem index_last {l : List Vec} {x : Vec} (h : pyIndex l (-1) = .ok x) : l ≠ [] ∧ x = l.getLastD 0 := by
  rw [pyIndex_last] at h
  have hl : l ≠ [] := by rintro rfl; simp at h
  rw [List.getLast?_eq_some_getLast hl] at h
  exact ⟨hl, by rw [getLastD_eq hl]; exact (Option.some.inj h).symm⟩

theorem index_zero {l : List Vec} {x : Vec} (h : pyIndex l 0 = .ok x) : l ≠ [] ∧ x = l.headD 0 := by
  rw [pyIndex_zero] at h
  cases l with
  | nil => simp at h
  | cons a l => exact ⟨by simp, (Option.some.inj h).symm⟩

/-- What is known about a successful encoder. -/
theorem encoder_data {q : Quality} {taper : Option ℝ} {cfg : EncoderCfg} {roofO roofI : Plane} {e : Encoder}
    (h : Encoder.make q taper cfg roofO roofI = .ok e) (hn : Upwards roofO.normal) :
    ∃ m : Mat, Mat.fromAlignment ⟨0, 0, 1⟩ roofO.normal = .ok m ∧
    ∃ hole : List Vec, uprightHalfHole2D q taper (cfg.holeDiameter / 2) = .ok hole ∧
    ∃ (ratio : ℝ) (κ : Vec → ℝ),
    let f : Vec → Vec := fun p => p.transformed (m.translated roofO.pos)
    let arc := hole.map fun p => (⟨p.y, p.x, 0⟩ : Vec)
    let holeT := (edgeScaled arc (1 + ratio)).map f
    let holeC := (edgeTranslated arc ⟨0, 0, -cfg.holeChamfer⟩).map f
    let holeG := (edgeTranslated arc ⟨0, 0, -cfg.holeHeight⟩).map f
    let b0 : Vec := f ⟨0, cfg.depth / 2, -cfg.holeHeight⟩
    let b1 : Vec := f ⟨cfg.width / 2, cfg.depth / 2, -cfg.holeHeight⟩
    let b2 : Vec := f ⟨cfg.width / 2 + cfg.pinNotchDepth, cfg.depth / 2 - cfg.pinNotchDepth, -cfg.holeHeight⟩
    let b3 : Vec := f ⟨cfg.width / 2 + cfg.pinNotchDepth, -(cfg.depth / 2 - cfg.pinNotchDepth), -cfg.holeHeight⟩
    let b4 : Vec := f ⟨cfg.width / 2, -(cfg.depth / 2), -cfg.holeHeight⟩
    let b5 : Vec := f ⟨0, -(cfg.depth / 2), -cfg.holeHeight⟩
    let n := roofO.normal
    let boxG := [b0 + n * κ b0, b1 + n * κ b1, b2 + n * κ b2, b3 + n * κ b3, b4 + n * κ b4, b5 + n * κ b5]
    (hole ≠ [] ∧ pyDiv cfg.holeChamfer (cfg.holeDiameter / 2) = .ok ratio ∧
      ∀ p : Vec, OnPlane roofI.pos roofI.normal (p + n * κ p)) ∧
    e = { splitEdgeF := [holeT.getLastD 0, holeC.getLastD 0, holeG.getLastD 0, b5, b5 + n * κ b5]
          splitEdgeB := [b0 + n * κ b0, b0, holeG.headD 0, holeC.headD 0, holeT.headD 0]
          roofEdgeI := (collapsed boxG (1 / 1000)).reverse
          roofEdgeO := holeT
          pieces := [strip holeC holeT, strip holeG holeC, strip boxG [b0, b1, b1, b4, b4, b5],
            face ([b0, b1, b4, b5] ++ holeG.reverse)] } := by
  unfold Encoder.make at h
  dsimp only at h
  obtain ⟨m, h1, h⟩ := bind_ok h
  obtain ⟨hole, h2, h⟩ := bind_ok h
  obtain ⟨ratio, h3, h⟩ := bind_ok h
  obtain ⟨boxG, h4, h⟩ := bind_ok h
  obtain ⟨t0, h5, h⟩ := bind_ok h
  obtain ⟨t1, h6, h⟩ := bind_ok h
  obtain ⟨t4, h7, h⟩ := bind_ok h
  obtain ⟨t5, h8, h⟩ := bind_ok h
  obtain ⟨F, h9, h⟩ := bind_ok h
  obtain ⟨B, h10, h⟩ := bind_ok h
  refine ⟨m, h1, hole, h2, ratio, ?_⟩
  have eb : edgeTransformed (encoderBox cfg) (m.translated roofO.pos) = ([⟨0, cfg.depth / 2, -cfg.holeHeight⟩,
    ⟨cfg.width / 2, cfg.depth / 2, -cfg.holeHeight⟩,
    ⟨cfg.width / 2 + cfg.pinNotchDepth, cfg.depth / 2 - cfg.pinNotchDepth, -cfg.holeHeight⟩,
    ⟨cfg.width / 2 + cfg.pinNotchDepth, -(cfg.depth / 2 - cfg.pinNotchDepth), -cfg.holeHeight⟩,
    ⟨cfg.width / 2, -(cfg.depth / 2), -cfg.holeHeight⟩,
    ⟨0, -(cfg.depth / 2), -cfg.holeHeight⟩] : List Vec).map fun p => p.transformed (m.translated roofO.pos) := rfl
  rw [eb] at h4 h5 h6 h7 h8
  obtain rfl := Except.ok.inj h5
  obtain rfl := Except.ok.inj h6
  obtain rfl := Except.ok.inj h7
  obtain rfl := Except.ok.inj h8
  replace h4 := mapM_ok h4
  simp only [List.map_cons, List.map_nil] at h4
  clear eb
  rcases h4 with _ | ⟨p0, h4⟩
  rcases h4 with _ | ⟨p1, h4⟩
  rcases h4 with _ | ⟨p2, h4⟩
  rcases h4 with _ | ⟨p3, h4⟩
  rcases h4 with _ | ⟨p4, h4⟩
  rcases h4 with _ | ⟨p5, h4⟩
  rcases h4 with _ | _
  obtain ⟨rfl, hdot⟩ := drop_ok hn.1 p0
  obtain ⟨rfl, -⟩ := drop_ok hn.1 p1
  obtain ⟨rfl, -⟩ := drop_ok hn.1 p2
  obtain ⟨rfl, -⟩ := drop_ok hn.1 p3
  obtain ⟨rfl, -⟩ := drop_ok hn.1 p4
  obtain ⟨rfl, -⟩ := drop_ok hn.1 p5
  refine ⟨fun p => roofI.normal.dot (roofI.pos - p) / roofI.normal.dot roofO.normal, ?_⟩
  replace h9 := mapM_ok h9
  replace h10 := mapM_ok h10
  simp only [List.reverse_cons, List.reverse_nil, List.nil_append, List.cons_append] at h9
  rcases h9 with _ | ⟨f0, h9⟩
  rcases h9 with _ | ⟨f1, h9⟩
  rcases h9 with _ | ⟨f2, h9⟩
  rcases h9 with _ | ⟨f3, h9⟩
  rcases h9 with _ | ⟨f4, h9⟩
  rcases h9 with _ | _
  rcases h10 with _ | ⟨g0, h10⟩
  rcases h10 with _ | ⟨g1, h10⟩
  rcases h10 with _ | ⟨g2, h10⟩
  rcases h10 with _ | ⟨g3, h10⟩
  rcases h10 with _ | ⟨g4, h10⟩
  rcases h10 with _ | _
  have hne : hole ≠ [] := by
    rintro rfl
    exact (index_last f0).1 rfl
  refine ⟨⟨hne, h3, fun p => ?_⟩, ?_⟩
  · exact drop_on hdot
  obtain rfl := Except.ok.inj h
  rw [(index_last f0).2, (index_last f1).2, (index_last f2).2, (index_last f3).2, (index_last f4).2, (index_zero g0).2,
    (index_zero g1).2, (index_zero g2).2, (index_zero g3).2, (index_zero g4).2]
  rfl

/-- The corners of the box in the inner roof are apart. -/
theorem encoder_box {cfg : EncoderCfg} {roofO : Plane} {m : Mat} (κ : Vec → ℝ) (hc : SaneEncoder cfg) (hn : Upwards roofO.normal)
    (hm : Mat.fromAlignment ⟨0, 0, 1⟩ roofO.normal = .ok m) :
    let f : Vec → Vec := fun p => p.transformed (m.translated roofO.pos)
    let b0 : Vec := f ⟨0, cfg.depth / 2, -cfg.holeHeight⟩
    let b1 : Vec := f ⟨cfg.width / 2, cfg.depth / 2, -cfg.holeHeight⟩
    let b2 : Vec := f ⟨cfg.width / 2 + cfg.pinNotchDepth, cfg.depth / 2 - cfg.pinNotchDepth, -cfg.holeHeight⟩
    let b3 : Vec := f ⟨cfg.width / 2 + cfg.pinNotchDepth, -(cfg.depth / 2 - cfg.pinNotchDepth), -cfg.holeHeight⟩
    let b4 : Vec := f ⟨cfg.width / 2, -(cfg.depth / 2), -cfg.holeHeight⟩
    let b5 : Vec := f ⟨0, -(cfg.depth / 2), -cfg.holeHeight⟩
    let n := roofO.normal
    Apart [b0 + n * κ b0, b1 + n * κ b1, b2 + n * κ b2, b3 + n * κ b3, b4 + n * κ b4, b5 + n * κ b5] ∧
      b5 + n * κ b5 ≠ b0 + n * κ b0 := by
  intro f b0 b1 b2 b3 b4 b5 n
  obtain ⟨i1, i2, -⟩ := align_up roofO.pos hn hm
  have e0 : b0 = f ⟨0, cfg.depth / 2, -cfg.holeHeight⟩ := rfl
  have e1 : b1 = f ⟨cfg.width / 2, cfg.depth / 2, -cfg.holeHeight⟩ := rfl
  have e2 : b2 = f ⟨cfg.width / 2 + cfg.pinNotchDepth, cfg.depth / 2 - cfg.pinNotchDepth, -cfg.holeHeight⟩ := rfl
  have e3 : b3 = f ⟨cfg.width / 2 + cfg.pinNotchDepth, -(cfg.depth / 2 - cfg.pinNotchDepth), -cfg.holeHeight⟩ := rfl
  have e4 : b4 = f ⟨cfg.width / 2, -(cfg.depth / 2), -cfg.holeHeight⟩ := rfl
  have e5 : b5 = f ⟨0, -(cfg.depth / 2), -cfg.holeHeight⟩ := rfl
  have hd := hc.depth
  have hw := hc.width
  have hr := hc.rest
  have key : ∀ (p r : Vec) (k l : ℝ), p.z = r.z → 1 / 100000 ≤ distSq p r →
      1 / 1000 ≤ Real.sqrt (distSq (f p + n * k) (f r + n * l)) := by
    intro p r k l hz hd
    have h1 := i2 p r hz
    rw [← i1 p r] at h1 hd
    have h2 := drop_apart k l hn.1 h1
    apply Real.le_sqrt_of_sq_le
    change _ ≤ distSq ((p.transformed (m.translated roofO.pos)) + n * k) ((r.transformed (m.translated roofO.pos)) + n * l)
    linarith
  have hap : Apart [b0 + n * κ b0, b1 + n * κ b1, b2 + n * κ b2, b3 + n * κ b3, b4 + n * κ b4, b5 + n * κ b5] := by
    intro s hs
    simp only [cycPairs, List.rotate_cons_succ, List.rotate_zero, List.cons_append, List.nil_append, List.zip_cons_cons, List.zip_nil_right, List.mem_cons,
      List.not_mem_nil, or_false] at hs
    rcases hs with rfl | rfl | rfl | rfl | rfl | rfl
    · exact Or.inr (key _ _ _ _ rfl (by simp only [distSq]; nlinarith))
    · rcases hc.notch with h0 | h0
      · left
        have : b1 = b2 := by rw [e1, e2, h0, add_zero, sub_zero]
        simp only [this]
      · exact Or.inr (key _ _ _ _ rfl (by simp only [distSq]; nlinarith))
    · exact Or.inr (key _ _ _ _ rfl (by simp only [distSq]; nlinarith))
    · rcases hc.notch with h0 | h0
      · left
        have : b3 = b4 := by rw [e3, e4, h0, add_zero, sub_zero]
        simp only [this]
      · exact Or.inr (key _ _ _ _ rfl (by simp only [distSq]; nlinarith))
    · exact Or.inr (key _ _ _ _ rfl (by simp only [distSq]; nlinarith))
    · exact Or.inr (key _ _ _ _ rfl (by simp only [distSq]; nlinarith))
  have hne05 : b5 + n * κ b5 ≠ b0 + n * κ b0 := by
    intro h0
    have h1 := key ⟨0, -(cfg.depth / 2), -cfg.holeHeight⟩ ⟨0, cfg.depth / 2, -cfg.holeHeight⟩ (κ b5) (κ b0) rfl
      (by simp only [distSq]; nlinarith)
    rw [← e5, ← e0, h0] at h1
    have : distSq (b0 + n * κ b0) (b0 + n * κ b0) = 0 := by simp [distSq]
    rw [this, Real.sqrt_zero] at h1
    linarith
  exact ⟨hap, hne05⟩

/-- **C80** The pieces of an encoder fit together, except for the four edges where they meet the roof and the split
plane. -/
theorem C80_fit {q : Quality} {taper : Option ℝ} {cfg : EncoderCfg} {roofO roofI : Plane} {e : Encoder}
    (hc : SaneEncoder cfg) (hn : Upwards roofO.normal) (h : Encoder.make q taper cfg roofO roofI = .ok e) :
    Fit e.pieces (pathPairs e.splitEdgeF ++ pathPairs e.roofEdgeI ++ pathPairs e.splitEdgeB ++ pathPairs e.roofEdgeO) := by
  obtain ⟨m, hm, hole, -, ratio, κ, ⟨hne, -⟩, rfl⟩ := encoder_data h hn
  obtain ⟨hap, hne05⟩ := encoder_box κ hc hn hm
  set f : Vec → Vec := fun p => p.transformed (m.translated roofO.pos) with hf
  set b0 : Vec := f ⟨0, cfg.depth / 2, -cfg.holeHeight⟩ with e0
  set b1 : Vec := f ⟨cfg.width / 2, cfg.depth / 2, -cfg.holeHeight⟩ with e1
  set b2 : Vec := f ⟨cfg.width / 2 + cfg.pinNotchDepth, cfg.depth / 2 - cfg.pinNotchDepth, -cfg.holeHeight⟩ with e2
  set b3 : Vec := f ⟨cfg.width / 2 + cfg.pinNotchDepth, -(cfg.depth / 2 - cfg.pinNotchDepth), -cfg.holeHeight⟩ with e3
  set b4 : Vec := f ⟨cfg.width / 2, -(cfg.depth / 2), -cfg.holeHeight⟩ with e4
  set b5 : Vec := f ⟨0, -(cfg.depth / 2), -cfg.holeHeight⟩ with e5
  set n := roofO.normal
  clear_value b0 b1 b2 b3 b4 b5
  have arc_ne : (hole.map fun p => (⟨p.y, p.x, 0⟩ : Vec)) ≠ [] := by simpa using hne
  generalize (hole.map fun p => (⟨p.y, p.x, 0⟩ : Vec)) = arc at arc_ne
  have neT : (edgeScaled arc (1 + ratio)).map f ≠ [] := by simpa [edgeScaled] using arc_ne
  have neC : (edgeTranslated arc ⟨0, 0, -cfg.holeChamfer⟩).map f ≠ [] := by simpa [edgeTranslated] using arc_ne
  have neG : (edgeTranslated arc ⟨0, 0, -cfg.holeHeight⟩).map f ≠ [] := by simpa [edgeTranslated] using arc_ne
  generalize (edgeScaled arc (1 + ratio)).map f = T at *
  generalize (edgeTranslated arc ⟨0, 0, -cfg.holeChamfer⟩).map f = C at *
  generalize (edgeTranslated arc ⟨0, 0, -cfg.holeHeight⟩).map f = G at *
  rw [fit_iff]
  intro g hg
  obtain ⟨-, -, -, hcol⟩ := along_collapsed hg hap (by simp) hne05
  dsimp only
  rw [esum_append, esum_append, esum_append]
  change _ + (along g _ + along g _ + along g _ + along g _) = 0
  rw [along_reverse hg, hcol]
  have neG' : G.reverse ≠ [] := by simpa using neG
  simp only [List.map_cons, List.map_nil, List.sum_cons, List.sum_nil, rim_strip hg, rim_face]
  rw [around_eq _ (by simp), along_append (by simp) neG', getLastD_append neG', headD_append (by simp), along_reverse hg,
    headD_reverse, getLastD_reverse]
  simp only [along_cc, along_one, headD_cons, getLastD_cons _ (List.cons_ne_nil _ _), getLastD_one, hg.self]
  have s1 := hg.swap (C.getLastD 0) (T.getLastD 0)
  have s2 := hg.swap (G.getLastD 0) (C.getLastD 0)
  have s3 := hg.swap (G.getLastD 0) b5
  have s4 := hg.swap (b5 + n * κ b5) b5
  have s5 := hg.swap (G.headD 0) b0
  linarith

/-- **C80** The triangles of an encoder close the gap that its hole leaves in the inner roof, the outer roof and the
split plane. -/
theorem C80_closes {q : Quality} {taper : Option ℝ} {cfg : EncoderCfg} {roofO roofI : Plane} {e : Encoder}
    (hc : SaneEncoder cfg) (hn : Upwards roofO.normal) (h : Encoder.make q taper cfg roofO roofI = .ok e)
    {tss : List (List (Tri Vec))} (ht : SoundMesh e.pieces tss) :
    Closes tss.flatten
      (pathPairs e.splitEdgeF ++ pathPairs e.roofEdgeI ++ pathPairs e.splitEdgeB ++ pathPairs e.roofEdgeO) :=
  closes_of_fit (C80_fit hc hn h) ht

example : SaneEncoder ⟨12, 13, 7, 3, 1 / 2, 1 / 2, 1 / 2⟩ ∧ Upwards ⟨0, -3 / 5, 4 / 5⟩ := by
  refine ⟨⟨by norm_num, by norm_num, Or.inr (by norm_num), by norm_num⟩, ?_, ?_⟩ <;> norm_num [Vec.dot]

end Chrumm.Part
