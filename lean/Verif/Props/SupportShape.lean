import Verif.Spec.Support
import Verif.Props.Knob
import Verif.Props.ArcMesh
import Verif.Props.Rings
import Verif.Props.ConvexFace

/-! C96 and C58: the shape of the supports. -/

namespace Chrumm.Part
open Geo Geo.Spec Spec

/-- The outline of a slot with `n` chords of angle `θ` per end. -/
noncomputable def slotR (c : Vec) (h r θ : ℝ) (i : ℕ) : Vec := c + ⟨0, h + r * Real.sin (i * θ), -(r * Real.cos (i * θ))⟩
noncomputable def slotL (c : Vec) (h r θ : ℝ) (i : ℕ) : Vec := c + ⟨0, -(h + r * Real.sin (i * θ)), r * Real.cos (i * θ)⟩
noncomputable def slot (c : Vec) (h r θ : ℝ) (n : ℕ) : List Vec :=
  (List.range (n + 1)).map (slotR c h r θ) ++ (List.range (n + 1)).map (slotL c h r θ)

theorem range_reverse (n : ℕ) : (List.range (n + 1)).reverse = (List.range (n + 1)).map fun i => n - i := by
  refine List.ext_getElem (by simp) fun i h1 h2 => ?_
  simp only [List.length_reverse, List.length_range] at h1
  simp only [List.getElem_reverse, List.getElem_range, List.getElem_map, List.length_range]
  omega

theorem slot_halves {c : Vec} {h r θ : ℝ} {n : ℕ} (hθ : n * θ = Real.pi) (hy : c.y = 0) :
    (List.range (n + 1)).map (slotR c h r θ) ++ (((List.range (n + 1)).map (slotR c h r θ)).map Vec.mirroredY).reverse =
      slot c h r θ n := by
  unfold slot
  rw [← List.map_reverse, ← List.map_reverse, range_reverse, List.map_map, List.map_map]
  congr 1
  refine List.map_congr_left fun i hi => ?_
  rw [List.mem_range] at hi
  have e : ((n - i : ℕ) : ℝ) * θ = Real.pi - i * θ := by
    rw [Nat.cast_sub (by omega), sub_mul, hθ]
  simp only [Function.comp_apply, slotR, slotL, Vec.mirroredY, e, Real.sin_pi_sub, Real.cos_pi_sub]
  ext <;> simp [hy]

theorem slot_translated (c v : Vec) (h r θ : ℝ) (n : ℕ) : edgeTranslated (slot c h r θ n) v = slot (c + v) h r θ n := by
  unfold edgeTranslated slot
  rw [List.map_append, List.map_map, List.map_map]
  congr 1 <;> refine List.map_congr_left fun i _ => ?_ <;> simp only [Function.comp_apply, slotR, slotL] <;>
    ext <;> simp <;> ring

/-- The centers of the two ends. -/
noncomputable def baseCenter (holeW holeD holeH : ℝ) (cfg : SupportCfg) : Vec :=
  ⟨-(holeW / 2 - cfg.baseGap),
    (holeD - 2 * cfg.sideGap - cfg.baseWidth) * (1 / 2 - cfg.relBasePosition.getD 0),
    -slotInset holeH cfg.sideGap cfg.baseDepth cfg.relBaseInset⟩
noncomputable def topCenter (holeW holeH : ℝ) (cfg : SupportCfg) : Vec :=
  ⟨holeW / 2 - cfg.topGap, 0, -slotInset holeH cfg.sideGap cfg.topDepth cfg.relTopInset⟩

theorem inset_eq {holeH g d ratio : ℝ} (o : Option ℝ) (h0 : holeH - d ≠ 0) (h : ratio = g / (holeH - d)) :
    d / 2 + (holeH - d) * o.getD (1 - ratio) = slotInset holeH g d o := by
  cases o with
  | some s => rfl
  | none =>
    simp only [Option.getD_none, slotInset]
    rw [h]; field_simp; ring

theorem ends_slots {q : Quality} {holeW holeD holeH : ℝ} {cfg : SupportCfg} {L R : List Vec} (hq : SaneQuality q)
    (hs : SaneSupport holeW holeD holeH cfg) (h : supportEnds q holeW holeD holeH cfg = .ok (L, R)) :
    ∃ n : ℕ, ∃ θ : ℝ, 0 < n ∧ n * θ = Real.pi ∧ 0 < θ ∧ θ ≤ Real.pi / 2 ∧ 7 / 1000 ≤ cfg.topDepth / 2 * Real.sin (θ / 2) ∧
      L = slot (baseCenter holeW holeD holeH cfg) ((cfg.baseWidth - cfg.baseDepth) / 2) (cfg.baseDepth / 2) θ n ∧
      R = slot (topCenter holeW holeH cfg) ((holeD - 2 * cfg.sideGap - cfg.topDepth) / 2) (cfg.topDepth / 2) θ n := by
  obtain ⟨t1, t2, t3, t4, t5, t6, t7, t8, t9, t10, t11, t12, t13, t14⟩ := hs
  unfold supportEnds at h
  dsimp only at h
  obtain ⟨ratioB, b1, h⟩ := bind_ok h
  obtain ⟨ratioT, b2, h⟩ := bind_ok h
  obtain ⟨arc, b3, h⟩ := bind_ok h
  obtain ⟨scale, b4, h⟩ := bind_ok h
  have e := Except.ok.inj h
  obtain ⟨eL, eR⟩ := Prod.mk.inj e
  obtain ⟨n, θ, hn, hθ, h0, h1, hs7, -, -, rfl⟩ := half_circle hq (by linarith) b3
  obtain ⟨n1, b1⟩ := pyDiv_val b1
  obtain ⟨n2, b2⟩ := pyDiv_val b2
  obtain ⟨n4, b4⟩ := pyDiv_val b4
  rw [inset_eq _ n1 b1] at eL
  rw [inset_eq _ n2 b2] at eR
  refine ⟨n, θ, hn, hθ, h0, h1, hs7, ?_, ?_⟩
  · rw [← eL]
    have e1 : edgeTranslated (edgeScaled (((List.range (n + 1)).map fun i : ℕ => ringPoint 0 (cfg.topDepth / 2) 0 (0 + i * θ)).map
        fun p => (⟨0, p.y, -p.x⟩ : Vec)) scale) ⟨-holeW / 2 + cfg.baseGap, cfg.baseWidth / 2 - cfg.baseDepth / 2,
          -slotInset holeH cfg.sideGap cfg.baseDepth cfg.relBaseInset⟩ =
        (List.range (n + 1)).map (slotR ⟨-(holeW / 2 - cfg.baseGap), 0, -slotInset holeH cfg.sideGap cfg.baseDepth cfg.relBaseInset⟩
          ((cfg.baseWidth - cfg.baseDepth) / 2) (cfg.baseDepth / 2) θ) := by
      simp only [edgeTranslated, edgeScaled, List.map_map]
      refine List.map_congr_left fun i _ => ?_
      have hsc : scale * (cfg.topDepth / 2) = cfg.baseDepth / 2 := by
        rw [b4]; field_simp
      simp only [Function.comp_apply, slotR, ringPoint, zero_add]
      ext <;> simp
      · ring
      · rw [show cfg.topDepth / 2 * Real.sin (i * θ) * scale = scale * (cfg.topDepth / 2) * Real.sin (i * θ) by ring, hsc]; ring
      · rw [show cfg.topDepth / 2 * Real.cos (i * θ) * scale = scale * (cfg.topDepth / 2) * Real.cos (i * θ) by ring, hsc]; ring
    rw [e1, slot_halves hθ rfl, slot_translated]
    congr 1
    unfold baseCenter
    ext <;> simp
    ring
  · rw [← eR]
    have e1 : edgeTranslated (((List.range (n + 1)).map fun i : ℕ => ringPoint 0 (cfg.topDepth / 2) 0 (0 + i * θ)).map
        fun p => (⟨0, p.y, -p.x⟩ : Vec)) ⟨holeW / 2 - cfg.topGap, (holeD - 2 * cfg.sideGap) / 2 - cfg.topDepth / 2,
          -slotInset holeH cfg.sideGap cfg.topDepth cfg.relTopInset⟩ =
        (List.range (n + 1)).map (slotR (topCenter holeW holeH cfg)
          ((holeD - 2 * cfg.sideGap - cfg.topDepth) / 2) (cfg.topDepth / 2) θ) := by
      simp only [edgeTranslated, List.map_map]
      refine List.map_congr_left fun i _ => ?_
      simp only [Function.comp_apply, slotR, ringPoint, zero_add, topCenter]
      ext <;> simp <;> ring
    rw [e1, slot_halves hθ rfl]

/-- The supports can be made. -/
theorem ends_ok {q : Quality} {holeW holeD holeH : ℝ} {cfg : SupportCfg} (hq : SaneQuality q)
    (hh : q.maxChordHeight ≤ 1) (hs : SaneSupport holeW holeD holeH cfg) : ∃ e, supportEnds q holeW holeD holeH cfg = .ok e := by
  obtain ⟨t1, t2, t3, t4, t5, t6, t7, t8, t9, t10, t11, t12, t13, t14⟩ := hs
  have d : ∀ a b : ℝ, b ≠ 0 → ∃ c, pyDiv a b = .ok c := fun a b hb => ⟨a / b, by unfold pyDiv; rw [if_neg hb]⟩
  obtain ⟨r1, b1⟩ := d cfg.sideGap (holeH - cfg.baseDepth) (by linarith)
  obtain ⟨r2, b2⟩ := d cfg.sideGap (holeH - cfg.topDepth) (by linarith)
  obtain ⟨r3, b3⟩ := d cfg.baseDepth cfg.topDepth (by linarith)
  obtain ⟨arc, b4⟩ := ((C53_succeeds q (cfg.topDepth / 2) 0 Real.pi 0 (by linarith [hq.angle]) (by linarith [hq.height])).2.1
    (by linarith)).mpr ⟨by linarith, Real.pi_ne_zero⟩
  unfold supportEnds
  dsimp only
  exact ⟨_, by rw [b1]; change (pyDiv cfg.sideGap (holeH - cfg.topDepth) >>= _) = _
               rw [b2]; change (arc2D q (cfg.topDepth / 2) 0 Real.pi 0 >>= _) = _
               rw [b4]; change (pyDiv cfg.baseDepth cfg.topDepth >>= _) = _
               rw [b3]; rfl⟩

/-! ### The ends are convex -/

theorem arc_area (r α β γ : ℝ) :
    (r * Real.sin β - r * Real.sin α) * (r * Real.cos α - r * Real.cos γ) -
      (r * Real.cos α - r * Real.cos β) * (r * Real.sin γ - r * Real.sin α) =
    4 * r ^ 2 * Real.sin ((β - α) / 2) * Real.sin ((γ - β) / 2) * Real.sin ((γ - α) / 2) := by
  have e1 := Real.sin_sub_sin β α
  have e2 := Real.sin_sub_sin γ α
  have e3 := Real.cos_sub_cos α β
  have e4 := Real.cos_sub_cos α γ
  have n1 : Real.sin ((α - β) / 2) = -Real.sin ((β - α) / 2) := by rw [← Real.sin_neg]; congr 1; ring
  have n2 : Real.sin ((α - γ) / 2) = -Real.sin ((γ - α) / 2) := by rw [← Real.sin_neg]; congr 1; ring
  have c1 : (α + β) / 2 = (β + α) / 2 := by ring
  have c2 : (α + γ) / 2 = (γ + α) / 2 := by ring
  rw [n1, c1] at e3
  rw [n2, c2] at e4
  have e5 : Real.sin ((γ - β) / 2) = Real.sin ((γ + α) / 2) * Real.cos ((β + α) / 2) - Real.cos ((γ + α) / 2) * Real.sin ((β + α) / 2) := by
    rw [← Real.sin_sub]; congr 1; ring
  have f : ∀ x y : ℝ, r * x - r * y = r * (x - y) := fun x y => by ring
  rw [f, f, f, f, e1, e2, e3, e4, e5]
  ring

theorem pair_area (r H α β ψ : ℝ) :
    (r * Real.sin β - r * Real.sin α) * (r * Real.cos ψ + r * Real.cos α) +
      (r * Real.cos α - r * Real.cos β) * (2 * H + r * Real.sin ψ + r * Real.sin α) =
    2 * r * Real.sin ((β - α) / 2) *
      (2 * H * Real.sin ((β + α) / 2) + r * Real.cos ((β + α) / 2 - ψ) + r * Real.cos ((β - α) / 2)) := by
  have e1 := Real.sin_sub_sin β α
  have e3 := Real.cos_sub_cos α β
  have n1 : Real.sin ((α - β) / 2) = -Real.sin ((β - α) / 2) := by rw [← Real.sin_neg]; congr 1; ring
  have c1 : (α + β) / 2 = (β + α) / 2 := by ring
  rw [n1, c1] at e3
  have e5 : Real.cos ((β - α) / 2) = Real.cos ((β + α) / 2) * Real.cos α + Real.sin ((β + α) / 2) * Real.sin α := by
    rw [← Real.cos_sub]; congr 1; ring
  have f : ∀ x y : ℝ, r * x - r * y = r * (x - y) := fun x y => by ring
  rw [f, f, e1, e3, e5, Real.cos_sub]
  ring

theorem sin_step {x y θ : ℝ} (h0 : 0 < θ) (h1 : θ ≤ y - x) (h2 : y - x ≤ Real.pi) :
    Real.sin (θ / 2) ≤ Real.sin ((y - x) / 2) :=
  Real.sin_le_sin_of_le_of_le_pi_div_two (by linarith [Real.pi_pos]) (by linarith) (by linarith)

/-- The chord between two points of the same end. -/
theorem chord_le {r x y : ℝ} (hr : 0 ≤ r) (h0 : 0 ≤ Real.sin ((y - x) / 2)) :
    Real.sqrt ((r * Real.sin y - r * Real.sin x) ^ 2 + (r * Real.cos x - r * Real.cos y) ^ 2) = 2 * r * Real.sin ((y - x) / 2) := by
  have e1 := Real.sin_sub_sin y x
  have e3 := Real.cos_sub_cos x y
  have n1 : Real.sin ((x - y) / 2) = -Real.sin ((y - x) / 2) := by rw [← Real.sin_neg]; congr 1; ring
  have c1 : (x + y) / 2 = (y + x) / 2 := by ring
  rw [n1, c1] at e3
  have f : ∀ x y : ℝ, r * x - r * y = r * (x - y) := fun x y => by ring
  rw [f, f, e1, e3]
  rw [show (r * (2 * Real.sin ((y - x) / 2) * Real.cos ((y + x) / 2))) ^ 2 + (r * (-2 * Real.sin ((y + x) / 2) * -Real.sin ((y - x) / 2))) ^ 2 =
    (2 * r * Real.sin ((y - x) / 2)) ^ 2 * (Real.sin ((y + x) / 2) ^ 2 + Real.cos ((y + x) / 2) ^ 2) by ring,
    Real.sin_sq_add_cos_sq, mul_one, Real.sqrt_sq (by positivity)]

theorem arc_margin {r θ s1 s2 s3 s : ℝ} (hr : 0 < r) (hr4 : r ≤ 4) (hs : 7 / 1000 ≤ r * s) (h1 : s ≤ s1) (h2 : s ≤ s2) (h3 : s ≤ s3) :
    0 < 4 * r ^ 2 * s1 * s2 * s3 ∧ 2e-6 * (2 * r * s1) ≤ 4 * r ^ 2 * s1 * s2 * s3 ∧
    2e-6 * (2 * r * s2) ≤ 4 * r ^ 2 * s1 * s2 * s3 ∧ 2e-6 * (2 * r * s3) ≤ 4 * r ^ 2 * s1 * s2 * s3 := by
  have hs0 : 0 < s := by by_contra hn; push Not at hn; nlinarith
  have key : ∀ x y : ℝ, s ≤ x → s ≤ y → 2e-6 ≤ 2 * r * x * y := by
    intro x y hx hy
    have h1 : 7 / 1000 ≤ r * x := by nlinarith
    have h2 : 7 / 1000 ≤ r * y := by nlinarith
    have h3 : (7 / 1000) * (7 / 1000) ≤ (r * x) * (r * y) := mul_le_mul h1 h2 (by norm_num) (by linarith)
    have h4 : 0 < x * y := by have : 0 < x := by linarith
                              have : 0 < y := by linarith
                              positivity
    have h5 : (r * x) * (r * y) ≤ 4 * (r * (x * y)) := by
      have : r * (r * (x * y)) ≤ 4 * (r * (x * y)) := mul_le_mul_of_nonneg_right hr4 (by positivity)
      linarith
    norm_num at h3 ⊢
    nlinarith
  have p1 : 0 < s1 := by linarith
  have p2 : 0 < s2 := by linarith
  have p3 : 0 < s3 := by linarith
  refine ⟨by positivity, ?_, ?_, ?_⟩
  · have := mul_le_mul_of_nonneg_right (key s2 s3 h2 h3) (show 0 ≤ 2 * r * s1 by positivity)
    linarith
  · have := mul_le_mul_of_nonneg_right (key s1 s3 h1 h3) (show 0 ≤ 2 * r * s2 by positivity)
    linarith
  · have := mul_le_mul_of_nonneg_right (key s1 s2 h1 h2) (show 0 ≤ 2 * r * s3 by positivity)
    linarith

theorem pair_margin {r H θ α β ψ : ℝ} (hr : 0 < r) (hr4 : r ≤ 4) (hH : 1 / 2 ≤ H) (hθ : 0 < θ)
    (hs : 7 / 1000 ≤ r * Real.sin (θ / 2)) (h0 : 0 ≤ α) (h1 : θ ≤ β - α) (h2 : β ≤ Real.pi) (h3 : 0 ≤ ψ) (h4 : ψ ≤ Real.pi) :
    2e-6 * (2 * H + 2 * r) ≤ 2 * r * Real.sin ((β - α) / 2) *
      (2 * H * Real.sin ((β + α) / 2) + r * Real.cos ((β + α) / 2 - ψ) + r * Real.cos ((β - α) / 2)) := by
  have hs0 : 0 < Real.sin (θ / 2) := by by_contra hn; push Not at hn; nlinarith
  have a1 := sin_step hθ h1 (by linarith)
  have a2 : Real.sin (θ / 2) ≤ Real.sin ((β + α) / 2) := sin_ge (by linarith) (by linarith) (by linarith)
  have a3 : 0 ≤ Real.cos ((β + α) / 2 - ψ) + Real.cos ((β - α) / 2) := by
    rw [← Real.cos_abs ((β + α) / 2 - ψ)]
    have : Real.cos (Real.pi - (β - α) / 2) ≤ Real.cos |(β + α) / 2 - ψ| := by
      refine Real.cos_le_cos_of_nonneg_of_le_pi (abs_nonneg _) (by linarith) ?_
      rw [abs_le]; constructor <;> linarith
    rw [Real.cos_pi_sub] at this
    linarith
  generalize Real.cos ((β + α) / 2 - ψ) = u at *
  generalize Real.cos ((β - α) / 2) = v at *
  generalize Real.sin ((β - α) / 2) = w at *
  generalize Real.sin ((β + α) / 2) = m at *
  generalize Real.sin (θ / 2) = s at *
  have b1 : 7 / 1000 ≤ r * w := by nlinarith
  have b2 : 7 / 1000 ≤ r * m := by nlinarith
  have b3 : (7 / 1000) * (7 / 1000) ≤ (r * w) * (r * m) := mul_le_mul b1 b2 (by norm_num) (by linarith)
  have p1 : 0 < w := by linarith
  have p2 : 0 < m := by linarith
  have b4 : (r * w) * (r * m) ≤ 4 * (r * (w * m)) := by
    have : r * (r * (w * m)) ≤ 4 * (r * (w * m)) := mul_le_mul_of_nonneg_right hr4 (by positivity)
    linarith
  have b5 : 2 * r * w * (2 * H * m) ≤ 2 * r * w * (2 * H * m + r * u + r * v) := by
    refine mul_le_mul_of_nonneg_left ?_ (by positivity)
    nlinarith
  have b6 : 1225 / 100000000 ≤ r * (w * m) := by norm_num at b3; linarith
  have b7 : 4 * H * (1225 / 100000000) ≤ 4 * H * (r * (w * m)) := mul_le_mul_of_nonneg_left b6 (by linarith)
  norm_num at b7 ⊢
  nlinarith

theorem across_le {r H x y : ℝ} (hr : 0 < r) (hH : 0 ≤ H) (d e : ℝ) (hd : d ^ 2 = (2 * H + r * Real.sin x + r * Real.sin y) ^ 2)
    (he : e ^ 2 = (r * Real.cos x + r * Real.cos y) ^ 2) : Real.sqrt (d ^ 2 + e ^ 2) ≤ 2 * H + 2 * r := by
  rw [hd, he]
  refine Real.sqrt_le_left (by positivity) |>.mpr ?_
  have e1 := Real.sin_sq_add_cos_sq x
  have e2 := Real.sin_sq_add_cos_sq y
  have e3 : Real.sin x * Real.sin y + Real.cos x * Real.cos y ≤ 1 := by
    rw [add_comm, ← Real.cos_sub]; exact Real.cos_le_one _
  have e4 : H * r * (Real.sin x + Real.sin y) ≤ H * r * 2 :=
    mul_le_mul_of_nonneg_left (by linarith [Real.sin_le_one x, Real.sin_le_one y]) (by positivity)
  have e5 : r ^ 2 * (Real.sin x * Real.sin y + Real.cos x * Real.cos y) ≤ r ^ 2 * 1 := mul_le_mul_of_nonneg_left e3 (by positivity)
  have e6 : (2 * H + r * Real.sin x + r * Real.sin y) ^ 2 + (r * Real.cos x + r * Real.cos y) ^ 2 =
      4 * H ^ 2 + 4 * (H * r * (Real.sin x + Real.sin y)) + r ^ 2 * (Real.sin x ^ 2 + Real.cos x ^ 2) +
        r ^ 2 * (Real.sin y ^ 2 + Real.cos y ^ 2) + 2 * (r ^ 2 * (Real.sin x * Real.sin y + Real.cos x * Real.cos y)) := by ring
  rw [e6, e1, e2]
  nlinarith

theorem sublist_range {m : ℕ} {f : ℕ → Vec} {l : List Vec} (h : l.Sublist ((List.range m).map f)) :
    ∃ is : List ℕ, l = is.map f ∧ is.Pairwise (· < ·) ∧ ∀ i ∈ is, i < m := by
  obtain ⟨is, h1, h2⟩ := List.sublist_map_iff.mp h
  exact ⟨is, h2, List.Pairwise.sublist h1 List.pairwise_lt_range, fun i hi => List.mem_range.mp (h1.subset hi)⟩

theorem three_of {f : ℕ → Vec} {a b c : Vec} {is : List ℕ} (h : [a, b, c] = is.map f) :
    ∃ i j k, is = [i, j, k] ∧ a = f i ∧ b = f j ∧ c = f k := by
  match is, h with
  | [i, j, k], h => simp at h; exact ⟨i, j, k, rfl, h⟩
theorem two_of {f : ℕ → Vec} {a b : Vec} {is : List ℕ} (h : [a, b] = is.map f) : ∃ i j, is = [i, j] ∧ a = f i ∧ b = f j := by
  match is, h with
  | [i, j], h => simp at h; exact ⟨i, j, rfl, h⟩
theorem one_of {f : ℕ → Vec} {a : Vec} {is : List ℕ} (h : [a] = is.map f) : ∃ i, is = [i] ∧ a = f i := by
  match is, h with
  | [i], h => simp at h; exact ⟨i, rfl, h⟩

theorem step_diff {i j : ℕ} {θ : ℝ} (h0 : 0 < θ) (h : i < j) : θ ≤ (j : ℝ) * θ - i * θ := by
  have : (i : ℝ) + 1 ≤ j := by exact_mod_cast h
  nlinarith

theorem step_le {i n : ℕ} {θ : ℝ} (h0 : 0 < θ) (hθ : n * θ = Real.pi) (h : i < n + 1) : 0 ≤ (i : ℝ) * θ ∧ (i : ℝ) * θ ≤ Real.pi := by
  have : (i : ℝ) ≤ n := by exact_mod_cast Nat.lt_succ_iff.mp h
  constructor
  · positivity
  · rw [← hθ]; exact mul_le_mul_of_nonneg_right this h0.le

/-- A slot is convex. -/
theorem slot_convex (c : Vec) {H r θ : ℝ} {n : ℕ} (hn : 0 < n) (hθ : n * θ = Real.pi) (h0 : 0 < θ) (hr : 0 < r) (hr4 : r ≤ 4)
    (hH : 1 / 2 ≤ H) (hs : 7 / 1000 ≤ r * Real.sin (θ / 2)) : FlatConvex ⟨1, 0, 0⟩ (slot c H r θ n) := by
  have three : ∀ i j k : ℕ, i < j → j < k → k < n + 1 → ∀ A, A = (r * Real.sin (j * θ) - r * Real.sin (i * θ)) * (r * Real.cos (i * θ) - r * Real.cos (k * θ)) -
      (r * Real.cos (i * θ) - r * Real.cos (j * θ)) * (r * Real.sin (k * θ) - r * Real.sin (i * θ)) → ∀ d1 d2 d3 : ℝ,
      d1 = (r * Real.sin (j * θ) - r * Real.sin (i * θ)) ^ 2 + (r * Real.cos (i * θ) - r * Real.cos (j * θ)) ^ 2 →
      d2 = (r * Real.sin (k * θ) - r * Real.sin (j * θ)) ^ 2 + (r * Real.cos (j * θ) - r * Real.cos (k * θ)) ^ 2 →
      d3 = (r * Real.sin (k * θ) - r * Real.sin (i * θ)) ^ 2 + (r * Real.cos (i * θ) - r * Real.cos (k * θ)) ^ 2 →
      0 < A ∧ 2e-6 * Real.sqrt d1 ≤ A ∧ 2e-6 * Real.sqrt d2 ≤ A ∧ 2e-6 * Real.sqrt d3 ≤ A := by
    rintro i j k hij hjk hk A rfl d1 d2 d3 rfl rfl rfl
    have := (step_le h0 hθ (show i < n + 1 by omega)).1
    have := (step_le h0 hθ hk).2
    have q1 := step_diff h0 hij
    have q2 := step_diff h0 hjk
    have s1 := sin_step h0 q1 (by linarith)
    have s2 := sin_step h0 q2 (by linarith)
    have s3 := sin_step h0 (step_diff h0 (hij.trans hjk)) (by linarith)
    have p : 0 < Real.sin (θ / 2) := by by_contra hn; push Not at hn; nlinarith
    rw [arc_area, chord_le hr.le (by linarith), chord_le hr.le (by linarith), chord_le hr.le (by linarith)]
    exact arc_margin (θ := θ) hr hr4 hs s1 s2 s3
  have two : ∀ i j k : ℕ, i < j → j < n + 1 → k < n + 1 → ∀ A, A = (r * Real.sin (j * θ) - r * Real.sin (i * θ)) * (r * Real.cos (k * θ) + r * Real.cos (i * θ)) +
      (r * Real.cos (i * θ) - r * Real.cos (j * θ)) * (2 * H + r * Real.sin (k * θ) + r * Real.sin (i * θ)) → ∀ d1 d2 d3 : ℝ,
      d1 = (r * Real.sin (j * θ) - r * Real.sin (i * θ)) ^ 2 + (r * Real.cos (i * θ) - r * Real.cos (j * θ)) ^ 2 →
      d2 = (2 * H + r * Real.sin (k * θ) + r * Real.sin (j * θ)) ^ 2 + (r * Real.cos (k * θ) + r * Real.cos (j * θ)) ^ 2 →
      d3 = (2 * H + r * Real.sin (k * θ) + r * Real.sin (i * θ)) ^ 2 + (r * Real.cos (k * θ) + r * Real.cos (i * θ)) ^ 2 →
      0 < A ∧ 2e-6 * Real.sqrt d1 ≤ A ∧ 2e-6 * Real.sqrt d2 ≤ A ∧ 2e-6 * Real.sqrt d3 ≤ A := by
    rintro i j k hij hj hk A rfl d1 d2 d3 rfl rfl rfl
    have t1 := step_le h0 hθ (show i < n + 1 by omega)
    have t2 := step_le h0 hθ hj
    have t3 := step_le h0 hθ hk
    have q1 := step_diff h0 hij
    have s1 := sin_step h0 q1 (by linarith)
    have p : 0 < Real.sin (θ / 2) := by by_contra hn; push Not at hn; nlinarith
    have hA := pair_margin (H := H) (ψ := k * θ) hr hr4 hH h0 hs t1.1 q1 t2.2 t3.1 t3.2
    have u2 := across_le (H := H) (x := k * θ) (y := j * θ) hr (by linarith) _ _ rfl rfl
    have u3 := across_le (H := H) (x := k * θ) (y := i * θ) hr (by linarith) _ _ rfl rfl
    rw [pair_area, chord_le hr.le (by linarith)]
    refine ⟨lt_of_lt_of_le (by positivity) hA, le_trans ?_ hA, le_trans ?_ hA, le_trans ?_ hA⟩
    · refine mul_le_mul_of_nonneg_left ?_ (by norm_num)
      have := mul_le_mul_of_nonneg_left (Real.sin_le_one ((j * θ - i * θ) / 2)) (show 0 ≤ 2 * r by positivity)
      linarith
    · exact mul_le_mul_of_nonneg_left u2 (by norm_num)
    · exact mul_le_mul_of_nonneg_left u3 (by norm_num)
  refine ⟨by simp [Vec.dot], by simp [slot]; omega, ⟨c.x, ?_⟩, ?_⟩
  · intro p hp
    rcases List.mem_append.mp hp with hp | hp <;> obtain ⟨i, -, rfl⟩ := List.mem_map.mp hp <;> simp [slotR, slotL, Vec.dot]
  · intro a b c' hsub
    obtain ⟨l1, l2, hl, sub1, sub2⟩ := List.sublist_append_iff.mp hsub
    obtain ⟨is, rfl, ord1, lt1⟩ := sublist_range sub1
    obtain ⟨js, rfl, ord2, lt2⟩ := sublist_range sub2
    match is, js, hl with
    | [], [i, j, k], hl =>
      simp only [List.map_nil, List.nil_append, List.map_cons, List.cons.injEq, and_true] at hl
      obtain ⟨rfl, rfl, rfl⟩ := hl
      simp at ord2 lt2
      refine three i j k ord2.1.1 ord2.2 (Nat.lt_succ_of_le lt2.2.2) _ ?_ _ _ _ ?_ ?_ ?_ <;> simp [normalOf, Vec.dot, Vec.cross, slotR, slotL, distSq] <;> ring
    | [i], [j, k], hl =>
      simp only [List.map_nil, List.nil_append, List.map_cons, List.cons.injEq, and_true, List.cons_append] at hl
      obtain ⟨rfl, rfl, rfl⟩ := hl
      simp at ord2 lt2 lt1
      obtain ⟨a1, a2, a3, a4⟩ := two j k i ord2 (Nat.lt_succ_of_le lt2.2) (Nat.lt_succ_of_le lt1)
        ((normalOf ⟨slotR c H r θ i, slotL c H r θ j, slotL c H r θ k⟩).dot ⟨1, 0, 0⟩) (by simp [normalOf, Vec.dot, Vec.cross, slotR, slotL, distSq]; ring)
        (distSq (slotL c H r θ j) (slotL c H r θ k)) (distSq (slotL c H r θ k) (slotR c H r θ i))
        (distSq (slotR c H r θ i) (slotL c H r θ j)) (by simp [normalOf, Vec.dot, Vec.cross, slotR, slotL, distSq]; ring) (by simp [normalOf, Vec.dot, Vec.cross, slotR, slotL, distSq]; ring) (by simp [normalOf, Vec.dot, Vec.cross, slotR, slotL, distSq]; ring)
      exact ⟨a1, a4, a2, a3⟩
    | [i, j], [k], hl =>
      simp only [List.map_nil, List.nil_append, List.map_cons, List.cons.injEq, and_true, List.cons_append] at hl
      obtain ⟨rfl, rfl, rfl⟩ := hl
      simp at ord1 lt2 lt1
      refine two i j k ord1 (Nat.lt_succ_of_le lt1.2) (Nat.lt_succ_of_le lt2) _ ?_ _ _ _ ?_ ?_ ?_ <;> simp [normalOf, Vec.dot, Vec.cross, slotR, slotL, distSq] <;> ring
    | [i, j, k], [], hl =>
      simp only [List.map_nil, List.nil_append, List.map_cons, List.cons.injEq, and_true, List.append_nil] at hl
      obtain ⟨rfl, rfl, rfl⟩ := hl
      simp at ord1 lt1
      refine three i j k ord1.1.1 ord1.2 (Nat.lt_succ_of_le lt1.2.2) _ ?_ _ _ _ ?_ ?_ ?_ <;> simp [normalOf, Vec.dot, Vec.cross, slotR, slotL, distSq] <;> ring

/-! ### The side between the ends -/

/-- The points of the slot, one after the other, and back to the first one. -/
noncomputable def slotAt (c : Vec) (H r θ : ℝ) (n i : ℕ) : Vec :=
  if i < n + 1 then slotR c H r θ i else if i < 2 * (n + 1) then slotL c H r θ (i - (n + 1)) else slotR c H r θ 0

theorem slot_range (c : Vec) (H r θ : ℝ) (n : ℕ) : slot c H r θ n = (List.range (2 * (n + 1))).map (slotAt c H r θ n) := by
  rw [show 2 * (n + 1) = (n + 1) + (n + 1) by ring, List.range_add, List.map_append, List.map_map]
  unfold slot
  congr 1
  · refine List.map_congr_left fun i hi => ?_
    rw [slotAt, if_pos (List.mem_range.mp hi)]
  · refine List.map_congr_left fun i hi => ?_
    have := List.mem_range.mp hi
    rw [Function.comp_apply, slotAt, if_neg (by omega), if_pos (by omega)]
    congr 1; omega

theorem slotAt_x (c : Vec) (H r θ : ℝ) (n i : ℕ) : (slotAt c H r θ n i).x = c.x := by
  unfold slotAt slotR slotL; split_ifs <;> simp

theorem slot_apart (c : Vec) {H r θ : ℝ} {n : ℕ} (hθ : n * θ = Real.pi) (h0 : 0 < θ)
    (hH : 1 / 2 ≤ H) (hs : 7 / 1000 ≤ r * Real.sin (θ / 2)) {i : ℕ} (hi : i < 2 * (n + 1)) :
    (14 / 1000) ^ 2 ≤ distSq (slotAt c H r θ n i) (slotAt c H r θ n (i + 1)) := by
  have chord : ∀ i : ℕ, (14 / 1000) ^ 2 ≤ (r * Real.sin ((i + 1 : ℕ) * θ) - r * Real.sin (i * θ)) ^ 2 +
      (r * Real.cos ((i + 1 : ℕ) * θ) - r * Real.cos (i * θ)) ^ 2 := by
    intro i
    have := chord_sq (i * θ) θ
    rw [show (i : ℝ) * θ + θ = (i + 1 : ℕ) * θ by push_cast; ring] at this
    have e : (r * Real.sin ((i + 1 : ℕ) * θ) - r * Real.sin (i * θ)) ^ 2 +
      (r * Real.cos ((i + 1 : ℕ) * θ) - r * Real.cos (i * θ)) ^ 2 = 4 * (r * Real.sin (θ / 2)) ^ 2 := by
      linear_combination r ^ 2 * this
    rw [e]
    nlinarith
  have hfin : Real.sin (n * θ) = 0 := by rw [hθ, Real.sin_pi]
  have hfin' : Real.cos (n * θ) = -1 := by rw [hθ, Real.cos_pi]
  unfold slotAt
  rcases lt_trichotomy i n with h | rfl | h
  · rw [if_pos (by omega), if_pos (by omega)]
    refine (chord i).trans_eq ?_
    simp [distSq, slotR]; ring
  · rw [if_pos (by omega), if_neg (by omega), if_pos (by omega)]
    simp only [slotR, slotL, distSq, hfin, hfin', Nat.sub_self]
    simp; nlinarith
  · rw [if_neg (by omega), if_pos hi, if_neg (by omega)]
    by_cases h2 : i + 1 < 2 * (n + 1)
    · rw [if_pos h2, show i + 1 - (n + 1) = i - (n + 1) + 1 by omega]
      refine (chord (i - (n + 1))).trans_eq ?_
      simp [distSq, slotL]; ring
    · rw [if_neg h2, show i - (n + 1) = n by omega]
      simp only [slotR, slotL, distSq, hfin, hfin']
      simp; nlinarith

theorem area_across {a b c : Vec} (hx : a.x = b.x) (hc : 1 ≤ |c.x - a.x|) (hab : (14 / 1000) ^ 2 ≤ distSq a b) :
    1e-6 ≤ (Tri.mk a b c).area := by
  refine area_of_sq (k := 14 / 1000) (by norm_num) (hab.trans ?_)
  have h1 : 1 ≤ (c.x - a.x) ^ 2 := by rw [← sq_abs]; nlinarith
  simp only [Vec.magSquared, Vec.dot, Vec.cross, Vec.sub_x, Vec.sub_y, Vec.sub_z, distSq, hx] at *
  have h2 : (a.y - b.y) ^ 2 + (a.z - b.z) ^ 2 ≤ (c.x - b.x) ^ 2 * ((a.y - b.y) ^ 2 + (a.z - b.z) ^ 2) := by
    nlinarith [sq_nonneg (a.y - b.y), sq_nonneg (a.z - b.z)]
  nlinarith [sq_nonneg ((b.y - a.y) * (c.z - a.z) - (b.z - a.z) * (c.y - a.y))]

theorem slots_good {c c' : Vec} {H r H' r' θ : ℝ} {n : ℕ} (hθ : n * θ = Real.pi) (h0 : 0 < θ)
    (hH : 1 / 2 ≤ H) (hs : 7 / 1000 ≤ r * Real.sin (θ / 2)) (hH' : 1 / 2 ≤ H') (hs' : 7 / 1000 ≤ r' * Real.sin (θ / 2))
    (hx : 1 ≤ |c'.x - c.x|) (i : ℕ) :
    GoodQuad (corner true (slot c H r θ n) i) (corner true (slot c H r θ n) (i + 1))
      (corner true (slot c' H' r' θ n) (i + 1)) (corner true (slot c' H' r' θ n) i) := by
  have close : ∀ c H r, slotAt c H r θ n (2 * (n + 1)) = slotAt c H r θ n 0 := by
    intro c H r
    unfold slotAt
    rw [if_neg (by omega), if_neg (by omega), if_pos (by omega)]
  simp only [slot_range]
  rw [corner_range_closed _ _ _ (by omega) (close _ _ _), corner_range_closed _ _ _ (by omega) (close _ _ _),
    corner_range_closed _ _ _ (by omega) (close _ _ _), corner_range_closed _ _ _ (by omega) (close _ _ _)]
  by_cases hi : i < 2 * (n + 1)
  · rw [min_eq_left (by omega), min_eq_left (by omega)]
    have p1 := slot_apart c hθ h0 hH hs hi
    have p2 := slot_apart c' hθ h0 hH' hs' hi
    have hx' : 1 ≤ |c.x - c'.x| := by rwa [abs_sub_comm]
    refine goodQuad_four ?_ ?_ ?_
    · exact area_across (by simp only [slotAt_x]) (by simpa only [slotAt_x]) p1
    · exact area_across (by simp only [slotAt_x]) (by simpa only [slotAt_x]) (by unfold distSq at *; linarith)
    · exact area_across (by simp only [slotAt_x]) (by simpa only [slotAt_x]) p1
  · rw [min_eq_right (by omega), min_eq_right (by omega)]
    exact goodQuad_still rfl rfl

/-! ### The results -/

theorem flatConvex_reverse {v : Vec} {e : List Vec} (h : FlatConvex v e) : FlatConvex (-v) e.reverse := by
  obtain ⟨h1, h2, ⟨k, h3⟩, h4⟩ := h
  have sw : ∀ a b : Vec, distSq a b = distSq b a := fun a b => by unfold distSq; ring
  refine ⟨?_, by simpa using h2, ⟨-k, fun p hp => ?_⟩, fun a b c hs => ?_⟩
  · simpa [Vec.dot] using h1
  · have := h3 p (by simpa using hp)
    rw [← this]; simp [Vec.dot]; ring
  · have hs' : [c, b, a].Sublist e := by simpa using List.reverse_sublist.mpr hs
    obtain ⟨a1, a2, a3, a4⟩ := h4 c b a hs'
    have e1 : (normalOf ⟨a, b, c⟩).dot (-v) = (normalOf ⟨c, b, a⟩).dot v := by
      simp [normalOf, Vec.dot, Vec.cross]; ring
    rw [e1, sw a b, sw b c, sw c a]
    exact ⟨a1, a3, a2, a4⟩

/-- **C58** A support with sensible dimensions is always made, and always watertight: its side has no flaws, its two
ends are convex and are cut completely. -/
theorem C58_solid {q : Quality} {holeW holeD holeH : ℝ} {cfg : SupportCfg} (hq : SaneQuality q)
    (hh : q.maxChordHeight ≤ 1) (hs : SaneSupport holeW holeD holeH cfg) :
    ∃ ps, supportPieces q holeW holeD holeH cfg = .ok ps ∧ (∃ tss, List.Forall₂ Piece.Meshes ps tss) ∧
      ∀ tss, List.Forall₂ Piece.Meshes ps tss → Watertight tss.flatten := by
  obtain ⟨⟨L, R⟩, h⟩ := ends_ok hq hh hs
  obtain ⟨n, θ, hn, hθ, h0, h1, hs7, hL, hR⟩ := ends_slots hq hs h
  obtain ⟨t1, t2, t3, t4, t5, t6, t7, t8, t9, t10, t11, t12, t13, t14⟩ := hs
  have hs0 : 0 < Real.sin (θ / 2) := by by_contra hn; push Not at hn; nlinarith
  have hs7' : 7 / 1000 ≤ cfg.baseDepth / 2 * Real.sin (θ / 2) := by nlinarith
  have cL : FlatConvex ⟨1, 0, 0⟩ L := by
    rw [hL]; exact slot_convex _ hn hθ h0 (by linarith) (by linarith) (by linarith) hs7'
  have cR : FlatConvex ⟨1, 0, 0⟩ R := by
    rw [hR]; exact slot_convex _ hn hθ h0 (by linarith) (by linarith) (by linarith) hs7
  have good : ∀ i, GoodQuad (corner true L i) (corner true L (i + 1)) (corner true R (i + 1)) (corner true R i) := by
    rw [hL, hR]
    refine slots_good hθ h0 (by linarith) hs7' (by linarith) hs7 ?_
    refine le_trans ?_ (le_abs_self _)
    simp only [baseCenter, topCenter]; linarith
  have neL : L ≠ [] := by rintro rfl; have := cL.three; simp at this
  have neR : R ≠ [] := by rintro rfl; have := cR.three; simp at this
  obtain ⟨⟨oL, fL⟩, uL⟩ := C62_flat_face (flatConvex_reverse cL)
  obtain ⟨⟨oR, fR⟩, uR⟩ := C62_flat_face cR
  obtain ⟨side, fS⟩ := C32_total L R true neL neR
  have hp : supportPieces q holeW holeD holeH cfg = .ok [strip L R true, face L.reverse, face R] := by
    unfold supportPieces; rw [h]; rfl
  refine ⟨_, hp, ⟨[_, _, _], .cons ⟨side, fS, rfl⟩ (.cons ⟨oL, fL, rfl⟩ (.cons ⟨oR, fR, rfl⟩ .nil))⟩, ?_⟩
  intro tss ht
  refine C58_watertight hp ?_
  cases ht with
  | cons m1 ht =>
  cases ht with
  | cons m2 ht =>
  cases ht with
  | cons m3 ht =>
  cases ht
  obtain ⟨u1, m1, rfl⟩ := m1
  obtain ⟨u2, m2, rfl⟩ := m2
  obtain ⟨u3, m3, rfl⟩ := m3
  refine .cons m1 ⟨neL, neR, good⟩ (.cons m2 ?_ (.cons m3 ?_ .nil))
  · have := uL u2 m2
    simpa [face, Sheet.Sound] using this
  · have := uR u3 m3
    simpa [face, Sheet.Sound] using this

theorem slotR_on (c : Vec) {w d θ : ℝ} {n i : ℕ} (hθ : n * θ = Real.pi) (h0 : 0 < θ) (hd : 0 ≤ d) (hw : d ≤ w) (hi : i < n + 1) :
    OnSlot c w d (slotR c ((w - d) / 2) (d / 2) θ i) ∧ OnSlot c w d (slotL c ((w - d) / 2) (d / 2) θ i) := by
  obtain ⟨a1, a2⟩ := step_le h0 hθ hi
  have hsin := Real.sin_nonneg_of_nonneg_of_le_pi a1 a2
  have hone := Real.sin_sq_add_cos_sq (i * θ)
  have habs : |(w - d) / 2| ≤ (w - d) / 2 := by rw [abs_of_nonneg (by linarith)]
  have far : ∀ u : ℝ, 0 ≤ u → (d / 2) ^ 2 ≤ (u + d / 2 * Real.sin (i * θ)) ^ 2 + (d / 2 * Real.cos (i * θ)) ^ 2 := by
    intro u hu
    have : 0 ≤ u * (d / 2 * Real.sin (i * θ)) := by positivity
    nlinarith [sq_nonneg u]
  refine ⟨⟨by simp [slotR], ⟨(w - d) / 2, habs, ?_⟩, fun t ht => ?_⟩, ⟨by simp [slotL], ⟨-((w - d) / 2), by rwa [abs_neg], ?_⟩, fun t ht => ?_⟩⟩
  · simp [slotR]; linear_combination (d / 2) ^ 2 * hone
  · refine (far ((w - d) / 2 - t) (by linarith [(abs_le.mp ht).2])).trans_eq ?_
    simp [slotR]; ring
  · simp [slotL]; linear_combination (d / 2) ^ 2 * hone
  · refine (far ((w - d) / 2 + t) (by linarith [(abs_le.mp ht).1])).trans_eq ?_
    simp [slotL]; ring

theorem slot_on (c : Vec) {w d θ : ℝ} {n : ℕ} (hθ : n * θ = Real.pi) (h0 : 0 < θ) (hd : 0 ≤ d) (hw : d ≤ w) :
    (∀ p ∈ slot c ((w - d) / 2) (d / 2) θ n, OnSlot c w d p) ∧
    ∀ p ∈ slotCorners c w d, p ∈ slot c ((w - d) / 2) (d / 2) θ n := by
  constructor
  · intro p hp
    rcases List.mem_append.mp hp with hp | hp <;> obtain ⟨i, hi, rfl⟩ := List.mem_map.mp hp
    · exact (slotR_on c hθ h0 hd hw (List.mem_range.mp hi)).1
    · exact (slotR_on c hθ h0 hd hw (List.mem_range.mp hi)).2
  · have hs : Real.sin (n * θ) = 0 := by rw [hθ, Real.sin_pi]
    have hc : Real.cos (n * θ) = -1 := by rw [hθ, Real.cos_pi]
    intro p hp
    simp only [slotCorners, List.mem_cons, List.not_mem_nil, or_false] at hp
    rcases hp with rfl | rfl | rfl | rfl
    · exact List.mem_append_left _ (List.mem_map.mpr ⟨0, by simp, by simp [slotR]⟩)
    · exact List.mem_append_left _ (List.mem_map.mpr ⟨n, by simp, by simp [slotR, hs, hc]⟩)
    · exact List.mem_append_right _ (List.mem_map.mpr ⟨0, by simp, by simp [slotL]⟩)
    · exact List.mem_append_right _ (List.mem_map.mpr ⟨n, by simp, by simp [slotL, hs, hc]⟩)

/-- **C96** The ends of a support are rounded slots: the base at its gap from the left wall of the hole, with its width
and depth, moved sideways by its relative position; the top at its gap from the right wall, with its depth and as wide
as the side gaps allow. -/
theorem C96_ends {q : Quality} {holeW holeD holeH : ℝ} {cfg : SupportCfg} {L R : List Vec} (hq : SaneQuality q)
    (hs : SaneSupport holeW holeD holeH cfg) (h : supportEnds q holeW holeD holeH cfg = .ok (L, R)) :
    let topW := holeD - 2 * cfg.sideGap
    let base : Vec := ⟨-(holeW / 2 - cfg.baseGap), (topW - cfg.baseWidth) * (1 / 2 - cfg.relBasePosition.getD 0),
      -slotInset holeH cfg.sideGap cfg.baseDepth cfg.relBaseInset⟩
    let top : Vec := ⟨holeW / 2 - cfg.topGap, 0, -slotInset holeH cfg.sideGap cfg.topDepth cfg.relTopInset⟩
    (∀ p ∈ L, OnSlot base cfg.baseWidth cfg.baseDepth p) ∧ (∀ p ∈ slotCorners base cfg.baseWidth cfg.baseDepth, p ∈ L) ∧
    (∀ p ∈ R, OnSlot top topW cfg.topDepth p) ∧ (∀ p ∈ slotCorners top topW cfg.topDepth, p ∈ R) ∧
    L.length = R.length ∧ FlatConvex ⟨1, 0, 0⟩ L ∧ FlatConvex ⟨1, 0, 0⟩ R := by
  obtain ⟨n, θ, hn, hθ, h0, h1, hs7, rfl, rfl⟩ := ends_slots hq hs h
  obtain ⟨t1, t2, t3, t4, t5, t6, t7, t8, t9, t10, t11, t12, t13, t14⟩ := hs
  have a := slot_on (baseCenter holeW holeD holeH cfg) (w := cfg.baseWidth) (d := cfg.baseDepth) hθ h0 (by linarith) (by linarith)
  have b := slot_on (topCenter holeW holeH cfg) (w := holeD - 2 * cfg.sideGap) (d := cfg.topDepth) hθ h0 (by linarith) (by linarith)
  refine ⟨a.1, a.2, b.1, b.2, by simp [slot], ?_, ?_⟩
  · have hs0 : 0 < Real.sin (θ / 2) := by by_contra hn; push Not at hn; nlinarith
    exact slot_convex _ hn hθ h0 (by linarith) (by linarith) (by linarith) (by nlinarith)
  · exact slot_convex _ hn hθ h0 (by linarith) (by linarith) (by linarith) hs7

theorem onSlot_bounds {c : Vec} {w d : ℝ} {p : Vec} (hd : 0 ≤ d) (h : OnSlot c w d p) :
    p.x = c.x ∧ |p.y - c.y| ≤ w / 2 ∧ |p.z - c.z| ≤ d / 2 := by
  obtain ⟨h1, ⟨t, h2, h3⟩, -⟩ := h
  rw [abs_le] at h2
  have a := abs_le_of_sq_le_sq (show (p.y - (c.y + t)) ^ 2 ≤ (d / 2) ^ 2 by nlinarith [sq_nonneg (p.z - c.z)]) (by linarith)
  have b := abs_le_of_sq_le_sq (show (p.z - c.z) ^ 2 ≤ (d / 2) ^ 2 by nlinarith [sq_nonneg (p.y - (c.y + t))]) (by linarith)
  rw [abs_le] at a
  exact ⟨h1, by rw [abs_le]; constructor <;> linarith, b⟩

theorem inset_bounds {holeH g d : ℝ} {o : Option ℝ} (hd : d ≤ holeH) (hg : 0 ≤ g) (hg' : g ≤ holeH - d) (ho : ∀ s ∈ o, 0 ≤ s ∧ s ≤ 1) :
    d / 2 ≤ slotInset holeH g d o ∧ slotInset holeH g d o ≤ holeH - d / 2 ∧ (o = none → slotInset holeH g d o = holeH - g - d / 2) := by
  cases o with
  | none => simp only [slotInset]; exact ⟨by linarith, by linarith, fun _ => trivial⟩
  | some s =>
    obtain ⟨h1, h2⟩ := ho s rfl
    simp only [slotInset]
    refine ⟨by nlinarith, by nlinarith, by simp⟩

/-- **C96** The support is inside the hole of its key: between the gaps at both walls, at least the side gap away from
the other two walls, and between the bottom and the top of the roof. Without relative insets, its underside is the side
gap above the bottom. -/
theorem C96_inside {q : Quality} {holeW holeD holeH : ℝ} {cfg : SupportCfg} {ps : List Piece} (hq : SaneQuality q)
    (hs : SaneSupport holeW holeD holeH cfg) (h : supportPieces q holeW holeD holeH cfg = .ok ps) :
    ∀ P ∈ ps, ∀ p ∈ Piece.points P, (-(holeW / 2 - cfg.baseGap) ≤ p.x ∧ p.x ≤ holeW / 2 - cfg.topGap) ∧
      |p.y| ≤ holeD / 2 - cfg.sideGap ∧ (-holeH ≤ p.z ∧ p.z ≤ 0) ∧
      (cfg.relBaseInset = none → cfg.relTopInset = none → -holeH + cfg.sideGap ≤ p.z) := by
  unfold supportPieces at h
  obtain ⟨⟨L, R⟩, h1, h⟩ := bind_ok h
  obtain rfl := Except.ok.inj h
  obtain ⟨oL, -, oR, -⟩ := C96_ends hq hs h1
  obtain ⟨t1, t2, t3, t4, t5, t6, t7, t8, t9, t10, t11, t12, t13, t14⟩ := hs
  have key : ∀ p, p ∈ L ∨ p ∈ R → (-(holeW / 2 - cfg.baseGap) ≤ p.x ∧ p.x ≤ holeW / 2 - cfg.topGap) ∧
      |p.y| ≤ holeD / 2 - cfg.sideGap ∧ (-holeH ≤ p.z ∧ p.z ≤ 0) ∧
      (cfg.relBaseInset = none → cfg.relTopInset = none → -holeH + cfg.sideGap ≤ p.z) := by
    rintro p (hp | hp)
    · obtain ⟨a, b, c⟩ := onSlot_bounds (by linarith) (oL p hp)
      obtain ⟨i1, i2, i3⟩ := inset_bounds (holeH := holeH) (by linarith) t8 t9 t13
      dsimp only at a b c
      rw [abs_le] at b c
      have m : |(holeD - 2 * cfg.sideGap - cfg.baseWidth) * (1 / 2 - cfg.relBasePosition.getD 0)| ≤
          (holeD - 2 * cfg.sideGap - cfg.baseWidth) / 2 := by
        have : 0 ≤ cfg.relBasePosition.getD 0 ∧ cfg.relBasePosition.getD 0 ≤ 1 := by
          cases e : cfg.relBasePosition with
          | none => simp
          | some s => exact t12 s e
        rw [abs_le]
        constructor <;> nlinarith
      rw [abs_le] at m
      refine ⟨⟨by linarith, by linarith⟩, ?_, ⟨by linarith, by linarith⟩, fun e _ => ?_⟩
      · rw [abs_le]; constructor <;> linarith
      · linarith [i3 e]
    · obtain ⟨a, b, c⟩ := onSlot_bounds (by linarith) (oR p hp)
      obtain ⟨i1, i2, i3⟩ := inset_bounds (holeH := holeH) (o := cfg.relTopInset) (d := cfg.topDepth) (by linarith) t8 (by linarith) t14
      dsimp only at a b c
      rw [abs_le] at b c
      refine ⟨⟨by linarith, by linarith⟩, ?_, ⟨by linarith, by linarith⟩, fun _ e => ?_⟩
      · rw [abs_le]; constructor <;> linarith
      · linarith [i3 e]
  intro P hP p hp
  simp only [List.mem_cons, List.not_mem_nil, or_false] at hP
  apply key
  rcases hP with rfl | rfl | rfl <;> simp [strip, face, Piece.points, Sheet.points] at hp
  · exact hp
  · exact Or.inl hp
  · exact Or.inr hp

/-- The angle of a direction in the plane. -/
theorem angle_le_iff {v : Vec} {a : ℝ} (h0 : 0 ≤ a) : |angle2D v| ≤ a ↔
    ∃ d : ℝ, |d| ≤ a ∧ ∃ k : ℝ, 0 ≤ k ∧ v.x = k * Real.cos d ∧ v.y = k * Real.sin d := by
  unfold angle2D
  constructor
  · intro h
    refine ⟨_, h, ‖(⟨v.x, v.y⟩ : ℂ)‖, norm_nonneg _, ?_, ?_⟩
    · exact (Complex.norm_mul_cos_arg ⟨v.x, v.y⟩).symm
    · exact (Complex.norm_mul_sin_arg ⟨v.x, v.y⟩).symm
  · rintro ⟨d, hd, k, hk, e1, e2⟩
    rcases hk.eq_or_lt with rfl | hk
    · have : (⟨v.x, v.y⟩ : ℂ) = 0 := by apply Complex.ext <;> simp [e1, e2]
      rw [this]; simpa using h0
    · by_cases hp : a < Real.pi
      · have : (⟨v.x, v.y⟩ : ℂ) = k * (Complex.cos d + Complex.sin d * Complex.I) := by
          rw [e1, e2]; apply Complex.ext <;> simp [Complex.cos_ofReal_re, Complex.sin_ofReal_re]
        rw [this, Complex.arg_mul_cos_add_sin_mul_I hk ⟨by linarith [(abs_le.mp hd).1], by linarith [(abs_le.mp hd).2]⟩]
        exact hd
      · exact (Complex.abs_arg_le_pi _).trans (not_lt.mp hp)

/-- **C96** The file of supports holds one moved copy of the support for each key that needs one, in the order of the
keys, and nothing else. -/
theorem C96_which {cfg : SupportCfg} [DecidablePred (NeedsSupport cfg.minOverhangAngle)] {ts all : List (Tri Vec)}
    {ms : List Mat} (h0 : 0 ≤ cfg.minOverhangAngle)
    (h : supportsOf cfg ts ms = .ok all) :
    all = (ms.filter (NeedsSupport cfg.minOverhangAngle)).flatMap fun m => ts.map fun t => t.map fun p => p.transformed m := by
  unfold supportsOf at h
  obtain ⟨parts, h1, h2⟩ := bind_ok h
  obtain rfl := Except.ok.inj h2
  replace h1 := mapM_ok h1
  clear h h2
  induction h1 with
  | nil => rfl
  | @cons m p ms parts hm _ ih =>
    unfold supportOf at hm
    obtain ⟨v, hv, hm⟩ := bind_ok hm
    obtain rfl := Except.ok.inj hm
    have key : |angle2D v| ≤ cfg.minOverhangAngle ↔ NeedsSupport cfg.minOverhangAngle m := by
      rw [angle_le_iff h0]
      obtain ⟨-, s, hs, e⟩ := normalized_unit hv
      have ex := (Vec.mk.inj e).1
      have ey := (Vec.mk.inj e).2.1
      simp only [one_mul, zero_mul, add_zero] at ex ey
      unfold NeedsSupport
      refine exists_congr fun d => and_congr_right fun _ => ⟨?_, ?_⟩
      · rintro ⟨k, hk, e1, e2⟩
        exact ⟨k * s, by positivity, by rw [ex, e1]; ring, by rw [ey, e2]; ring⟩
      · rintro ⟨k, hk, e1, e2⟩
        refine ⟨k / s, by positivity, ?_, ?_⟩
        · rw [e1] at ex; field_simp; linarith
        · rw [e2] at ey; field_simp; linarith
    rw [List.flatten_cons, ih]
    by_cases hn : NeedsSupport cfg.minOverhangAngle m
    · rw [if_pos (key.mpr hn), List.filter_cons_of_pos (by simpa using hn), List.flatMap_cons]
    · rw [if_neg (fun h => hn (key.mp h)), List.filter_cons_of_neg (by simpa using hn), List.nil_append]

/-- The support of the default configuration, in the hole of the default switch (14.1 mm by 13.9 mm) and roof (4 mm). -/
noncomputable def defaultSupport : SupportCfg :=
  ⟨Real.pi / 6, Real.pi / 4, 26 / 5, 13 / 5, 1 / 2, 1 / 5, 1 / 5, 1, some 0, some (16 / 25), some (83 / 100)⟩

example : SaneSupport (141 / 10) (139 / 10) 4 defaultSupport := by
  constructor <;> simp [defaultSupport] <;> norm_num

/-- The default support is made and watertight, at the default quality. -/
example : ∃ ps, supportPieces ⟨1 / 100, Real.pi / 6⟩ (141 / 10) (139 / 10) 4 defaultSupport = .ok ps ∧ (∃ tss, List.Forall₂ Piece.Meshes ps tss) ∧
    ∀ tss, List.Forall₂ Piece.Meshes ps tss → Watertight tss.flatten :=
  C58_solid ⟨by norm_num, by have := Real.pi_gt_three; norm_num; linarith, by have := Real.pi_pos; norm_num; linarith⟩ (by norm_num)
    (by constructor <;> simp [defaultSupport] <;> norm_num)

/-- A key that is not turned needs a support, and one that is turned by a right angle does not. -/
example : NeedsSupport (Real.pi / 6) 1 ∧ ¬ NeedsSupport (Real.pi / 6) ((1 : Mat).rotatedZ (Real.pi / 2)) := by
  constructor
  · exact ⟨0, by simp; positivity, 1, by norm_num, by simp [Mat.one_def], by simp [Mat.one_def]⟩
  · rintro ⟨d, hd, k, hk, e1, e2⟩
    simp [Mat.rotatedZ, Mat.rotateBy, Mat.one_def, Mat.mul_def] at e1 e2
    have : 0 < Real.cos d := by
      rw [abs_le] at hd
      refine Real.cos_pos_of_mem_Ioo ⟨?_, ?_⟩ <;> linarith [Real.pi_pos]
    rcases e1 with h | h
    · rw [h] at e2; simp at e2
    · linarith

end Chrumm.Part
