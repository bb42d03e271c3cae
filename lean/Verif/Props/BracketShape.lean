import Verif.Spec.Bracket
import Verif.Props.BracketFit
import Verif.Props.Boss
import Verif.Props.Arc
import Verif.Props.Orderly
import Verif.Props.KnobSucceeds
import Verif.Props.FloorWhole

/-! The shape of the brackets (C102). -/

namespace Chrumm.Part
open Geo Geo.Spec Spec

/-- The largest extent of a hexagon of radius 1 that lies flat, in the direction `(u, w)`. -/
noncomputable def hexSupport (u w : ℝ) : ℝ := max |u| (|u| / 2 + Real.sqrt 3 / 2 * |w|)

noncomputable def hexSine (x : ℝ) : ℝ := max |Real.sin x| (max |Real.sin (x + Real.pi / 3)| |Real.sin (x - Real.pi / 3)|)

theorem sine_shift (x : ℝ) : Real.sin (x + Real.pi / 3) = Real.sin x / 2 + Real.sqrt 3 / 2 * Real.cos x ∧
    Real.sin (x - Real.pi / 3) = Real.sin x / 2 - Real.sqrt 3 / 2 * Real.cos x := by
  rw [Real.sin_add, Real.sin_sub, Real.cos_pi_div_three, Real.sin_pi_div_three]
  constructor <;> ring

theorem max_abs_pair (a b : ℝ) : max |a + b| |a - b| = |a| + |b| := by
  rcases le_total 0 a with ha | ha <;> rcases le_total 0 b with hb | hb
  · rw [abs_of_nonneg ha, abs_of_nonneg hb, abs_of_nonneg (by linarith), max_eq_left]
    rw [abs_le]; constructor <;> linarith
  · rw [abs_of_nonneg ha, abs_of_nonpos hb, abs_of_nonneg (by linarith : 0 ≤ a - b), max_eq_right]
    · ring
    · rw [abs_le]; constructor <;> linarith
  · rw [abs_of_nonpos ha, abs_of_nonneg hb, abs_of_nonpos (by linarith : a - b ≤ 0), max_eq_right]
    · ring
    · rw [abs_le]; constructor <;> linarith
  · rw [abs_of_nonpos ha, abs_of_nonpos hb, abs_of_nonpos (by linarith : a + b ≤ 0), max_eq_left]
    · ring
    · rw [abs_le]; constructor <;> linarith

theorem hexSine_eq (x : ℝ) : hexSine x = hexSupport (Real.sin x) (Real.cos x) := by
  unfold hexSine hexSupport
  rw [(sine_shift x).1, (sine_shift x).2, max_abs_pair, abs_div, abs_mul, abs_of_pos (by norm_num : (0 : ℝ) < 2), abs_of_pos (by positivity : 0 < Real.sqrt 3 / 2)]

theorem hexSine_neg (x : ℝ) : hexSine (-x) = hexSine x := by
  rw [hexSine_eq, hexSine_eq, Real.sin_neg, Real.cos_neg]
  unfold hexSupport
  rw [abs_neg]

theorem hexSine_step (x : ℝ) : hexSine (x + Real.pi / 3) = hexSine x := by
  unfold hexSine
  have e1 : Real.sin (x + Real.pi / 3 + Real.pi / 3) = -Real.sin (x - Real.pi / 3) := by
    rw [show x + Real.pi / 3 + Real.pi / 3 = x - Real.pi / 3 + Real.pi by ring, Real.sin_add_pi]
  rw [e1, abs_neg, show x + Real.pi / 3 - Real.pi / 3 = x by ring]
  rw [max_left_comm, max_comm |Real.sin (x - Real.pi / 3)|, ← max_assoc, max_comm _ |Real.sin (x + Real.pi / 3)|, max_assoc, max_left_comm]

theorem hexSine_period (x : ℝ) (k : ℤ) : hexSine (x + k * (Real.pi / 3)) = hexSine x := by
  induction k using Int.induction_on with
  | zero => simp
  | succ k ih =>
    rw [← ih, ← hexSine_step (x + (k : ℤ) * _)]
    congr 1
    push_cast
    ring
  | pred k ih =>
    rw [← ih, ← hexSine_step (x + ((-(k : ℤ) - 1 : ℤ) : ℝ) * _)]
    congr 1
    push_cast
    ring

theorem hexSine_base {x : ℝ} (h0 : 0 ≤ x) (h1 : x ≤ Real.pi / 3) : hexSine x = Real.cos (x - Real.pi / 6) := by
  have hpi := Real.pi_pos
  have e : Real.cos (x - Real.pi / 6) = Real.sin (x + Real.pi / 3) := by
    rw [← Real.cos_pi_div_two_sub, ← Real.cos_neg]
    congr 1
    ring
  rw [e, hexSine_eq]
  have hs : 0 ≤ Real.sin x := Real.sin_nonneg_of_nonneg_of_le_pi h0 (by linarith)
  have hc : 1 / 2 ≤ Real.cos x := by
    rw [← Real.cos_pi_div_three]
    exact Real.cos_le_cos_of_nonneg_of_le_pi h0 (by linarith) h1
  have hs2 : Real.sin x ≤ Real.sqrt 3 / 2 := by
    rw [← Real.sin_pi_div_three]
    exact Real.sin_le_sin_of_le_of_le_pi_div_two (by linarith) (by linarith) h1
  rw [(sine_shift x).1]
  unfold hexSupport
  rw [abs_of_nonneg hs, abs_of_nonneg (by linarith)]
  apply max_eq_right
  have : Real.sqrt 3 / 2 * (1 / 2) ≤ Real.sqrt 3 / 2 * Real.cos x := mul_le_mul_of_nonneg_left hc (by positivity)
  linarith

/-- The distance of a tangent of the nut. -/
theorem hexTangentDist_eq (r x : ℝ) : hexTangentDist r x = r * hexSupport (Real.sin x) (Real.cos x) := by
  have hpi := Real.pi_pos
  unfold hexTangentDist
  congr 1
  have h0 : 0 ≤ pyMod |x| (Real.pi / 3) := by
    unfold pyMod
    have := Int.floor_le (|x| / (Real.pi / 3))
    rw [le_div_iff₀ (by positivity)] at this
    linarith
  have h1 : pyMod |x| (Real.pi / 3) ≤ Real.pi / 3 := by
    unfold pyMod
    have := Int.lt_floor_add_one (|x| / (Real.pi / 3))
    rw [div_lt_iff₀ (by positivity)] at this
    linarith
  rw [← hexSine_base h0 h1, ← hexSine_eq, ← hexSine_period _ ⌊|x| / (Real.pi / 3)⌋]
  rw [show pyMod |x| (Real.pi / 3) + ⌊|x| / (Real.pi / 3)⌋ * (Real.pi / 3) = |x| by unfold pyMod; ring]
  rcases abs_choice x with h | h <;> rw [h]
  exact hexSine_neg x

/-- The corners of a hexagon. -/
theorem hex_corner (k : ℕ) : (Real.cos (k * (Real.pi / 3)), Real.sin (k * (Real.pi / 3))) ∈
    ([(1, 0), (1 / 2, Real.sqrt 3 / 2), (-1 / 2, Real.sqrt 3 / 2), (-1, 0), (-1 / 2, -(Real.sqrt 3 / 2)), (1 / 2, -(Real.sqrt 3 / 2))] : List (ℝ × ℝ)) := by
  have st : ∀ x : ℝ, Real.cos (x + Real.pi / 3) = Real.cos x / 2 - Real.sqrt 3 / 2 * Real.sin x := by
    intro x
    rw [Real.cos_add, Real.cos_pi_div_three, Real.sin_pi_div_three]
    ring
  have h3 : Real.sqrt 3 * Real.sqrt 3 = 3 := Real.mul_self_sqrt (by norm_num)
  induction k with
  | zero => simp
  | succ k ih =>
    have e : ((k + 1 : ℕ) : ℝ) * (Real.pi / 3) = k * (Real.pi / 3) + Real.pi / 3 := by push_cast; ring
    rw [e, st, (sine_shift _).1]
    generalize Real.cos (k * (Real.pi / 3)) = c at *
    generalize Real.sin (k * (Real.pi / 3)) = s at *
    generalize Real.sqrt 3 = w at *
    simp only [List.mem_cons, List.not_mem_nil, or_false, Prod.mk.injEq] at ih ⊢
    rcases ih with ⟨rfl, rfl⟩ | ⟨rfl, rfl⟩ | ⟨rfl, rfl⟩ | ⟨rfl, rfl⟩ | ⟨rfl, rfl⟩ | ⟨rfl, rfl⟩
    · right; left; constructor <;> ring
    · right; right; left; constructor <;> linarith
    · right; right; right; left; constructor <;> linarith
    · right; right; right; right; left; constructor <;> ring
    · right; right; right; right; right; constructor <;> linarith
    · left; constructor <;> linarith

theorem hex_corner_ex : ∀ x ∈ ([(1, 0), (1 / 2, Real.sqrt 3 / 2), (-1 / 2, Real.sqrt 3 / 2), (-1, 0), (-1 / 2, -(Real.sqrt 3 / 2)), (1 / 2, -(Real.sqrt 3 / 2))] : List (ℝ × ℝ)),
    ∃ k : ℕ, Real.cos (k * (Real.pi / 3)) = x.1 ∧ Real.sin (k * (Real.pi / 3)) = x.2 := by
  have st : ∀ x : ℝ, Real.cos (x + Real.pi / 3) = Real.cos x / 2 - Real.sqrt 3 / 2 * Real.sin x := by
    intro x
    rw [Real.cos_add, Real.cos_pi_div_three, Real.sin_pi_div_three]
    ring
  have h3 : Real.sqrt 3 * Real.sqrt 3 = 3 := Real.mul_self_sqrt (by norm_num)
  have next : ∀ k : ℕ, ∀ c s : ℝ, (Real.cos (k * (Real.pi / 3)) = c ∧ Real.sin (k * (Real.pi / 3)) = s) →
      Real.cos ((k + 1 : ℕ) * (Real.pi / 3)) = c / 2 - Real.sqrt 3 / 2 * s ∧ Real.sin ((k + 1 : ℕ) * (Real.pi / 3)) = s / 2 + Real.sqrt 3 / 2 * c := by
    rintro k c s ⟨rfl, rfl⟩
    rw [show ((k + 1 : ℕ) : ℝ) * (Real.pi / 3) = k * (Real.pi / 3) + Real.pi / 3 by push_cast; ring, st, (sine_shift _).1]
    exact ⟨rfl, rfl⟩
  have k0 : Real.cos ((0 : ℕ) * (Real.pi / 3)) = 1 ∧ Real.sin ((0 : ℕ) * (Real.pi / 3)) = 0 := by simp
  have k1 : Real.cos ((1 : ℕ) * (Real.pi / 3)) = 1 / 2 ∧ Real.sin ((1 : ℕ) * (Real.pi / 3)) = Real.sqrt 3 / 2 := by
    obtain ⟨h1, h2⟩ := next 0 _ _ k0
    exact ⟨by rw [h1]; linarith, by rw [h2]; linarith⟩
  have k2 : Real.cos ((2 : ℕ) * (Real.pi / 3)) = -1 / 2 ∧ Real.sin ((2 : ℕ) * (Real.pi / 3)) = Real.sqrt 3 / 2 := by
    obtain ⟨h1, h2⟩ := next 1 _ _ k1
    exact ⟨by rw [h1]; linarith, by rw [h2]; linarith⟩
  have k3 : Real.cos ((3 : ℕ) * (Real.pi / 3)) = -1 ∧ Real.sin ((3 : ℕ) * (Real.pi / 3)) = 0 := by
    obtain ⟨h1, h2⟩ := next 2 _ _ k2
    exact ⟨by rw [h1]; linarith, by rw [h2]; linarith⟩
  have k4 : Real.cos ((4 : ℕ) * (Real.pi / 3)) = -1 / 2 ∧ Real.sin ((4 : ℕ) * (Real.pi / 3)) = -(Real.sqrt 3 / 2) := by
    obtain ⟨h1, h2⟩ := next 3 _ _ k3
    exact ⟨by rw [h1]; linarith, by rw [h2]; linarith⟩
  have k5 : Real.cos ((5 : ℕ) * (Real.pi / 3)) = 1 / 2 ∧ Real.sin ((5 : ℕ) * (Real.pi / 3)) = -(Real.sqrt 3 / 2) := by
    obtain ⟨h1, h2⟩ := next 4 _ _ k4
    exact ⟨by rw [h1]; linarith, by rw [h2]; linarith⟩
  intro x hx
  simp only [List.mem_cons, List.not_mem_nil, or_false] at hx
  rcases hx with rfl | rfl | rfl | rfl | rfl | rfl
  · exact ⟨0, k0⟩
  · exact ⟨1, k1⟩
  · exact ⟨2, k2⟩
  · exact ⟨3, k3⟩
  · exact ⟨4, k4⟩
  · exact ⟨5, k5⟩

/-- The extent of the screw in the direction `(u, w)`. -/
theorem screw_support {cfg : BracketCfg} {c : Vec} {u w : ℝ} (huw : u ^ 2 + w ^ 2 = 1) (hn : 0 ≤ cfg.nutAcrossFlats) (hd : 0 ≤ cfg.counterboreDiameter) :
    IsGreatest {t | ∃ p, OnScrew cfg c p ∧ (p.y - c.y) * u + (p.z - c.z) * w = t} (max (cfg.counterboreDiameter / 2) (cfg.nutRadius * hexSupport u w)) := by
  have hR : 0 ≤ cfg.nutRadius := by unfold BracketCfg.nutRadius; positivity
  have hex : ∀ p, NutCorner cfg c p → (p.y - c.y) * u + (p.z - c.z) * w ≤ cfg.nutRadius * hexSupport u w := by
    rintro p ⟨k, h1, h2⟩
    rw [h1, h2]
    have : (c.y + cfg.nutAcrossFlats / Real.sqrt 3 * Real.cos (k * (Real.pi / 3)) - c.y) * u + (c.z + cfg.nutAcrossFlats / Real.sqrt 3 * Real.sin (k * (Real.pi / 3)) - c.z) * w =
        cfg.nutRadius * (Real.cos (k * (Real.pi / 3)) * u + Real.sin (k * (Real.pi / 3)) * w) := by unfold BracketCfg.nutRadius; ring
    rw [this]
    apply mul_le_mul_of_nonneg_left _ hR
    have hk := hex_corner k
    generalize Real.cos (k * (Real.pi / 3)) = x at *
    generalize Real.sin (k * (Real.pi / 3)) = y at *
    have s3 : 0 < Real.sqrt 3 := by positivity
    have au := le_abs_self u
    have au' := neg_abs_le u
    have aw : Real.sqrt 3 / 2 * w ≤ Real.sqrt 3 / 2 * |w| := mul_le_mul_of_nonneg_left (le_abs_self w) (by positivity)
    have aw' : -(Real.sqrt 3 / 2 * w) ≤ Real.sqrt 3 / 2 * |w| := by
      have := mul_le_mul_of_nonneg_left (neg_abs_le w) (by positivity : 0 ≤ Real.sqrt 3 / 2)
      linarith
    unfold hexSupport
    simp only [List.mem_cons, List.not_mem_nil, or_false, Prod.mk.injEq] at hk
    rcases hk with ⟨rfl, rfl⟩ | ⟨rfl, rfl⟩ | ⟨rfl, rfl⟩ | ⟨rfl, rfl⟩ | ⟨rfl, rfl⟩ | ⟨rfl, rfl⟩
    · exact le_max_of_le_left (by linarith)
    · exact le_max_of_le_right (by linarith)
    · exact le_max_of_le_right (by linarith)
    · exact le_max_of_le_left (by linarith)
    · exact le_max_of_le_right (by linarith)
    · exact le_max_of_le_right (by linarith)
  constructor
  · rcases max_choice (cfg.counterboreDiameter / 2) (cfg.nutRadius * hexSupport u w) with e | e
    · rw [e]
      refine ⟨c + (⟨0, u, w⟩ : Vec) * (cfg.counterboreDiameter / 2), Or.inr ?_, ?_⟩
      · unfold Around
        simp only [Vec.add_y, Vec.add_z, Vec.mul_y, Vec.mul_z]
        linear_combination (cfg.counterboreDiameter / 2) ^ 2 * huw
      · simp only [Vec.add_y, Vec.add_z, Vec.mul_y, Vec.mul_z]
        linear_combination cfg.counterboreDiameter / 2 * huw
    · rw [e]
      have pick : ∃ x ∈ ([(1, 0), (1 / 2, Real.sqrt 3 / 2), (-1 / 2, Real.sqrt 3 / 2), (-1, 0), (-1 / 2, -(Real.sqrt 3 / 2)), (1 / 2, -(Real.sqrt 3 / 2))] : List (ℝ × ℝ)),
          x.1 * u + x.2 * w = hexSupport u w := by
        unfold hexSupport
        rcases max_choice |u| (|u| / 2 + Real.sqrt 3 / 2 * |w|) with e | e <;> rw [e]
        · rcases le_total 0 u with h | h
          · exact ⟨(1, 0), by simp, by rw [abs_of_nonneg h]; ring⟩
          · exact ⟨(-1, 0), by simp, by rw [abs_of_nonpos h]; ring⟩
        · rcases le_total 0 u with h | h <;> rcases le_total 0 w with h' | h'
          · exact ⟨(1 / 2, Real.sqrt 3 / 2), by simp, by rw [abs_of_nonneg h, abs_of_nonneg h']; ring⟩
          · exact ⟨(1 / 2, -(Real.sqrt 3 / 2)), by simp, by rw [abs_of_nonneg h, abs_of_nonpos h']; ring⟩
          · exact ⟨(-1 / 2, Real.sqrt 3 / 2), by simp, by rw [abs_of_nonpos h, abs_of_nonneg h']; ring⟩
          · exact ⟨(-1 / 2, -(Real.sqrt 3 / 2)), by simp, by rw [abs_of_nonpos h, abs_of_nonpos h']; ring⟩
      obtain ⟨x, hx, hv⟩ := pick
      obtain ⟨k, h1, h2⟩ := hex_corner_ex x hx
      refine ⟨c + (⟨0, x.1, x.2⟩ : Vec) * cfg.nutRadius, Or.inl ⟨k, ?_, ?_⟩, ?_⟩
      · rw [h1]
        simp only [Vec.add_y, Vec.mul_y, BracketCfg.nutRadius]
        ring
      · rw [h2]
        simp only [Vec.add_z, Vec.mul_z, BracketCfg.nutRadius]
        ring
      · simp only [Vec.add_y, Vec.add_z, Vec.mul_y, Vec.mul_z]
        rw [← hv]
        ring
  · rintro t ⟨p, hp, rfl⟩
    rcases hp with hp | hp
    · exact le_max_of_le_right (hex p hp)
    · apply le_max_of_le_left
      unfold Around at hp
      apply abs_le_of_sq_le_sq' _ (by positivity) |>.2
      nlinarith [sq_nonneg ((p.y - c.y) * w - (p.z - c.z) * u)]

/-- A margin that is measured in the direction `(u, w)`. -/
theorem screw_margin {cfg : BracketCfg} {c : Vec} {u w d m s : ℝ} {f : Vec → ℝ} (huw : u ^ 2 + w ^ 2 = 1) (hn : 0 ≤ cfg.nutAcrossFlats)
    (hd : 0 ≤ cfg.counterboreDiameter) (hs : s = cfg.nutRadius * hexSupport u w) (hf : ∀ p, f p = d - ((p.y - c.y) * u + (p.z - c.z) * w))
    (hm : d = max (cfg.counterboreDiameter / 2) s + m) : Margin cfg c f m := by
  have k := screw_support (c := c) huw hn hd
  rw [← hs] at k
  constructor
  · obtain ⟨p, hp, e⟩ := k.1
    exact ⟨p, hp, by rw [hf, e, hm]; ring⟩
  · rintro t ⟨p, hp, rfl⟩
    have := k.2 ⟨p, hp, rfl⟩
    rw [hf, hm]
    linarith

/-- A line on the split plane. -/
def UprightLine (l : Line) : Prop := l.pos.x = 0 ∧ l.dir.x = 0 ∧ l.dir.y ^ 2 + l.dir.z ^ 2 = 1

theorem upright_unit {l : Line} (h : UprightLine l) : l.dir.dot l.dir = 1 := by
  obtain ⟨-, h2, h3⟩ := h
  simp only [Vec.dot, h2]
  linarith

theorem upright_det {l m : Line} (hl : UprightLine l) (hm : UprightLine m) :
    1 - m.dir.dot l.dir ^ 2 = (l.dir.y * m.dir.z - l.dir.z * m.dir.y) ^ 2 := by
  obtain ⟨-, h2, h3⟩ := hl
  obtain ⟨-, k2, k3⟩ := hm
  simp only [Vec.dot, h2, k2]
  linear_combination (-1 : ℝ) * h3 - (l.dir.y ^ 2 + l.dir.z ^ 2) * k3

/-- Lines in the yz plane meet where they should. -/
theorem upright_intersect {l m : Line} {r : Vec} (hl : UprightLine l) (hm : UprightLine m) (h : l.intersect m = .ok r) :
    OnLine l.pos l.dir r ∧ OnLine m.pos m.dir r := by
  have hc : l.dir.y * m.dir.z - l.dir.z * m.dir.y ≠ 0 := by
    intro h0
    have e := intersect_eq (upright_unit hl) (upright_unit hm)
    dsimp only at e
    rw [upright_det hl hm, h0, if_pos (by simp [isZero]), h] at e
    cases e
  obtain ⟨t, ht⟩ : ∃ t : ℝ, t * (l.dir.y * m.dir.z - l.dir.z * m.dir.y) =
      (m.pos.y - l.pos.y) * m.dir.z - (m.pos.z - l.pos.z) * m.dir.y := ⟨_, div_mul_cancel₀ _ hc⟩
  obtain ⟨s, hs⟩ : ∃ s : ℝ, s * (l.dir.y * m.dir.z - l.dir.z * m.dir.y) =
      (m.pos.y - l.pos.y) * l.dir.z - (m.pos.z - l.pos.z) * l.dir.y := ⟨_, div_mul_cancel₀ _ hc⟩
  have hx : OnLine l.pos l.dir (l.pos + l.dir * t) := ⟨t, rfl⟩
  have hx' : OnLine m.pos m.dir (l.pos + l.dir * t) := by
    refine ⟨s, ?_⟩
    ext
    · simp [hl.1, hl.2.1, hm.1, hm.2.1]
    · apply mul_right_cancel₀ hc
      simp only [Vec.add_y, Vec.mul_y]
      linear_combination l.dir.y * ht - m.dir.y * hs
    · apply mul_right_cancel₀ hc
      simp only [Vec.add_z, Vec.mul_z]
      linear_combination l.dir.z * ht - m.dir.z * hs
  rw [C25_common_point l.pos l.dir m.pos m.dir l m r _ (make_self (upright_unit hl)) (make_self (upright_unit hm)) h hx hx']
  exact ⟨hx, hx'⟩

/-- The parts of the sketch of a corner bracket. -/
theorem cornerSketch_ok {q : Quality} {cfg : BracketCfg} {a b c : Vec} {x y : ℝ} {s : CornerSketch}
    (h : cornerSketch q cfg a b c x y = .ok s) (ha : a.x = 0) (hb : b.x = 0) (hc : c.x = 0) :
    ∃ d : Vec, UnitOf d (b - a) ∧ d.x = 0 ∧ s.screwCenter.x = 0 ∧
      s.screwCenter.y = c.y - (max (cfg.counterboreDiameter / 2) cfg.nutRadius + cfg.wallMargin + x) ∧
      (s.screwCenter.y - a.y) * d.z - (s.screwCenter.z - a.z) * d.y =
        -(max (cfg.counterboreDiameter / 2) (hexTangentDist cfg.nutRadius (angle2D ⟨-d.y, -d.z, 0⟩)) + cfg.baseMargin + x) ∧
      s.archLBG.x = 0 ∧ s.archLBG.y = c.y ∧ s.archLBG.z = s.screwCenter.z - (max (cfg.counterboreDiameter / 2) (cfg.nutAcrossFlats / 2) + cfg.apexMargin) ∧
      s.archLFT.x = 0 ∧ (s.archLFT.y - a.y) * d.z - (s.archLFT.z - a.z) * d.y = 0 ∧
      (s.screwCenter.y - s.archLFT.y) * Real.cos cfg.taperAngle + (s.screwCenter.z - s.archLFT.z) * Real.sin cfg.taperAngle =
        max (cfg.counterboreDiameter / 2) (hexTangentDist cfg.nutRadius (cfg.taperAngle - Real.pi / 2)) + cfg.taperMargin + y := by
  unfold cornerSketch at h
  dsimp only at h
  obtain ⟨d, i1, h⟩ := bind_ok h
  have u := normalized_unit i1
  have x1 := normalized_x i1 (by simp [ha, hb])
  have d1 : d.y ^ 2 + d.z ^ 2 = 1 := by
    have := u.1
    simp only [Vec.dot, x1] at this
    linarith
  have hu := Real.sin_sq_add_cos_sq cfg.taperAngle
  rw [line_self (d := (⟨0, 0, 1⟩ : Vec)) (by simp [Vec.dot]), value_bind, line_self (d := d) u.1, value_bind] at h
  obtain ⟨sc, i4, h⟩ := bind_ok h
  rw [line_self (d := (⟨0, 0, 1⟩ : Vec)) (by simp [Vec.dot]), value_bind, line_self (d := d) u.1, value_bind,
    line_self (d := (⟨0, 1, 0⟩ : Vec)) (by simp [Vec.dot]), value_bind, line_self (by simp only [Vec.dot]; linarith), value_bind] at h
  obtain ⟨p1, i9, h⟩ := bind_ok h
  obtain ⟨p2, -, h⟩ := bind_ok h
  obtain ⟨p3, i11, h⟩ := bind_ok h
  obtain ⟨arc, -, h⟩ := bind_ok h
  obtain rfl := Except.ok.inj h
  dsimp only
  obtain ⟨⟨t1, e1⟩, t2, e2⟩ := upright_intersect (l := ⟨_, _⟩) (m := ⟨_, _⟩) ⟨by simp [ha], x1, d1⟩ ⟨by simp [hc], rfl, by simp⟩ i4
  have scx : sc.x = 0 := by rw [e2]; simp [hc]
  obtain ⟨⟨t3, e3⟩, t4, e4⟩ := upright_intersect (l := ⟨_, _⟩) (m := ⟨_, _⟩) ⟨hc, rfl, by simp⟩ ⟨by simp [scx], rfl, by simp⟩ i9
  obtain ⟨⟨t5, e5⟩, t6, e6⟩ := upright_intersect (l := ⟨_, _⟩) (m := ⟨_, _⟩) ⟨by simp [scx], rfl, by simp only; linarith⟩ ⟨ha, x1, d1⟩ i11
  refine ⟨d, u, x1, scx, ?_, ?_, ?_, ?_, ?_, ?_, ?_, ?_⟩
  · rw [e2]; simp
  · rw [e1]
    simp only [Vec.add_y, Vec.sub_y, Vec.mul_y, Vec.add_z, Vec.sub_z, Vec.mul_z]
    linear_combination (-(max (cfg.counterboreDiameter / 2) (hexTangentDist cfg.nutRadius (angle2D ⟨-d.y, -d.z, 0⟩)) + cfg.baseMargin + x)) * d1
  · rw [e3]; simp [hc]
  · rw [e3]; simp
  · rw [e4]; simp
  · rw [e6]; simp [ha, x1]
  · rw [e6]; simp; ring
  · rw [e5]
    simp only [Vec.add_y, Vec.sub_y, Vec.mul_y, Vec.add_z, Vec.sub_z, Vec.mul_z]
    linear_combination (max (cfg.counterboreDiameter / 2) (hexTangentDist cfg.nutRadius (cfg.taperAngle - Real.pi / 2)) + cfg.taperMargin + y) * hu

/-- No hole is smaller than its circle. -/
theorem maybeUpright_clear {q : Quality} {taper : Option ℝ} {r : ℝ} {pts : List Vec} (hr : 1 / 1000000 ≤ r) (hq : 0 < q.maxChordAngle) :
    ∀ {u : Bool}, maybeUpright q taper r u = .ok pts → ∀ p ∈ pts, r ^ 2 ≤ p.x ^ 2 + p.y ^ 2 := by
  have circle : ∀ {s t : ℝ} {l : List Vec}, arc2D q r s t 0 = .ok l → ∀ p ∈ l, r ^ 2 ≤ p.x ^ 2 + p.y ^ 2 := by
    intro s t l hp p hm
    have := C53_on_circle hr hq hp p hm
    simp only [OnCircle2D, distSq2D] at this
    have := this.2
    simp at this
    linarith
  rintro (_ | _) h
  · exact circle h
  · change uprightHole2D q taper r = .ok pts at h
    unfold uprightHole2D at h
    rcases taper with _ | a
    · exact circle h
    · dsimp only at h
      by_cases ha : a > 0
      · rw [if_pos ha] at h
        obtain ⟨arc, h1, h⟩ := bind_ok h
        obtain ⟨t, h2, h⟩ := bind_ok h
        obtain rfl := Except.ok.inj h
        intro p hp
        simp only [List.mem_append, List.mem_cons, List.not_mem_nil, or_false] at hp
        rcases hp with (rfl | hp) | rfl
        · dsimp only; nlinarith [sq_nonneg t]
        · exact circle h1 p hp
        · simp only [Vec.mirroredX]; nlinarith [sq_nonneg t]
      · rw [if_neg ha] at h
        exact circle h

theorem screwHole_ok {q : Quality} {taper : Option ℝ} {cfg : BracketCfg} {c : Vec} {n u : Bool} {ps : List Piece} {holeL boreR : List Vec}
    (h : screwHole q taper cfg c n u = .ok (ps, holeL, boreR)) (hc : c.x = 0) (hq : 0 < q.maxChordAngle) (hd : 1 / 500000 ≤ cfg.holeDiameter)
    (hb : 1 / 500000 ≤ cfg.counterboreDiameter) (hn : 0 < cfg.nutAcrossFlats) : ScrewHole cfg n u c ps holeL := by
  have h0 := screwHole_x h hc
  unfold screwHole at h
  dsimp only at h
  obtain ⟨hole, h1, h⟩ := bind_ok h
  obtain ⟨bore, h2, h⟩ := bind_ok h
  obtain ⟨rfl, rfl, -⟩ := Prod.mk.inj (Except.ok.inj h) |>.imp id Prod.mk.inj
  have circle : ∀ {r : ℝ} {pts : List Vec}, 1 / 1000000 ≤ r → maybeUpright q taper r false = .ok pts → ∀ p ∈ pts, p.x ^ 2 + p.y ^ 2 = r ^ 2 := by
    intro r pts hr hp p hm
    have := C53_on_circle hr hq hp p hm
    simp only [OnCircle2D, distSq2D] at this
    simpa using this.2
  refine ⟨hc, h0, ?_, ?_, ⟨bore.map fun p => (⟨0, -p.x, p.y⟩ + (c + ⟨cfg.holeLength, 0, 0⟩) : Vec), ?_, ?_, ?_, ?_, ?_, ?_, ?_⟩⟩
  · intro p hp
    obtain ⟨v, hv, rfl⟩ := List.mem_map.mp hp
    obtain ⟨w, hw, rfl⟩ := List.mem_map.mp hv
    have := maybeUpright_clear (by linarith) hq h1 w hw
    unfold Clear
    simp only [Vec.add_y, Vec.add_z]
    linarith
  · rintro rfl p hp
    obtain ⟨v, hv, rfl⟩ := List.mem_map.mp hp
    obtain ⟨w, hw, rfl⟩ := List.mem_map.mp hv
    have := circle (by linarith) h1 w hw
    unfold Around
    simp only [Vec.add_y, Vec.add_z]
    linarith
  · have : edgeTranslated (hole.map fun p => (⟨0, -p.x, p.y⟩ : Vec)) (c + ⟨cfg.holeLength, 0, 0⟩) =
        (edgeTranslated (hole.map fun p => (⟨0, -p.x, p.y⟩ : Vec)) c).map (· + ⟨cfg.holeLength, 0, 0⟩) := by
      unfold edgeTranslated
      simp only [List.map_map]
      apply List.map_congr_left
      intro v _
      ext <;> simp <;> ring
    rw [this]
    simp
  · simp [edgeTranslated]
  · have : edgeTranslated (hole.map fun p => (⟨0, -p.x, p.y⟩ : Vec)) (c + ⟨cfg.holeLength, 0, 0⟩) =
        (edgeTranslated (hole.map fun p => (⟨0, -p.x, p.y⟩ : Vec)) c).map (· + ⟨cfg.holeLength, 0, 0⟩) := by
      unfold edgeTranslated
      simp only [List.map_map]
      apply List.map_congr_left
      intro v _
      ext <;> simp <;> ring
    rw [this]
    simp
  · intro p hp
    obtain ⟨v, hv, rfl⟩ := List.mem_map.mp hp
    simp [hc]
  · rintro rfl
    unfold boreSketch at h2
    obtain rfl := Except.ok.inj h2
    have s3 : 0 < Real.sqrt 3 := by positivity
    have h3 : Real.sqrt 3 * Real.sqrt 3 = 3 := Real.mul_self_sqrt (by norm_num)
    have hA : cfg.nutAcrossFlats = cfg.nutRadius * Real.sqrt 3 := by unfold BracketCfg.nutRadius; field_simp
    have hR : 0 < cfg.nutRadius := by unfold BracketCfg.nutRadius; positivity
    refine ⟨rfl, fun p px => ⟨?_, ?_⟩⟩
    · intro hp
      have key : ∀ x ∈ ([(1, 0), (1 / 2, Real.sqrt 3 / 2), (-1 / 2, Real.sqrt 3 / 2), (-1, 0), (-1 / 2, -(Real.sqrt 3 / 2)), (1 / 2, -(Real.sqrt 3 / 2))] : List (ℝ × ℝ)),
          p.y = c.y + cfg.nutRadius * x.1 → p.z = c.z + cfg.nutRadius * x.2 → NutCorner cfg c p := by
        intro x hx e1 e2
        obtain ⟨k, k1, k2⟩ := hex_corner_ex x hx
        exact ⟨k, by rw [k1]; exact e1, by rw [k2]; exact e2⟩
      simp only [List.map_cons, List.map_nil, List.mem_cons, List.not_mem_nil, or_false] at hp
      rcases hp with rfl | rfl | rfl | rfl | rfl | rfl
      · exact key (1 / 2, Real.sqrt 3 / 2) (by simp) (by simp only [Vec.add_y]; ring) (by simp only [Vec.add_z]; rw [hA]; ring)
      · exact key (1, 0) (by simp) (by simp only [Vec.add_y]; ring) (by simp only [Vec.add_z]; ring)
      · exact key (1 / 2, -(Real.sqrt 3 / 2)) (by simp) (by simp only [Vec.add_y]; ring) (by simp only [Vec.add_z]; rw [hA]; ring)
      · exact key (-1 / 2, -(Real.sqrt 3 / 2)) (by simp) (by simp only [Vec.add_y]; ring) (by simp only [Vec.add_z]; rw [hA]; ring)
      · exact key (-1, 0) (by simp) (by simp only [Vec.add_y]; ring) (by simp only [Vec.add_z]; ring)
      · exact key (-1 / 2, Real.sqrt 3 / 2) (by simp) (by simp only [Vec.add_y]; ring) (by simp only [Vec.add_z]; rw [hA]; ring)
    · rintro ⟨k, k1, k2⟩
      have hk := hex_corner k
      generalize Real.cos (k * (Real.pi / 3)) = x at *
      generalize Real.sin (k * (Real.pi / 3)) = y at *
      have mk : ∀ v : Vec, v.x = cfg.holeLength → v.y = p.y → v.z = p.z → p = v := fun v e1 e2 e3 => by
        ext
        · rw [px, e1]
        · exact e2.symm
        · exact e3.symm
      change p.y = c.y + cfg.nutRadius * x at k1
      change p.z = c.z + cfg.nutRadius * y at k2
      simp only [List.map_cons, List.map_nil, List.mem_cons, List.not_mem_nil, or_false, Prod.mk.injEq] at hk ⊢
      rcases hk with ⟨rfl, rfl⟩ | ⟨rfl, rfl⟩ | ⟨rfl, rfl⟩ | ⟨rfl, rfl⟩ | ⟨rfl, rfl⟩ | ⟨rfl, rfl⟩
      · right; left; apply mk <;> simp only [Vec.add_x, Vec.add_y, Vec.add_z, k1, k2, hc] <;> ring
      · left; apply mk <;> simp only [Vec.add_x, Vec.add_y, Vec.add_z, k1, k2, hc] <;> (try rw [hA]) <;> ring
      · right; right; right; right; right; apply mk <;> simp only [Vec.add_x, Vec.add_y, Vec.add_z, k1, k2, hc] <;> (try rw [hA]) <;> ring
      · right; right; right; right; left; apply mk <;> simp only [Vec.add_x, Vec.add_y, Vec.add_z, k1, k2, hc] <;> ring
      · right; right; right; left; apply mk <;> simp only [Vec.add_x, Vec.add_y, Vec.add_z, k1, k2, hc] <;> (try rw [hA]) <;> ring
      · right; right; left; apply mk <;> simp only [Vec.add_x, Vec.add_y, Vec.add_z, k1, k2, hc] <;> (try rw [hA]) <;> ring
  · rintro rfl p hp
    obtain ⟨v, hv, rfl⟩ := List.mem_map.mp hp
    have := maybeUpright_clear (by linarith) hq h2 v hv
    unfold Clear
    simp only [Vec.add_y, Vec.add_z]
    linarith
  · rintro rfl rfl p hp
    obtain ⟨v, hv, rfl⟩ := List.mem_map.mp hp
    have := circle (by linarith) h2 v hv
    unfold Around
    simp only [Vec.add_y, Vec.add_z]
    linarith

/-- `below` is measured at right angles to the line. -/
theorem below_unit {a b d p : Vec} (u : UnitOf d (b - a)) (hx : d.x = 0) : below a b p = (p.z - a.z) * d.y - (p.y - a.y) * d.z := by
  obtain ⟨u1, k, hk, e⟩ := u
  simp only [Vec.dot, hx] at u1
  have e1 : b.y - a.y = d.y * k := by have := congrArg Vec.y e; simpa using this
  have e2 : b.z - a.z = d.z * k := by have := congrArg Vec.z e; simpa using this
  unfold below
  rw [e1, e2, show (d.y * k) ^ 2 + (d.z * k) ^ 2 = k ^ 2 by linear_combination k ^ 2 * u1, Real.sqrt_sq hk.le]
  field_simp

theorem hexSupport_abs {u w u' w' : ℝ} (h : |u| = |u'|) (h' : |w| = |w'|) : hexSupport u w = hexSupport u' w' := by
  unfold hexSupport
  rw [h, h']

/-- The parts of a corner bracket that do not depend on a ziptie. -/
theorem cornerForward_parts {q : Quality} {taper : Option ℝ} {cfg : BracketCfg} {zip : Option CableCfg} {a b c : Vec}
    {x y : ℝ} {n : Bool} {k : CornerBracket} (h : cornerForward q taper cfg zip a b c x y n = .ok k) :
    ∃ s ps holeL holeR, cornerSketch q cfg a b c x y = .ok s ∧ screwHole q taper cfg s.screwCenter n false = .ok (ps, holeL, holeR) ∧
      (∀ p ∈ ps, p ∈ k.pieces) ∧ k.splitHoles.head? = some holeL.reverse ∧ k.wallEdge.head? = some s.archLBG ∧
      k.roofEdge[1]? = some (s.archLFT + ⟨cfg.holeLength + cfg.counterboreLength, 0, 0⟩) := by
  unfold cornerForward at h
  dsimp only at h
  obtain ⟨s, i0, h⟩ := bind_ok h
  obtain ⟨l0, i1, h⟩ := bind_ok h
  obtain ⟨l1, i2, h⟩ := bind_ok h
  obtain ⟨r0, i3, h⟩ := bind_ok h
  obtain ⟨r1, i4, h⟩ := bind_ok h
  obtain ⟨⟨hp, holeL, holeR⟩, i5, h⟩ := bind_ok h
  have e0 : l0 = s.archLBG := by
    rw [pyIndex_zero] at i1
    simpa using i1.symm
  have e1 : r1 = s.archLFT + ⟨cfg.holeLength + cfg.counterboreLength, 0, 0⟩ := by
    rw [pyIndex_last] at i4
    unfold edgeTranslated at i4
    rw [List.map_append, List.getLast?_append] at i4
    simpa using i4.symm
  dsimp only at h
  cases zip with
  | none =>
    unfold cornerFinish at h
    obtain rfl := Except.ok.inj h
    refine ⟨s, hp, holeL, holeR, i0, i5, fun p hp => ?_, rfl, ?_, ?_⟩
    · simp [hp]
    · simp [e0]
    · simp [e1]
  | some cable =>
    unfold cornerFinish at h
    dsimp only at h
    obtain ⟨⟨zp, newR, newL, split, roof, hole⟩, i6, h⟩ := bind_ok h
    obtain rfl := Except.ok.inj h
    unfold cornerZip at i6
    dsimp only at i6
    obtain ⟨⟨H, f1, f2⟩, j1, i6⟩ := bind_ok i6
    dsimp only at i6
    obtain ⟨Z, j2, i6⟩ := bind_ok i6
    obtain ⟨l0', k1, i6⟩ := bind_ok i6
    obtain ⟨_, -, i6⟩ := bind_ok i6
    obtain ⟨_, -, i6⟩ := bind_ok i6
    obtain ⟨_, -, i6⟩ := bind_ok i6
    obtain ⟨_, -, i6⟩ := bind_ok i6
    obtain ⟨_, -, i6⟩ := bind_ok i6
    obtain ⟨_, -, i6⟩ := bind_ok i6
    obtain ⟨r1', k2, i6⟩ := bind_ok i6
    have := Except.ok.inj i6
    simp only [Prod.mk.injEq] at this
    obtain ⟨-, -, -, -, rfl, -⟩ := this
    refine ⟨s, hp, holeL, holeR, i0, i5, fun p hp => ?_, rfl, ?_, ?_⟩
    · simp [hp]
    · simp [e0]
    · rw [pyIndex_last] at k2
      unfold edgeTranslated at k2
      rw [List.map_append, List.getLast?_cons, List.getLast?_append] at k2
      simp at k2
      simp [k2]

theorem screwHole_mono {cfg : BracketCfg} {n u : Bool} {c : Vec} {ps qs : List Piece} {hole : List Vec} (h : ScrewHole cfg n u c ps hole)
    (hs : ∀ p ∈ ps, p ∈ qs) : ScrewHole cfg n u c qs hole := by
  obtain ⟨h1, h2, h3, h4, bore, b1, b2, b3, b4⟩ := h
  exact ⟨h1, h2, h3, h4, bore, hs _ b1, hs _ b2, hs _ b3, b4⟩

theorem cornerForward_fits {q : Quality} {taper : Option ℝ} {cfg : BracketCfg} {zip : Option CableCfg} {a b c : Vec}
    {x y : ℝ} {n : Bool} {k : CornerBracket} (h : cornerForward q taper cfg zip a b c x y n = .ok k) (ha : a.x = 0) (hb : b.x = 0) (hc : c.x = 0)
    (hq : 0 < q.maxChordAngle) (hd : 1 / 500000 ≤ cfg.holeDiameter)
    (hb' : 1 / 500000 ≤ cfg.counterboreDiameter) (hn : 0 < cfg.nutAcrossFlats) :
    ∃ center, CornerFits cfg a b c x y n center k := by
  obtain ⟨s, ps, holeL, holeR, h1, h2, h3, h4, h5, h6⟩ := cornerForward_parts h
  obtain ⟨d, u, dx, sx, sy, sr, bx, by', bz, fx, fr, ft⟩ := cornerSketch_ok h1 ha hb hc
  have hd0 : 0 ≤ cfg.counterboreDiameter := by linarith
  have d1 : d.y ^ 2 + d.z ^ 2 = 1 := by
    have := u.1
    simp only [Vec.dot, dx] at this
    linarith
  have s3 : 0 < Real.sqrt 3 := by positivity
  have h33 : Real.sqrt 3 * Real.sqrt 3 = 3 := Real.mul_self_sqrt (by norm_num)
  have hA : cfg.nutAcrossFlats = cfg.nutRadius * Real.sqrt 3 := by unfold BracketCfg.nutRadius; field_simp
  refine ⟨s.screwCenter, ⟨holeL, screwHole_mono (screwHole_ok h2 sx hq hd hb' hn) h3, h4⟩, ?_, ?_, ⟨s.archLBG, h5, bx, by', ?_⟩, ⟨s.archLFT, h6, fx, ?_, ?_⟩⟩
  · refine screw_margin (u := 1) (w := 0) (d := c.y - s.screwCenter.y) (s := cfg.nutRadius) (by norm_num) hn.le hd0 ?_ (fun p => by ring) (by rw [sy]; ring)
    unfold hexSupport
    norm_num
  · obtain ⟨hc', hs'⟩ := angle2D_unit (v := (⟨-d.y, -d.z, 0⟩ : Vec)) (by dsimp only; linarith)
    refine screw_margin (u := d.z) (w := -d.y) (d := (s.screwCenter.z - a.z) * d.y - (s.screwCenter.y - a.y) * d.z) (by linarith) hn.le hd0
      (hexTangentDist_eq cfg.nutRadius (angle2D ⟨-d.y, -d.z, 0⟩) |>.trans ?_) (fun p => by rw [below_unit u dx]; ring) (by linarith)
    rw [hc', hs', hexSupport_abs (abs_neg d.z) rfl]
  · refine screw_margin (u := 0) (w := -1) (d := s.screwCenter.z - s.archLBG.z) (s := cfg.nutAcrossFlats / 2) (by norm_num) hn.le hd0 ?_ (fun p => by ring) (by rw [bz]; ring)
    unfold hexSupport
    norm_num
    rw [max_eq_right (by positivity), hA]
    ring
  · rw [below_unit u dx]
    linarith
  · refine screw_margin (u := -Real.cos cfg.taperAngle) (w := -Real.sin cfg.taperAngle)
      (d := (s.screwCenter.y - s.archLFT.y) * Real.cos cfg.taperAngle + (s.screwCenter.z - s.archLFT.z) * Real.sin cfg.taperAngle)
      (by linarith [Real.sin_sq_add_cos_sq cfg.taperAngle]) hn.le hd0
      (hexTangentDist_eq cfg.nutRadius (cfg.taperAngle - Real.pi / 2) |>.trans ?_) (fun p => by ring) (by linarith)
    rw [Real.sin_sub_pi_div_two, Real.cos_sub_pi_div_two, hexSupport_abs rfl (abs_neg _).symm]

/-- C102. The bracket at the back wall (the roof descends from `a` at the wall to the front) holds its screw at exactly the configured margins, with
more room for the cable and at the corner. -/
theorem C102_back {q : Quality} {taper : Option ℝ} {cfg : BracketCfg} {cable : Option CableCfg} {a b c : Vec}
    {n : Bool} {k : CornerBracket} (h : CornerBracket.make q taper cfg cable a b c n = .ok k) (hab : b.y ≤ a.y)
    (hq : 0 < q.maxChordAngle) (hd : 1 / 500000 ≤ cfg.holeDiameter) (hb : 1 / 500000 ≤ cfg.counterboreDiameter) (hn : 0 < cfg.nutAcrossFlats) :
    ∃ center, CornerFits cfg a.yz b.yz c.yz cfg.backCornerExtraMargin ((cable.map CableCfg.bracketInset).getD 0) n center k := by
  unfold CornerBracket.make at h
  dsimp only at h
  rw [if_neg (by simp only [Vec.yz]; linarith)] at h
  exact cornerForward_fits h rfl rfl rfl hq hd hb hn

/-- C102. The bracket at the front wall is the mirror image of one at the back, without the additional margins. -/
theorem C102_front {q : Quality} {taper : Option ℝ} {cfg : BracketCfg} {cable : Option CableCfg} {a b c : Vec}
    {n : Bool} {k : CornerBracket} (h : CornerBracket.make q taper cfg cable a b c n = .ok k) (hab : a.y < b.y)
    (hq : 0 < q.maxChordAngle) (hd : 1 / 500000 ≤ cfg.holeDiameter) (hb : 1 / 500000 ≤ cfg.counterboreDiameter) (hn : 0 < cfg.nutAcrossFlats) :
    ∃ center m, k = m.mirrored ∧ CornerFits cfg a.yz.mirroredY b.yz.mirroredY c.yz.mirroredY 0 0 n center m := by
  unfold CornerBracket.make at h
  dsimp only at h
  rw [if_pos (by simpa only [Vec.yz] using hab)] at h
  obtain ⟨m, hm, h⟩ := bind_ok h
  obtain rfl := Except.ok.inj h
  obtain ⟨center, hc⟩ := cornerForward_fits hm rfl rfl rfl hq hd hb hn
  exact ⟨center, m, rfl, hc⟩

set_option maxHeartbeats 1000000 in
/-- The rounded corner at the end of a line that leads to a level line takes away no more than its diameter. -/
theorem archCorner_first {q : Quality} {r τ L : ℝ} {a b c : Vec} {pts : List Vec} (hr : 1 / 1000000 ≤ r) (hq : 0 < q.maxChordAngle)
    (hτ : 0 < Real.cos τ) (hL : 0 < L) (ha : a = b + (⟨0, Real.sin τ, -Real.cos τ⟩ : Vec) * L) (hc : c.z = b.z)
    (h : archCorner q r a b c = .ok pts) : ∃ p ps, pts = p :: ps ∧ b.z - 2 * r ≤ p.z := by
  subst ha
  unfold archCorner at h
  obtain ⟨arc, h1, h⟩ := bind_ok h
  obtain rfl := Except.ok.inj h
  obtain ⟨u, w, m, D, hD, ⟨u1, k, hk, ue⟩, ⟨w1, j, hj, we⟩, hh, hl, o1, o2, hc'⟩ := C54_tangent hr hq h1
  have sc := Real.sin_sq_add_cos_sq τ
  have ux := congrArg Vec.x ue
  have uy := congrArg Vec.y ue
  have uz := congrArg Vec.z ue
  have wy := congrArg Vec.y we
  have wz := congrArg Vec.z we
  simp [Vec.xy] at ux uy uz
  simp [Vec.xy, hc] at wy wz
  have uz' : u.z = 0 := by rcases uz with h | h; exact h; exact absurd h hk.ne'
  have wz' : w.z = 0 := by rcases wz with h | h; exact h; exact absurd h hj.ne'
  have wy' : w.y = 0 := by rcases wy with h | h; exact h; exact absurd h hj.ne'
  simp only [Vec.dot, uz', wz', wy'] at u1 w1
  have wx' : w.x ^ 2 = 1 := by linarith
  have kL : k = L := by
    have : k ^ 2 = L ^ 2 := by linear_combination (-k ^ 2) * u1 + L ^ 2 * sc + (u.x * k + Real.sin τ * L) * (-ux) + (u.y * k - Real.cos τ * L) * (-uy)
    nlinarith
  rw [kL] at ux uy
  have ux' : u.x = Real.sin τ := (mul_right_cancel₀ hL.ne' ux).symm
  have uy' : u.y = -Real.cos τ := by
    apply mul_right_cancel₀ hL.ne'
    linarith
  obtain ⟨p, ps, rfl⟩ : ∃ p ps, arc = p :: ps := by
    cases arc with
    | nil => simp at hh
    | cons p ps => exact ⟨p, ps, rfl⟩
  have pe : p = (⟨b.y, b.z, 0⟩ : Vec).xy + u * D := by simpa using hh
  refine ⟨⟨0, p.x, p.y⟩, ps.map fun p => (⟨0, p.x, p.y⟩ : Vec), by simp, ?_⟩
  have h0 := (hc' p (by simp)).1.2
  have px : p.x = b.y + Real.sin τ * D := by rw [pe]; simp [Vec.xy, ux']
  have py : p.y = b.z - Real.cos τ * D := by rw [pe]; simp [Vec.xy, uy']; ring
  simp only [distSq2D, px, py] at h0
  simp only [Vec.dot, Vec.xy, Vec.add_x, Vec.add_y, Vec.add_z, Vec.mul_x, Vec.mul_y, Vec.mul_z, Vec.sub_x, Vec.sub_y, Vec.sub_z, uz', wz', wy', ux', uy'] at o1 o2
  change b.z - 2 * r ≤ p.y
  rw [py]
  have hr0 : 0 < r := by linarith
  clear hc' hh hl pe px py we ue ux uy uz wy wz
  generalize Real.sin τ = S at *
  generalize Real.cos τ = C at *
  have e1 : m.x = b.y + w.x * D := by linear_combination (-w.x) * o2 + (w.x * D - (m.x - b.y)) * wx'
  rw [e1] at o1 h0
  have e2 : (b.z - m.y) * C = D * (1 - w.x * S) := by linear_combination (-1 : ℝ) * o1 + D * sc
  have e3 : (b.z - m.y) ^ 2 = r ^ 2 := by linear_combination h0 + 2 * D * e2 - D ^ 2 * sc - D ^ 2 * wx'
  have e4 : b.z - m.y ≤ r := by nlinarith
  have hS : (w.x * S) ^ 2 < 1 := by nlinarith
  have hS1 : w.x * S < 1 := by nlinarith
  have e5 : D * C = (1 + w.x * S) * (b.z - m.y) := by
    apply mul_right_cancel₀ (by linarith : (1 - w.x * S) ≠ 0)
    linear_combination (-C) * e2 + (b.z - m.y) * sc + (b.z - m.y) * S ^ 2 * wx'
  have hn : 0 < b.z - m.y := by
    have : 0 < (b.z - m.y) * C := by rw [e2]; exact mul_pos hD (by linarith)
    exact (mul_pos_iff_of_pos_right hτ).mp this
  have := mul_nonneg (by linarith : 0 ≤ 1 - w.x * S) hn.le
  linarith

theorem apart_z {a b : Vec} {d : ℝ} (h : d ≤ |b.z - a.z|) : d ≤ (b - a).magnitude := by
  refine h.trans ?_
  unfold Vec.magnitude
  refine Real.abs_le_sqrt ?_
  simp only [Vec.sub_x, Vec.sub_y, Vec.sub_z]
  nlinarith [sq_nonneg (b.x - a.x), sq_nonneg (b.y - a.y)]

set_option maxHeartbeats 1000000 in
/-- The sketch of a floor bracket stands on the floor and on the lip. -/
theorem floorSketch_ok {q : Quality} {cfg : BracketCfg} {g t z : ℝ} {arch : List Vec} (h : floorSketch q cfg g t = .ok (arch, z))
    (hq : 0 < q.maxChordAngle) (hτ : 0 < Real.cos cfg.taperAngle) (hr : 1 / 1000000 ≤ cfg.cornerRadius) (hgt : g + 1 / 1000 ≤ t)
    (hh : 2 * cfg.cornerRadius + 1 / 1000 ≤ max cfg.counterboreDiameter cfg.nutAcrossFlats + cfg.baseMargin + cfg.apexMargin) :
    z = g + (max (cfg.counterboreDiameter / 2) (cfg.nutAcrossFlats / 2) + cfg.baseMargin) ∧
    ∃ b f : Vec, pyIndex arch 0 = .ok b ∧ pyIndex arch (-1) = .ok f ∧ b.x = 0 ∧ b.z = g ∧ f.x = 0 ∧ f.z = t ∧
      b.y * Real.cos cfg.taperAngle + (b.z - z) * Real.sin cfg.taperAngle =
        max (cfg.counterboreDiameter / 2) (hexTangentDist cfg.nutRadius (cfg.taperAngle - Real.pi / 2)) + cfg.taperMargin ∧
      -f.y * Real.cos cfg.taperAngle + (f.z - z) * Real.sin cfg.taperAngle =
        max (cfg.counterboreDiameter / 2) (hexTangentDist cfg.nutRadius (cfg.taperAngle - Real.pi / 2)) + cfg.taperMargin := by
  unfold floorSketch at h
  dsimp only at h
  have sc := Real.sin_sq_add_cos_sq cfg.taperAngle
  have hm : max cfg.counterboreDiameter cfg.nutAcrossFlats = 2 * max (cfg.counterboreDiameter / 2) (cfg.nutAcrossFlats / 2) := by
    rw [← mul_max_of_nonneg _ _ (by norm_num : (0 : ℝ) ≤ 2) |>.symm]
    congr 1 <;> ring
  rw [hm] at hh
  generalize max (cfg.counterboreDiameter / 2) (hexTangentDist cfg.nutRadius (cfg.taperAngle - Real.pi / 2)) + cfg.taperMargin = T at *
  generalize max (cfg.counterboreDiameter / 2) (cfg.nutAcrossFlats / 2) = H at *
  have hB : 2 * cfg.cornerRadius + 1 / 1000 ≤ max (H + cfg.baseMargin + (H + cfg.apexMargin)) t := le_max_of_le_left (by linarith)
  generalize max (H + cfg.baseMargin + (H + cfg.apexMargin)) t = B at *
  rw [line_self (by simp only [Vec.dot]; linarith), value_bind, line_self (by simp only [Vec.dot, Vec.mirroredY]; linarith), value_bind,
    line_self (d := (⟨0, 1, 0⟩ : Vec)) (by simp [Vec.dot]), value_bind, line_self (d := (⟨0, 1, 0⟩ : Vec)) (by simp [Vec.dot]), value_bind,
    line_self (d := (⟨0, 1, 0⟩ : Vec)) (by simp [Vec.dot]), value_bind] at h
  obtain ⟨FG, i1, h⟩ := bind_ok h
  obtain ⟨FT, i2, h⟩ := bind_ok h
  obtain ⟨BT, i3, h⟩ := bind_ok h
  obtain ⟨BG, i4, h⟩ := bind_ok h
  by_cases hBt : g + B ≤ t
  · rw [if_pos hBt] at h
    cases h
  rw [if_neg hBt] at h
  obtain ⟨cF, i5, h⟩ := bind_ok h
  obtain ⟨cB, i6, h⟩ := bind_ok h
  obtain ⟨rfl, rfl⟩ := Prod.mk.inj (Except.ok.inj h)
  have lev : ∀ v : ℝ, UprightLine ⟨⟨0, 0, v⟩, ⟨0, 1, 0⟩⟩ := fun v => ⟨rfl, rfl, by simp⟩
  obtain ⟨⟨t1, e1⟩, t2, e2⟩ := upright_intersect (l := ⟨_, _⟩) (m := ⟨_, _⟩) ⟨by simp, rfl, by simp only; linarith⟩ (lev _) i1
  obtain ⟨⟨t3, e3⟩, t4, e4⟩ := upright_intersect (l := ⟨_, _⟩) (m := ⟨_, _⟩) ⟨by simp, rfl, by simp only; linarith⟩ (lev _) i2
  obtain ⟨⟨t5, e5⟩, t6, e6⟩ := upright_intersect (l := ⟨_, _⟩) (m := ⟨_, _⟩) ⟨by simp [Vec.mirroredY], rfl, by simp only [Vec.mirroredY]; linarith⟩ (lev _) i3
  obtain ⟨⟨t7, e7⟩, t8, e8⟩ := upright_intersect (l := ⟨_, _⟩) (m := ⟨_, _⟩) ⟨by simp [Vec.mirroredY], rfl, by simp only [Vec.mirroredY]; linarith⟩ (lev _) i4
  have FGz : FG.z = t := by rw [e2]; simp
  have FTz : FT.z = g + B := by rw [e4]; simp
  have BTz : BT.z = g + B := by rw [e6]; simp
  have BGz : BG.z = g := by rw [e8]; simp
  have FGx : FG.x = 0 := by rw [e2]; simp
  have BGx : BG.x = 0 := by rw [e8]; simp
  obtain ⟨p, ps, rfl, hp⟩ := archCorner_first (τ := cfg.taperAngle) (L := t5 - t7) hr hq hτ (by
      have := congrArg Vec.z e5
      have h2 := congrArg Vec.z e7
      simp [Vec.mirroredY] at this h2
      rw [BTz] at this
      rw [BGz] at h2
      by_contra hneg
      push Not at hneg
      nlinarith) (by
      rw [e7, e5]
      ext <;> simp [Vec.mirroredY] <;> ring) (by rw [FTz, BTz]) i6
  have far : (1 / 1000 : ℝ) ≤ (p - BG).magnitude := apart_z (by
    rw [abs_of_nonneg] <;> linarith)
  have far' : (1 / 1000 : ℝ) ≤ (BG - FG).magnitude := apart_z (by
    rw [abs_of_nonpos] <;> linarith)
  have f1 := collapsed_first (l := ps ++ cF ++ [FG]) far
  have f2 := collapsed_last (l := p :: ps ++ cF) far'
  refine ⟨rfl, BG, FG, ?_, ?_, BGx, BGz, FGx, FGz, ?_, ?_⟩
  · rw [pyIndex_zero]
    revert f1 f2
    simp only [List.cons_append, List.nil_append, List.append_assoc]
    generalize collapsed _ _ = l
    rintro f1 ⟨f2, -⟩
    cases l with
    | nil => exact absurd rfl f2
    | cons y l => simpa using f1
  · rw [pyIndex_last]
    revert f2
    simp only [List.cons_append, List.nil_append, List.append_assoc]
    generalize collapsed _ _ = l
    rintro ⟨f2, f3⟩
    rw [List.getLast?_eq_some_getLast f2]
    rw [List.getLastD_eq_getLast?, List.getLast?_eq_some_getLast f2] at f3
    exact congrArg some f3
  · rw [e7]
    simp [Vec.mirroredY]
    linear_combination T * sc
  · rw [e1]
    simp
    linear_combination T * sc

set_option maxHeartbeats 1000000 in
theorem floorForward_fits {q : Quality} {taper : Option ℝ} {cfg : BracketCfg} {a c d e : Vec} {x : ℝ} {n : Bool} {k : FloorBracket}
    (h : floorForward q taper cfg a c d e x n = .ok k) (hs : SaneFloorBracket q cfg a d) :
    ∃ center, FloorFits cfg a d e x n center k := by
  obtain ⟨hq, hd, hb', hn, hτ, hr, hgt, hh⟩ := hs
  unfold floorForward at h
  obtain ⟨⟨arch, z⟩, i1, h⟩ := bind_ok h
  dsimp only at h
  obtain ⟨hz, g, f, ig, ih, gx, gz, fx, fz, eg, ef⟩ := floorSketch_ok i1 hq hτ hr hgt hh
  obtain ⟨f', i2, h⟩ := bind_ok h
  obtain rfl : f = f' := Except.ok.inj (ih.symm.trans i2)
  obtain ⟨⟨ps, holeL, holeR⟩, i3, h⟩ := bind_ok h
  dsimp only at h
  obtain ⟨l1, i4, h⟩ := bind_ok h
  obtain ⟨l0, i5, h⟩ := bind_ok h
  obtain ⟨r0, i6, h⟩ := bind_ok h
  obtain rfl := Except.ok.inj h
  have hd0 : 0 ≤ cfg.counterboreDiameter := by linarith
  have s3 : 0 < Real.sqrt 3 := by positivity
  have h33 : Real.sqrt 3 * Real.sqrt 3 = 3 := Real.mul_self_sqrt (by norm_num)
  have hA : cfg.nutAcrossFlats = cfg.nutRadius * Real.sqrt 3 := by unfold BracketCfg.nutRadius; field_simp
  have hR : 0 < cfg.nutRadius := by unfold BracketCfg.nutRadius; positivity
  have hex0 : hexSupport 0 (-1) = Real.sqrt 3 / 2 := by
    unfold hexSupport
    norm_num
    positivity
  have hex1 : hexSupport (-1) 0 = 1 := by
    unfold hexSupport
    norm_num
  have hcy : max (cfg.counterboreDiameter / 2) cfg.nutRadius + cfg.wallMargin + x ≤ floorCenterY cfg x d e f - d.y ∧
      (floorCenterY cfg x d e f + f.y = e.y ∨ d.y ≤ floorCenterY cfg x d e f + f.y) := by
    unfold floorCenterY
    dsimp only
    split_ifs with hlt
    · constructor
      · have := le_max_left (d.y + (max (cfg.counterboreDiameter / 2) cfg.nutRadius + cfg.wallMargin + x)) (e.y - f.y + d.y - e.y)
        linarith
      · right
        have := le_max_right (d.y + (max (cfg.counterboreDiameter / 2) cfg.nutRadius + cfg.wallMargin + x)) (e.y - f.y + d.y - e.y)
        linarith
    · exact ⟨by linarith, .inl (by ring)⟩
  generalize floorCenterY cfg x d e f = Y at *
  have hl0 : l0 = g + ⟨0, Y, 0⟩ := by
    rw [pyIndex_zero] at ig i5
    split_ifs at i5 <;> simp [edgeTranslated, ig, List.getElem?_append] at i5
    · exact i5.symm
    · cases arch with
      | nil => simp at ig
      | cons w ws => 
        simp at i5 ig
        rw [← i5, ig]
        rfl
  have mf : f + (⟨0, Y, 0⟩ : Vec) ∈ edgeTranslated arch (⟨0, Y, z⟩ : Vec).xy := by
    refine List.mem_map.mpr ⟨f, ?_, rfl⟩
    rw [pyIndex_last] at ih
    exact List.mem_of_getLast? ih
  have taper1 : max (cfg.counterboreDiameter / 2) (hexTangentDist cfg.nutRadius (cfg.taperAngle - Real.pi / 2)) =
      max (cfg.counterboreDiameter / 2) (cfg.nutRadius * hexSupport (Real.cos cfg.taperAngle) (Real.sin cfg.taperAngle)) := by
    rw [hexTangentDist_eq, Real.sin_sub_pi_div_two, Real.cos_sub_pi_div_two, hexSupport_abs (abs_neg _) rfl]
  refine ⟨⟨0, Y, z⟩, ⟨holeL, screwHole_mono (screwHole_ok i3 rfl hq hd hb' hn) (fun p hp => ?_), rfl⟩, ?_, ?_, ⟨l0, r0, rfl, ?_, ?_, ?_⟩,
    ⟨f + ⟨0, Y, 0⟩, ?_, ?_, ?_, ?_, ?_⟩⟩
  · simp [hp]
  · refine screw_margin (u := 0) (w := -1) (d := z - a.z) (s := cfg.nutAcrossFlats / 2) (by norm_num) hn.le hd0 ?_ (fun p => by dsimp only; ring) (by rw [hz]; ring)
    rw [hex0, hA]
    ring
  · intro p hp
    have k := (screw_support (c := (⟨0, Y, z⟩ : Vec)) (u := -1) (w := 0) (by norm_num) hn.le hd0).2 ⟨p, hp, rfl⟩
    rw [hex1, mul_one] at k
    dsimp only at k
    linarith [hcy.1]
  · rw [hl0]; simp [gx]
  · rw [hl0]; simp [gz]
  · rw [hl0]
    refine screw_margin (u := Real.cos cfg.taperAngle) (w := Real.sin cfg.taperAngle)
      (d := g.y * Real.cos cfg.taperAngle + (g.z - z) * Real.sin cfg.taperAngle)
      (by linarith [Real.sin_sq_add_cos_sq cfg.taperAngle]) hn.le hd0 rfl (fun p => by simp; ring) (by rw [← taper1]; linarith)
  · split_ifs
    · exact List.mem_reverse.mpr mf
    · exact List.mem_reverse.mpr (List.mem_append_left _ mf)
  · simp [fx]
  · simp [fz]
  · simp only [Vec.add_y]
    rcases hcy.2 with h | h
    · exact .inl (by linarith)
    · exact .inr (by linarith)
  · refine screw_margin (u := -Real.cos cfg.taperAngle) (w := Real.sin cfg.taperAngle)
      (d := -f.y * Real.cos cfg.taperAngle + (f.z - z) * Real.sin cfg.taperAngle)
      (s := cfg.nutRadius * hexSupport (Real.cos cfg.taperAngle) (Real.sin cfg.taperAngle))
      (by linarith [Real.sin_sq_add_cos_sq cfg.taperAngle]) hn.le hd0 (by rw [hexSupport_abs (abs_neg _) rfl]) (fun p => by simp; ring) (by rw [← taper1]; linarith)

/-- C102. The bracket on the floor at the front wall keeps the configured margins from the floor, the lip and its tapered sides. -/
theorem C102_floor {q : Quality} {taper : Option ℝ} {cfg : BracketCfg} {a b c d e : Vec} {n : Bool} {k : FloorBracket}
    (h : FloorBracket.make q taper cfg a b c d e n = .ok k) (hs : SaneFloorBracket q cfg a d) :
    (a.y ≤ b.y → ∃ center, FloorFits cfg a.yz d.yz e.yz cfg.frontFloorExtraMargin n center k) ∧
    (b.y < a.y → ∃ center m, k = m.mirrored ∧ FloorFits cfg a.yz.mirroredY d.yz.mirroredY e.yz.mirroredY 0 n center m) := by
  unfold FloorBracket.make at h
  dsimp only at h
  constructor
  · intro hab
    rw [if_neg (by simp only [Vec.yz]; linarith)] at h
    exact floorForward_fits h ⟨hs.1, hs.2, hs.3, hs.4, hs.5, hs.6, hs.7, hs.8⟩
  · intro hab
    rw [if_pos (by simpa only [Vec.yz] using hab)] at h
    obtain ⟨m, hm, h⟩ := bind_ok h
    obtain rfl := Except.ok.inj h
    obtain ⟨center, hc⟩ := floorForward_fits hm ⟨hs.1, hs.2, hs.3, hs.4, hs.5, hs.6, hs.7, hs.8⟩
    exact ⟨center, m, rfl, hc⟩

end Chrumm.Part
