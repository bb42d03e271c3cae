import Verif.Props.Flip
import Mathlib.Tactic.FieldSimp
import Mathlib.Tactic.Positivity

/-! C40, C41: planar meshes stay planar, and become locally Delaunay. -/

namespace Chrumm.Geo
open Spec

/-! ### Winding numbers -/

/-- The signed crossing of the segment `x y` with the ray from `p` to the right. -/
noncomputable def wcross (p x y : Vec) : ℤ :=
  open Classical in
  if x.y ≤ p.y ∧ p.y < y.y ∧ 0 < left x y p then 1
  else if y.y ≤ p.y ∧ p.y < x.y ∧ left x y p < 0 then -1 else 0

theorem left_turn (x y p : Vec) : left y x p = -left x y p := by unfold left; ring

theorem wcross_anti (pos : ℕ → Vec) (p : Vec) : Anti fun i j => wcross p (pos i) (pos j) := by
  constructor
  · intro i j
    unfold wcross
    rw [left_turn (pos i) (pos j)]
    by_cases h1 : (pos i).y ≤ p.y <;> by_cases h2 : (pos j).y ≤ p.y
    · simp [not_lt.mpr h1, not_lt.mpr h2]
    · simp [not_lt.mpr h1, h1, h2, not_le.mp h2]
      split_ifs <;> simp
    · simp [not_lt.mpr h2, h1, h2, not_le.mp h1]
      split_ifs <;> simp
    · simp [h1, h2]
  · intro i
    unfold wcross
    rw [if_neg (by rintro ⟨h1, h2, -⟩; linarith), if_neg (by rintro ⟨h1, h2, -⟩; linarith)]

theorem left_total (a b c p : Vec) : left a b p + left b c p + left c a p = left a b c := by
  unfold left; ring

theorem left_heights (a b c p : Vec) :
    left a b p * (c.y - p.y) + left b c p * (a.y - p.y) + left c a p * (b.y - p.y) = 0 := by
  unfold left; ring

/-- The point moved a little to the right, and less upwards. -/
def nudge (p : Vec) (δ : ℝ) : Vec := ⟨p.x + δ, p.y + δ ^ 2, 0⟩

theorem left_nudge (x y p : Vec) (δ : ℝ) :
    left x y (nudge p δ) = left x y p + (x.y - y.y) * δ + (y.x - x.x) * δ ^ 2 := by
  unfold left nudge; ring

/-- A property of all small positive numbers. -/
def Small (q : ℝ → Prop) : Prop := ∃ ε > 0, ∀ δ, 0 < δ → δ < ε → q δ

theorem Small.and {q r : ℝ → Prop} (h : Small q) (h' : Small r) : Small fun δ => q δ ∧ r δ := by
  obtain ⟨ε, hε, h⟩ := h
  obtain ⟨ε', hε', h'⟩ := h'
  exact ⟨min ε ε', lt_min hε hε', fun δ h1 h2 => ⟨h δ h1 (h2.trans_le (min_le_left _ _)),
    h' δ h1 (h2.trans_le (min_le_right _ _))⟩⟩

theorem Small.mono {q r : ℝ → Prop} (h : Small q) (h' : ∀ δ, 0 < δ → q δ → r δ) : Small r := by
  obtain ⟨ε, hε, h⟩ := h
  exact ⟨ε, hε, fun δ h1 h2 => h' δ h1 (h δ h1 h2)⟩

theorem Small.ex {q : ℝ → Prop} (h : Small q) : ∃ δ, q δ := by
  obtain ⟨ε, hε, h⟩ := h
  exact ⟨ε / 2, h _ (by linarith) (by linarith)⟩

/-- A polynomial with a positive leading sign at 0. -/
theorem small_pos {A B C : ℝ} (h : 0 < A ∨ (0 ≤ A ∧ 0 < B)) : Small fun δ => 0 < A + B * δ + C * δ ^ 2 := by
  rcases h with h | ⟨h, h'⟩
  · refine ⟨min 1 (A / (|B| + |C| + 1)), lt_min one_pos (by positivity), fun δ h1 h2 => ?_⟩
    have hδ1 : δ < 1 := h2.trans_le (min_le_left _ _)
    have hδ2 : δ * (|B| + |C| + 1) < A := by
      have := h2.trans_le (min_le_right _ _)
      rwa [lt_div_iff₀ (by positivity)] at this
    have hB := neg_abs_le B
    have hC := neg_abs_le C
    have e1 : -(|B| * δ) ≤ B * δ := by nlinarith
    have e2 : -(|C| * δ) ≤ C * δ ^ 2 := by
      have : |C| * δ ^ 2 ≤ |C| * δ := mul_le_mul_of_nonneg_left (by nlinarith) (abs_nonneg C)
      nlinarith [sq_nonneg δ]
    linarith
  · refine ⟨B / (|C| + 1), by positivity, fun δ h1 h2 => ?_⟩
    have hδ2 : δ * (|C| + 1) < B := by rwa [lt_div_iff₀ (by positivity)] at h2
    have hC := neg_abs_le C
    have : 0 < B + C * δ := by nlinarith
    have := mul_pos this h1
    nlinarith

/-- The winding number of a counter-clockwise triangle is 0 or 1. It is 1 for the points inside, and if it
is 1, then the points a little to the right are inside. -/
theorem wind_one {a b c p : Vec} (h : 0 < left a b c) :
    (wcross p a b + wcross p b c + wcross p c a = 0 ∨ wcross p a b + wcross p b c + wcross p c a = 1) ∧
    (0 < left a b p ∧ 0 < left b c p ∧ 0 < left c a p → wcross p a b + wcross p b c + wcross p c a = 1) ∧
    (wcross p a b + wcross p b c + wcross p c a = 1 → Small fun δ =>
      0 < left a b (nudge p δ) ∧ 0 < left b c (nudge p δ) ∧ 0 < left c a (nudge p δ)) := by
  -- one corner above
  have high : ∀ {a b c : Vec}, 0 < left a b c → p.y < a.y → b.y ≤ p.y → c.y ≤ p.y →
      (wcross p a b + wcross p b c + wcross p c a = 0 ∨ wcross p a b + wcross p b c + wcross p c a = 1) ∧
      (0 < left a b p ∧ 0 < left b c p ∧ 0 < left c a p → wcross p a b + wcross p b c + wcross p c a = 1) ∧
      (wcross p a b + wcross p b c + wcross p c a = 1 → Small fun δ =>
        0 < left a b (nudge p δ) ∧ 0 < left b c (nudge p δ) ∧ 0 < left c a (nudge p δ)) := by
    intro a b c h ha hb hc
    have e1 : wcross p a b = if left a b p < 0 then -1 else 0 := by
      unfold wcross; rw [if_neg (by rintro ⟨h, -⟩; linarith)]; simp [ha, hb]
    have e2 : wcross p b c = 0 := by
      unfold wcross
      rw [if_neg (by rintro ⟨-, h, -⟩; linarith), if_neg (by rintro ⟨-, h, -⟩; linarith)]
    have e3 : wcross p c a = if 0 < left c a p then 1 else 0 := by
      unfold wcross
      split_ifs with h1 h2 h3 h4 <;> first | rfl | tauto | (exfalso; linarith [h3.1])
    have t1 := left_total a b c p
    have t2 := left_heights a b c p
    rw [e1, e2, e3]
    have hcase : left a b p < 0 → 0 < left c a p := by
      intro h1
      by_contra h2
      have h3 : 0 < left b c p := by linarith
      have := mul_pos h3 (by linarith : 0 < a.y - p.y)
      have := mul_nonneg (by linarith : 0 ≤ -left a b p) (by linarith : 0 ≤ p.y - c.y)
      have := mul_nonneg (by linarith : 0 ≤ -left c a p) (by linarith : 0 ≤ p.y - b.y)
      nlinarith
    refine ⟨?_, ?_, ?_⟩
    · split_ifs <;> simp_all
    · rintro ⟨h1, h2, h3⟩
      rw [if_neg (by linarith), if_pos h3]; rfl
    · intro hw
      have h1 : 0 ≤ left a b p := by
        by_contra h1
        rw [if_pos (not_le.mp h1)] at hw
        split_ifs at hw <;> omega
      have h3 : 0 < left c a p := by
        by_contra h3
        rw [if_neg h3] at hw
        split_ifs at hw <;> omega
      have s1 : Small fun δ => 0 < left a b p + (a.y - b.y) * δ + (b.x - a.x) * δ ^ 2 :=
        small_pos (Or.inr ⟨h1, by linarith⟩)
      have s2 : Small fun δ => 0 < left c a p + (c.y - a.y) * δ + (a.x - c.x) * δ ^ 2 := small_pos (Or.inl h3)
      have s3 : Small fun δ => 0 < (a.y - p.y) + 0 * δ + -1 * δ ^ 2 := small_pos (Or.inl (by linarith))
      refine ((s1.and s2).and s3).mono ?_
      rintro δ hδ ⟨⟨q1, q2⟩, q3⟩
      rw [← left_nudge] at q1 q2
      refine ⟨q1, ?_, q2⟩
      have t3 := left_heights a b c (nudge p δ)
      have y : (nudge p δ).y = p.y + δ ^ 2 := rfl
      rw [y] at t3
      have hδ2 : 0 < δ ^ 2 := by positivity
      by_contra hn
      have := mul_pos q1 (by linarith : 0 < p.y + δ ^ 2 - c.y)
      have := mul_pos q2 (by linarith : 0 < p.y + δ ^ 2 - b.y)
      have := mul_nonneg (by linarith : 0 ≤ -left b c (nudge p δ)) (by linarith : 0 ≤ a.y - (p.y + δ ^ 2))
      nlinarith
  -- one corner below
  have low : ∀ {a b c : Vec}, 0 < left a b c → a.y ≤ p.y → p.y < b.y → p.y < c.y →
      (wcross p a b + wcross p b c + wcross p c a = 0 ∨ wcross p a b + wcross p b c + wcross p c a = 1) ∧
      (0 < left a b p ∧ 0 < left b c p ∧ 0 < left c a p → wcross p a b + wcross p b c + wcross p c a = 1) ∧
      (wcross p a b + wcross p b c + wcross p c a = 1 → Small fun δ =>
        0 < left a b (nudge p δ) ∧ 0 < left b c (nudge p δ) ∧ 0 < left c a (nudge p δ)) := by
    intro a b c h ha hb hc
    have e1 : wcross p a b = if 0 < left a b p then 1 else 0 := by
      unfold wcross
      split_ifs with h1 h2 h3 h4 <;> first | rfl | tauto | (exfalso; linarith [h3.1])
    have e2 : wcross p b c = 0 := by
      unfold wcross
      rw [if_neg (by rintro ⟨h, -⟩; linarith), if_neg (by rintro ⟨h, -⟩; linarith)]
    have e3 : wcross p c a = if left c a p < 0 then -1 else 0 := by
      unfold wcross; rw [if_neg (by rintro ⟨h, -⟩; linarith)]; simp [ha, hc]
    have t1 := left_total a b c p
    have t2 := left_heights a b c p
    rw [e1, e2, e3]
    have hcase : left c a p < 0 → 0 < left a b p := by
      intro h1
      by_contra h2
      have h3 : 0 < left b c p := by linarith
      have := mul_nonneg h3.le (by linarith : 0 ≤ p.y - a.y)
      have := mul_nonneg (by linarith : 0 ≤ -left a b p) (by linarith : 0 ≤ c.y - p.y)
      have := mul_pos (by linarith : 0 < -left c a p) (by linarith : 0 < b.y - p.y)
      nlinarith
    refine ⟨?_, ?_, ?_⟩
    · split_ifs <;> simp_all
    · rintro ⟨h1, h2, h3⟩
      rw [if_neg (by linarith : ¬ left c a p < 0), if_pos h1]; rfl
    · intro hw
      have h3 : 0 ≤ left c a p := by
        by_contra h1
        rw [if_pos (not_le.mp h1)] at hw
        split_ifs at hw <;> omega
      have h1 : 0 < left a b p := by
        by_contra h3
        rw [if_neg h3] at hw
        split_ifs at hw <;> omega
      have s1 : Small fun δ => 0 < left a b p + (a.y - b.y) * δ + (b.x - a.x) * δ ^ 2 := small_pos (Or.inl h1)
      have s2 : Small fun δ => 0 < left c a p + (c.y - a.y) * δ + (a.x - c.x) * δ ^ 2 :=
        small_pos (Or.inr ⟨h3, by linarith⟩)
      have s3 : Small fun δ => 0 < (b.y - p.y) + 0 * δ + -1 * δ ^ 2 := small_pos (Or.inl (by linarith))
      have s4 : Small fun δ => 0 < (c.y - p.y) + 0 * δ + -1 * δ ^ 2 := small_pos (Or.inl (by linarith))
      refine ((s1.and s2).and (s3.and s4)).mono ?_
      rintro δ hδ ⟨⟨q1, q2⟩, q3, q4⟩
      rw [← left_nudge] at q1 q2
      refine ⟨q1, ?_, q2⟩
      have t3 := left_heights a b c (nudge p δ)
      have y : (nudge p δ).y = p.y + δ ^ 2 := rfl
      rw [y] at t3
      have hδ2 : 0 < δ ^ 2 := by positivity
      by_contra hn
      have := mul_pos q1 (by linarith : 0 < c.y - (p.y + δ ^ 2))
      have := mul_pos q2 (by linarith : 0 < b.y - (p.y + δ ^ 2))
      have := mul_nonneg (by linarith : 0 ≤ -left b c (nudge p δ)) (by linarith : 0 ≤ p.y + δ ^ 2 - a.y)
      nlinarith
  have hb : 0 < left b c a := by have : left b c a = left a b c := by { unfold left; ring }; linarith
  have hc : 0 < left c a b := by have : left c a b = left a b c := by { unfold left; ring }; linarith
  have zero : wcross p a b = 0 → wcross p b c = 0 → wcross p c a = 0 →
      ¬ (0 < left a b p ∧ 0 < left b c p ∧ 0 < left c a p) →
      (wcross p a b + wcross p b c + wcross p c a = 0 ∨ wcross p a b + wcross p b c + wcross p c a = 1) ∧
      (0 < left a b p ∧ 0 < left b c p ∧ 0 < left c a p → wcross p a b + wcross p b c + wcross p c a = 1) ∧
      (wcross p a b + wcross p b c + wcross p c a = 1 → Small fun δ =>
        0 < left a b (nudge p δ) ∧ 0 < left b c (nudge p δ) ∧ 0 < left c a (nudge p δ)) := by
    intro h1 h2 h3 h4
    rw [h1, h2, h3]
    exact ⟨Or.inl rfl, fun h => absurd h h4, fun h => by norm_num at h⟩
  have rot1 : wcross p a b + wcross p b c + wcross p c a = wcross p b c + wcross p c a + wcross p a b := by ring
  have rot2 : wcross p a b + wcross p b c + wcross p c a = wcross p c a + wcross p a b + wcross p b c := by ring
  have t2 := left_heights a b c p
  by_cases a0 : a.y ≤ p.y <;> by_cases b0 : b.y ≤ p.y <;> by_cases c0 : c.y ≤ p.y
  · apply zero
    iterate 3
      unfold wcross
      rw [if_neg (by rintro ⟨-, h, -⟩; linarith), if_neg (by rintro ⟨-, h, -⟩; linarith)]
    rintro ⟨h1, h2, h3⟩
    have q1 := mul_nonneg h1.le (by linarith : 0 ≤ p.y - c.y)
    have q2 := mul_nonneg h2.le (by linarith : 0 ≤ p.y - a.y)
    have q3 := mul_nonneg h3.le (by linarith : 0 ≤ p.y - b.y)
    have r1 : left a b p * (p.y - c.y) = 0 := by linarith
    have r2 : left b c p * (p.y - a.y) = 0 := by linarith
    have r3 : left c a p * (p.y - b.y) = 0 := by linarith
    have y1 : p.y = c.y := by rcases mul_eq_zero.mp r1 with h | h <;> linarith
    have y2 : p.y = a.y := by rcases mul_eq_zero.mp r2 with h | h <;> linarith
    have y3 : p.y = b.y := by rcases mul_eq_zero.mp r3 with h | h <;> linarith
    unfold left at h
    rw [← y1, ← y2, ← y3] at h
    ring_nf at h
    exact lt_irrefl _ h
  · rw [rot2]
    obtain ⟨g1, g2, g3⟩ := high hc (not_le.mp c0) a0 b0
    exact ⟨g1, fun h => g2 ⟨h.2.2, h.1, h.2.1⟩, fun h => (g3 h).mono fun δ _ h => ⟨h.2.1, h.2.2, h.1⟩⟩
  · rw [rot1]
    obtain ⟨g1, g2, g3⟩ := high hb (not_le.mp b0) c0 a0
    exact ⟨g1, fun h => g2 ⟨h.2.1, h.2.2, h.1⟩, fun h => (g3 h).mono fun δ _ h => ⟨h.2.2, h.1, h.2.1⟩⟩
  · exact low h a0 (not_le.mp b0) (not_le.mp c0)
  · exact high h (not_le.mp a0) b0 c0
  · rw [rot1]
    obtain ⟨g1, g2, g3⟩ := low hb b0 (not_le.mp c0) (not_le.mp a0)
    exact ⟨g1, fun h => g2 ⟨h.2.1, h.2.2, h.1⟩, fun h => (g3 h).mono fun δ _ h => ⟨h.2.2, h.1, h.2.1⟩⟩
  · rw [rot2]
    obtain ⟨g1, g2, g3⟩ := low hc c0 (not_le.mp a0) (not_le.mp b0)
    exact ⟨g1, fun h => g2 ⟨h.2.2, h.1, h.2.1⟩, fun h => (g3 h).mono fun δ _ h => ⟨h.2.1, h.2.2, h.1⟩⟩
  · apply zero
    iterate 3
      unfold wcross
      rw [if_neg (by rintro ⟨h, -⟩; linarith), if_neg (by rintro ⟨h, -⟩; linarith)]
    rintro ⟨h1, h2, h3⟩
    have := mul_pos h1 (by linarith : 0 < c.y - p.y)
    have := mul_pos h2 (by linarith : 0 < a.y - p.y)
    have := mul_pos h3 (by linarith : 0 < b.y - p.y)
    linarith

/-! ### Planar meshes -/

theorem wind_inside {pos : ℕ → Vec} {t : Tri ℕ} (h : 0 < left (pos t.a) (pos t.b) (pos t.c)) (p : Vec) :
    (tsum (fun i j => wcross p (pos i) (pos j)) t = 0 ∨ tsum (fun i j => wcross p (pos i) (pos j)) t = 1) ∧
    (StrictlyInside pos t p → tsum (fun i j => wcross p (pos i) (pos j)) t = 1) ∧
    (tsum (fun i j => wcross p (pos i) (pos j)) t = 1 → Small fun δ => StrictlyInside pos t (nudge p δ)) :=
  wind_one h

theorem sum_bits : ∀ l : List ℤ, (∀ x ∈ l, x = 0 ∨ x = 1) → 0 ≤ l.sum
  | [], _ => by simp
  | x :: l, h => by
    have := sum_bits l (fun y hy => h y (.tail _ hy))
    rcases h x List.mem_cons_self with rfl | rfl <;> simp <;> omega

/-- A mesh of counter-clockwise triangles is planar exactly if no winding number exceeds 1. -/
theorem planar_iff {pos : ℕ → Vec} {ts : List (Tri ℕ)} (hc : ∀ t ∈ ts, 0 < left (pos t.a) (pos t.b) (pos t.c)) :
    (ts.Pairwise fun t u => ∀ p, ¬ (StrictlyInside pos t p ∧ StrictlyInside pos u p)) ↔
    ∀ p, (ts.map (tsum fun i j => wcross p (pos i) (pos j))).sum ≤ 1 := by
  induction ts with
  | nil => simp
  | cons t ts ih =>
    have ih := ih fun t ht => hc t (.tail _ ht)
    have ht := hc t List.mem_cons_self
    have hbits : ∀ p, 0 ≤ (ts.map (tsum fun i j => wcross p (pos i) (pos j))).sum := by
      intro p
      apply sum_bits
      intro x hx
      obtain ⟨u, hu, rfl⟩ := List.mem_map.mp hx
      exact (wind_inside (hc u (.tail _ hu)) p).1
    simp only [List.pairwise_cons, List.map_cons, List.sum_cons, ih]
    constructor
    · rintro ⟨h1, h2⟩ p
      have h2 := h2 p
      rcases (wind_inside ht p).1 with h | h
      · rw [h]; omega
      · -- nothing else can be here
        have hz : ∀ x ∈ ts.map (tsum fun i j => wcross p (pos i) (pos j)), x = 0 := by
          intro x hx
          obtain ⟨u, hu, rfl⟩ := List.mem_map.mp hx
          obtain ⟨w1, -, w3⟩ := wind_inside (hc u (.tail _ hu)) p
          rcases w1 with w | w
          · exact w
          · exfalso
            obtain ⟨δ, q⟩ := (((wind_inside ht p).2.2 h).and (w3 w)).ex
            exact h1 u hu _ q
        rw [h, List.sum_eq_zero hz]; omega
    · intro h
      refine ⟨fun u hu p ⟨q1, q2⟩ => ?_, fun p => ?_⟩
      · have e1 := (wind_inside ht p).2.1 q1
        have e2 := (wind_inside (hc u (.tail _ hu)) p).2.1 q2
        have := h p
        rw [e1] at this
        have hp := (List.perm_cons_erase hu).map (tsum fun i j => wcross p (pos i) (pos j))
        rw [hp.sum_eq, List.map_cons, List.sum_cons, e2] at this
        have : 0 ≤ ((ts.erase u).map (tsum fun i j => wcross p (pos i) (pos j))).sum := by
          apply sum_bits
          intro x hx
          obtain ⟨v, hv, rfl⟩ := List.mem_map.mp hx
          exact (wind_inside (hc v (.tail _ (List.mem_of_mem_erase hv))) p).1
        omega
      · have := h p
        rcases (wind_inside ht p).1 with h | h <;> omega

theorem reach_planar {points : List Vec} {tris : List (Tri ℕ)} (h : PlanarMesh (pt points) tris) (s : FlipState)
    (hs : Relation.ReflTransGen (FlipStep points) (flipInit tris) s) : PlanarMesh (pt points) s.tris := by
  have hd : ∀ t ∈ tris, Distinct t := fun t ht => ccw_distinct (h.1 t ht)
  have hc := reach_ccw hd h.1 s hs
  refine ⟨hc, (planar_iff hc).mpr fun p => ?_⟩
  have := (reach_ind hd (fun s => (s.tris.map (tsum fun i j => wcross p (pt points i) (pt points j))).sum =
      (tris.map (tsum fun i j => wcross p (pt points i) (pt points j))).sum) rfl (fun _ _ _ _ h _ => h)
    (fun s s' e _ _ _ h hf => (hf.sum (wcross_anti (pt points) p)).trans h) s hs).2
  rw [this]
  exact (planar_iff h.1).mp h.2 p

/-- **C40** A planar mesh stays a planar mesh. -/
theorem C40_planar (points : List Vec) (tris out : List (Tri ℕ)) (h : PlanarMesh (pt points) tris)
    (hr : FlipRun points tris out) : PlanarMesh (pt points) out := by
  obtain ⟨s, hs, -, rfl⟩ := hr
  exact reach_planar h s hs

/-- Two counter-clockwise triangles on the same side of an edge overlap. -/
theorem same_side {a b c d : Vec} (h1 : 0 < left a b c) (h2 : 0 < left a b d) :
    ∃ p, (0 < left a b p ∧ 0 < left b c p ∧ 0 < left c a p) ∧ (0 < left a b p ∧ 0 < left b d p ∧ 0 < left d a p) := by
  have key : ∀ ε : ℝ, ∃ p : Vec, left a b p = ε * left a b c ∧ left b c p = (1 - ε) / 2 * left a b c ∧
      left c a p = (1 - ε) / 2 * left a b c ∧ left b d p = left a b d / 2 + (left b d c - left a b d / 2) * ε ∧
      left d a p = left a b d / 2 + (left d a c - left a b d / 2) * ε := by
    intro ε
    refine ⟨⟨(1 - ε) * ((a.x + b.x) / 2) + ε * c.x, (1 - ε) * ((a.y + b.y) / 2) + ε * c.y, 0⟩, ?_, ?_, ?_, ?_, ?_⟩ <;>
      unfold left <;> ring
  have s1 : Small fun ε => 0 < left a b d / 2 + (left b d c - left a b d / 2) * ε + 0 * ε ^ 2 :=
    small_pos (Or.inl (by linarith))
  have s2 : Small fun ε => 0 < left a b d / 2 + (left d a c - left a b d / 2) * ε + 0 * ε ^ 2 :=
    small_pos (Or.inl (by linarith))
  have s3 : Small fun ε => 0 < 1 + -1 * ε + 0 * ε ^ 2 := small_pos (Or.inl one_pos)
  have s4 : Small fun ε => 0 < 0 + 1 * ε + 0 * ε ^ 2 := small_pos (Or.inr ⟨le_rfl, one_pos⟩)
  obtain ⟨ε, ⟨q1, q2⟩, q3, q4⟩ := ((s1.and s2).and (s3.and s4)).ex
  obtain ⟨p, e1, e2, e3, e4, e5⟩ := key ε
  have p1 : 0 < ε * left a b c := mul_pos (by linarith) h1
  have p2 : 0 < (1 - ε) / 2 * left a b c := mul_pos (by linarith) h1
  exact ⟨p, ⟨by rw [e1]; exact p1, by rw [e2]; exact p2, by rw [e3]; exact p2⟩, by rw [e1]; exact p1,
    by rw [e4]; linarith, by rw [e5]; linarith⟩

theorem Spec.IsTriangle.inside {pos : ℕ → Vec} {t : Tri ℕ} {x y c : ℕ} (h : IsTriangle t x y c) (p : Vec) :
    StrictlyInside pos t p ↔
      0 < left (pos x) (pos y) p ∧ 0 < left (pos y) (pos c) p ∧ 0 < left (pos c) (pos x) p := by
  rcases h with rfl | rfl | rfl <;> unfold StrictlyInside <;> dsimp only <;> tauto

/-- In a planar mesh, a directed edge belongs to one triangle only. -/
theorem planar_unique {pos : ℕ → Vec} {ts : List (Tri ℕ)} (h : PlanarMesh pos ts) {i j : ℕ} {t u : Tri ℕ}
    {x y c d : ℕ} (hi : ts[i]? = some t) (hj : ts[j]? = some u) (ht : IsTriangle t x y c) (hu : IsTriangle u x y d) :
    i = j := by
  obtain ⟨hil, rfl⟩ := List.getElem?_eq_some_iff.mp hi
  obtain ⟨hjl, rfl⟩ := List.getElem?_eq_some_iff.mp hj
  have c1 : 0 < twice pos ts[i] := h.1 _ (List.getElem_mem hil)
  have c2 : 0 < twice pos ts[j] := h.1 _ (List.getElem_mem hjl)
  rw [ht.twice] at c1
  rw [hu.twice] at c2
  obtain ⟨p, p1, p2⟩ := same_side c1 c2
  have p1 := (ht.inside p).mpr p1
  have p2 := (hu.inside p).mpr p2
  have hp := List.pairwise_iff_getElem.mp h.2
  rcases Nat.lt_trichotomy i j with hij | hij | hij
  · exact absurd ⟨p1, p2⟩ (hp i j hil hjl hij p)
  · exact hij
  · exact absurd ⟨p2, p1⟩ (hp j i hjl hil hij p)

/-- All edges are in the table. -/
theorem reach_registered {points : List Vec} {tris : List (Tri ℕ)} (h : PlanarMesh (pt points) tris) (s : FlipState)
    (hs : Relation.ReflTransGen (FlipStep points) (flipInit tris) s) :
    ∀ e ∈ meshEdges s.tris, s.lookup e ≠ none := by
  have hd : ∀ t ∈ tris, Distinct t := fun t ht => ccw_distinct (h.1 t ht)
  induction hs with
  | refl => exact fun e he => (init_table tris e).2 he
  | @tail s s' hs hstep ih =>
    have hi := (reach_ind hd (fun _ => True) trivial (fun _ _ _ _ _ _ => trivial) (fun _ _ _ _ _ _ _ _ => trivial)
      s hs).1
    have hpl := reach_planar h s hs
    obtain ⟨e, he, hr⟩ := hstep
    rcases round_cases points s hi e with ⟨hr', -⟩ | ⟨s'', hr', hf⟩
    · rw [hr] at hr'; cases hr'; exact ih
    · rw [hr] at hr'; cases hr'
      obtain ⟨a, b⟩ := e
      obtain ⟨k0, k1, t0, t1, t0', t1', c, d, ht0, ht1, hk, h0, h1, hr0, hr1, r0, r1, hne, hin, e1, e2, e3⟩ := hf.ex
      dsimp only at *
      obtain ⟨g0, g1, g2⟩ := flip_get s.tris k0 k1 t0' t1' t0 t1 ht0 ht1 hk
      intro f hf
      obtain ⟨t, ht, hft⟩ := List.mem_flatMap.mp hf
      rw [e1] at ht
      obtain ⟨k, hk⟩ := List.mem_iff_getElem?.mp ht
      have tab : ∀ x, (x = (b, c) ∨ x = (d, b) ∨ x = (c, d) ∨ x = (a, d) ∨ x = (c, a) ∨ x = (d, c)) →
          flipTable s.lookup a b c d k0 k1 x ≠ none := by
        intro x hx
        unfold flipTable assign
        split_ifs <;> simp_all
      rw [e2]
      by_cases hk0 : k = k0
      · subst hk0
        rw [g0] at hk; cases hk
        apply tab
        have := (r0.edges f).mp hft
        tauto
      by_cases hk1 : k = k1
      · subst hk1
        rw [g1] at hk; cases hk
        apply tab
        have := (r1.edges f).mp hft
        tauto
      rw [g2 k hk0 hk1] at hk
      have hold := ih f (List.mem_flatMap.mpr ⟨t, mem_of_getElem? hk, hft⟩)
      have nab : f ≠ (a, b) := by
        rintro rfl
        obtain ⟨z, hz⟩ := Rot.of_edge hft
        exact hk0 (planar_unique hpl hk ht0 hz hr0)
      have nba : f ≠ (b, a) := by
        rintro rfl
        obtain ⟨z, hz⟩ := Rot.of_edge hft
        exact hk1 (planar_unique hpl hk ht1 hz hr1)
      unfold flipTable assign
      split_ifs <;> simp_all

/-- **C41** When a planar mesh has been flipped, in whatever order, then all adjacent triangles satisfy the
Delaunay criterion. -/
theorem C41_delaunay (points : List Vec) (tris out : List (Tri ℕ)) (h : PlanarMesh (pt points) tris)
    (hr : FlipRun points tris out) : LocallyDelaunay (pt points) out := by
  have hpl := C40_planar points tris out h hr
  obtain ⟨s, hs, hend, rfl⟩ := hr
  have hd : ∀ t ∈ tris, Distinct t := fun t ht => ccw_distinct (h.1 t ht)
  have hreg := reach_registered h s hs
  have hi := (reach_ind hd (fun _ => True) trivial (fun _ _ _ _ _ _ => trivial) (fun _ _ _ _ _ _ _ _ => trivial)
    s hs).1
  intro t ht u hu a b c d it iu
  have find : ∀ x y z w, w ∈ s.tris → IsTriangle w x y z →
      ∃ k, s.lookup (x, y) = some k ∧ s.tris[k]? = some w := by
    intro x y z w hw iw
    have he := hreg (x, y) (List.mem_flatMap.mpr ⟨w, hw, (iw.edges _).mpr (Or.inl rfl)⟩)
    rcases hl : s.lookup (x, y) with _ | k
    · exact absurd hl he
    · obtain ⟨w', z', hw', iw'⟩ := hi.coh x y k hl
      obtain ⟨j, hj⟩ := List.mem_iff_getElem?.mp hw
      have := planar_unique hpl hj hw' iw iw'
      subst this
      exact ⟨j, rfl, hj⟩
  obtain ⟨k0, l0, g0⟩ := find a b c t ht it
  obtain ⟨k1, l1, g1⟩ := find b a d u hu iu
  exact C41_table points tris hd s hs hend a b c d k0 k1 t u l0 l1 g0 g1 it iu

/-! ### Convex polygons -/

theorem ccw_rotate {pos : ℕ → Vec} {k l : List ℕ}
    (h : ∀ x y z, [x, y, z].Sublist (k ++ l) → 0 < left (pos x) (pos y) (pos z)) :
    ∀ x y z, [x, y, z].Sublist (l ++ k) → 0 < left (pos x) (pos y) (pos z) := by
  intro x y z hs
  obtain ⟨s1, s2, he, h1, h2⟩ := List.sublist_append_iff.mp hs
  have h3 : (s2 ++ s1).Sublist (k ++ l) := h2.append h1
  match s1, he with
  | [], he => simp only [List.nil_append] at he; subst he; exact h _ _ _ (by simpa using h3)
  | [u], he =>
    simp only [List.cons_append, List.nil_append, List.cons.injEq] at he
    obtain ⟨rfl, rfl⟩ := he
    rw [left_rot]; exact h _ _ _ (by simpa using h3)
  | [u, v], he =>
    simp only [List.cons_append, List.nil_append, List.cons.injEq] at he
    obtain ⟨rfl, rfl, rfl⟩ := he
    rw [← left_rot]; exact h _ _ _ (by simpa using h3)
  | [u, v, w], he =>
    simp only [List.cons_append, List.nil_append, List.cons.injEq] at he
    obtain ⟨rfl, rfl, rfl, rfl⟩ := he
    exact h _ _ _ (by simpa using h3)
  | u :: v :: w :: t :: s, he => simp at he

theorem convex_ear {pos : ℕ → Vec} {poly : List ℕ} (hc : ConvexWithMargin pos poly) {i : ℕ} (hn : 3 ≤ poly.length)
    (hi : i < poly.length) :
    0 < left (pos (earAt poly i).a) (pos (earAt poly i).b) (pos (earAt poly i).c) ∧
    ∀ q ∈ poly.eraseIdx i, left (pos (earAt poly i).c) (pos (earAt poly i).a) (pos q) ≤ 0 := by
  obtain ⟨b, c, m, a, hrot, herase, he⟩ := ear_shape poly i hn hi
  have hc' : ∀ x y z, [x, y, z].Sublist (b :: c :: (m ++ [a])) → 0 < left (pos x) (pos y) (pos z) := by
    rw [← hrot, List.rotate_eq_drop_append_take hi.le]
    apply ccw_rotate
    rw [List.take_append_drop]
    exact fun x y z h => (hc x y z h).1
  rw [he]
  dsimp only
  constructor
  · rw [left_rot]
    exact hc' b c a (by simp)
  · intro q hq
    have hq : q ∈ c :: (m ++ [a]) := by rw [← herase]; exact List.mem_rotate.mpr hq
    simp only [List.mem_cons, List.mem_append, List.not_mem_nil, or_false] at hq
    rcases hq with rfl | hq | rfl
    · rw [left_self1]
    · have := hc' c q a (by
        refine List.Sublist.cons _ (List.Sublist.cons_cons _ ?_)
        exact List.Sublist.append (List.singleton_sublist.mpr hq) (List.Sublist.refl [a]))
      have e : left (pos c) (pos q) (pos a) = -left (pos c) (pos a) (pos q) := by unfold left; ring
      linarith
    · rw [left_self2]

theorem left_bary3 (u v a b c p : Vec) :
    left u v p * left a b c = left a b p * left u v c + left b c p * left u v a + left c a p * left u v b := by
  unfold left; ring

theorem convex_planar {pos : ℕ → Vec} {poly rest : List ℕ} {ears : List (Tri ℕ)} (h : Clip pos poly ears rest)
    (hc : ConvexWithMargin pos poly) : PlanarMesh pos ears := by
  induction h with
  | done => exact ⟨by simp, by simp⟩
  | stuck => exact ⟨by simp, by simp⟩
  | cut poly i ears rest hn hi _ _ hrec ih =>
    obtain ⟨h1, h2⟩ := ih fun x y z hs => hc x y z (hs.trans (List.eraseIdx_sublist _ _))
    obtain ⟨e1, e2⟩ := convex_ear hc hn hi
    obtain ⟨-, -, h3, -, -⟩ := clip_count hrec
    refine ⟨?_, List.pairwise_cons.mpr ⟨?_, h2⟩⟩
    · intro t ht
      rcases List.mem_cons.mp ht with rfl | ht
      · exact e1
      · exact h1 t ht
    · rintro t ht p ⟨⟨-, -, q3⟩, r1, r2, r3⟩
      obtain ⟨m1, m2, m3⟩ := h3 t ht
      have b := left_bary3 (pos (earAt poly i).c) (pos (earAt poly i).a) (pos t.a) (pos t.b) (pos t.c) p
      have n1 := mul_nonneg r1.le (by linarith [e2 _ m3] : 0 ≤ -left (pos (earAt poly i).c) (pos (earAt poly i).a) (pos t.c))
      have n2 := mul_nonneg r2.le (by linarith [e2 _ m1] : 0 ≤ -left (pos (earAt poly i).c) (pos (earAt poly i).a) (pos t.a))
      have n3 := mul_nonneg r3.le (by linarith [e2 _ m2] : 0 ≤ -left (pos (earAt poly i).c) (pos (earAt poly i).a) (pos t.b))
      have n4 := mul_pos q3 (h1 t ht)
      linarith

/-- **C62** A convex polygon of n corners becomes a planar mesh of n - 2 triangles that has its boundary and
is locally Delaunay: cutting and flipping succeed, and all possible results are such meshes. -/
theorem C62_convex_delaunay (points : List Vec) (poly : List ℕ) (hn : 3 ≤ poly.length)
    (hc : ConvexWithMargin (pt points) poly) :
    ∃ ears rest, cutEars points poly = .ok (ears, rest) ∧ (∃ out, FlipRun points ears out) ∧
      ∀ out, FlipRun points ears out → out.length = poly.length - 2 ∧ SameChain (meshEdges out) (cycPairs poly) ∧
        PlanarMesh (pt points) out ∧ LocallyDelaunay (pt points) out := by
  obtain ⟨ears, rest, h, hl, hb⟩ := C62_convex_complete points poly hn hc
  have hp := convex_planar (C38_cache_transparent points poly ears rest h) hc
  have hd : ∀ t ∈ ears, Distinct t := fun t ht => ccw_distinct (hp.1 t ht)
  refine ⟨ears, rest, h, ?_, fun out hr => ?_⟩
  · obtain ⟨-, s, h1, h2⟩ := C39_finishes points ears hd _ .refl
    exact ⟨s.tris, s, h1, h2, rfl⟩
  · obtain ⟨s1, -, -, s4, -⟩ := C40_surface points ears out hd hr
    exact ⟨s1.trans hl, SameChain.trans s4 hb, C40_planar points ears out hp hr, C41_delaunay points ears out hp hr⟩

/-- Two triangles of a square: a planar mesh. -/
theorem square_planar : PlanarMesh (pt [⟨0, 0, 0⟩, ⟨1, 0, 0⟩, ⟨1, 1, 0⟩, ⟨0, 1, 0⟩]) [⟨0, 1, 2⟩, ⟨2, 3, 0⟩] := by
  constructor
  · simp only [List.mem_cons, List.not_mem_nil, or_false, forall_eq_or_imp, forall_eq]
    constructor <;> norm_num [pt, left]
  · simp only [List.pairwise_cons, List.mem_cons, List.not_mem_nil, or_false, forall_eq, List.Pairwise.nil, and_true,
      false_imp_iff, implies_true]
    rintro p ⟨⟨-, -, h⟩, -, -, h'⟩
    norm_num [pt, left] at h h'
    linarith

/-- A long diagonal of a kite: it has to be flipped. -/
theorem kite_planar : PlanarMesh (pt [⟨-2, 0, 0⟩, ⟨0, -1, 0⟩, ⟨2, 0, 0⟩, ⟨0, 1, 0⟩]) [⟨0, 1, 2⟩, ⟨2, 3, 0⟩] := by
  constructor
  · simp only [List.mem_cons, List.not_mem_nil, or_false, forall_eq_or_imp, forall_eq]
    constructor <;> norm_num [pt, left]
  · simp only [List.pairwise_cons, List.mem_cons, List.not_mem_nil, or_false, forall_eq, List.Pairwise.nil, and_true,
      false_imp_iff, implies_true]
    rintro p ⟨⟨-, -, h⟩, -, -, h'⟩
    norm_num [pt, left] at h h'
    linarith

/-- So it is flipped to the short diagonal: the long one is not locally Delaunay. -/
example : ∀ out, FlipRun [⟨-2, 0, 0⟩, ⟨0, -1, 0⟩, ⟨2, 0, 0⟩, ⟨0, 1, 0⟩] [⟨0, 1, 2⟩, ⟨2, 3, 0⟩] out →
    out ≠ [⟨0, 1, 2⟩, ⟨2, 3, 0⟩] := by
  rintro out h rfl
  have := C41_delaunay _ _ _ kite_planar h ⟨0, 1, 2⟩ (by simp) ⟨2, 3, 0⟩ (by simp) 2 0 1 3
    (Or.inr (Or.inr rfl)) (Or.inr (Or.inr rfl)) ⟨0, 3 / 2, 0⟩
  norm_num [pt, left, distSq2D] at this

example : ∃ out, FlipRun [⟨-2, 0, 0⟩, ⟨0, -1, 0⟩, ⟨2, 0, 0⟩, ⟨0, 1, 0⟩] [⟨0, 1, 2⟩, ⟨2, 3, 0⟩] out := by
  obtain ⟨-, s, h1, h2⟩ := C39_finishes [⟨-2, 0, 0⟩, ⟨0, -1, 0⟩, ⟨2, 0, 0⟩, ⟨0, 1, 0⟩] [⟨0, 1, 2⟩, ⟨2, 3, 0⟩]
    (by simp) _ .refl
  exact ⟨s.tris, s, h1, h2, rfl⟩

end Chrumm.Geo
