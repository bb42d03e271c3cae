import Verif.Props.HexFan
import Verif.Props.FloorFit
import Mathlib.Tactic.IntervalCases

/-! C86: one cell of the grid of hexagonal holes. -/

namespace Chrumm.Part
open Geo Geo.Spec Spec Classical

theorem foldlM_cons_ok {α β : Type} {F : β → α → Py β} {x : α} {l : List α} {b r : β} (h : (x :: l).foldlM F b = .ok r) :
    ∃ b', F b x = .ok b' ∧ l.foldlM F b' = .ok r := by
  rw [List.foldlM_cons] at h
  exact bind_ok h

/-- A loop that only lowers a value. -/
theorem foldlM_min {α : Type} {F : ℝ → α → Py ℝ} (hF : ∀ a x r, F a x = .ok r → r ≤ a) : ∀ {l : List α} {m r : ℝ}, l.foldlM F m = .ok r →
    r ≤ m ∧ ∀ x ∈ l, ∃ a b, F a x = .ok b ∧ r ≤ b
  | [], m, r, h => by
    obtain rfl := Except.ok.inj h
    exact ⟨le_rfl, by simp⟩
  | x :: l, m, r, h => by
    obtain ⟨b, h1, h2⟩ := foldlM_cons_ok h
    obtain ⟨h3, h4⟩ := foldlM_min hF h2
    refine ⟨h3.trans (hF _ _ _ h1), ?_⟩
    intro y hy
    rcases List.mem_cons.mp hy with rfl | hy
    · exact ⟨m, b, h1, h3⟩
    · exact h4 y hy

theorem diagFactor_ok {hexagon : List Vec} {segments : List Segment} {i j : ℕ} {c : Vec} {m r : ℝ}
    (h : diagFactor hexagon segments i c m j = .ok r) : r ≤ m ∧ ∀ s ∈ segments, ∀ x,
      (⟨c, hexAt hexagon i j⟩ : Segment).intersect2D s = .ok (some x) →
        r ≤ (x - c).magnitude / segMagnitude2D ⟨c, hexAt hexagon i j⟩ := by
  unfold diagFactor at h
  obtain ⟨h1, h2⟩ := foldlM_min (by
    intro a s b hb
    obtain ⟨hit, -, hb⟩ := bind_ok hb
    cases hit with
    | none => exact (Except.ok.inj hb).ge
    | some p =>
      obtain ⟨f, -, hb⟩ := bind_ok hb
      rw [← Except.ok.inj hb]
      exact min_le_right _ _) h
  refine ⟨h1, fun s hs x hx => ?_⟩
  obtain ⟨a, b, h3, h4⟩ := h2 s hs
  rw [hx] at h3
  dsimp only [bind, Except.bind] at h3
  obtain ⟨f, h5, h6⟩ := bind_ok h3
  obtain ⟨-, rfl⟩ := pyDiv_val h5
  refine h4.trans ?_
  rw [← Except.ok.inj h6]
  exact min_le_left _ _

theorem pointFactor_ok {hexagon : List Vec} {i : ℕ} {c p : Vec} {m r : ℝ} (h : pointFactor hexagon i c p m = .ok r) :
    r ≤ m ∧ (¬ p.isClose c → ∀ j ∈ [1, 2, 3, 4], ∀ x,
      (⟨hexAt hexagon i (j + 1), hexAt hexagon i j⟩ : Segment).intersect2D ⟨c, p⟩ 1 = .ok (some x) →
        r ≤ (p - c).magnitude / (x - c).magnitude) := by
  unfold pointFactor at h
  split_ifs at h with hc
  · exact ⟨(Except.ok.inj h).ge, fun h => absurd hc h⟩
  obtain ⟨h1, h2⟩ := foldlM_min (by
    intro a s b hb
    obtain ⟨hit, -, hb⟩ := bind_ok hb
    cases hit with
    | none => exact (Except.ok.inj hb).ge
    | some p =>
      obtain ⟨f, -, hb⟩ := bind_ok hb
      rw [← Except.ok.inj hb]
      exact min_le_right _ _) h
  refine ⟨h1, fun _ j hj x hx => ?_⟩
  obtain ⟨a, b, h3, h4⟩ := h2 j hj
  rw [hx] at h3
  dsimp only [bind, Except.bind] at h3
  obtain ⟨f, h5, h6⟩ := bind_ok h3
  obtain ⟨-, rfl⟩ := pyDiv_val h5
  refine h4.trans ?_
  rw [← Except.ok.inj h6]
  exact min_le_left _ _

theorem hexFactor_ok {hexagon : List Vec} {segments : List Segment} {pts : List Vec} {i : ℕ} {c : Vec} {r : ℝ}
    (h : hexFactor hexagon segments pts i c = .ok r) : r ≤ 1 ∧
    (∀ p ∈ pts, ¬ p.isClose c → ∀ j ∈ [1, 2, 3, 4], ∀ x,
      (⟨hexAt hexagon i (j + 1), hexAt hexagon i j⟩ : Segment).intersect2D ⟨c, p⟩ 1 = .ok (some x) →
        r ≤ (p - c).magnitude / (x - c).magnitude) ∧
    (∀ j ∈ [1, 2, 3, 4, 5], ∀ s ∈ segments, ∀ x, (⟨c, hexAt hexagon i j⟩ : Segment).intersect2D s = .ok (some x) →
        r ≤ (x - c).magnitude / segMagnitude2D ⟨c, hexAt hexagon i j⟩) := by
  unfold hexFactor at h
  obtain ⟨m, h1, h2⟩ := bind_ok h
  obtain ⟨h3, h4⟩ := foldlM_min (fun a p b hb => (pointFactor_ok hb).1) h1
  obtain ⟨h5, h6⟩ := foldlM_min (fun a j b hb => (diagFactor_ok hb).1) h2
  refine ⟨h5.trans h3, ?_, ?_⟩
  · intro p hp hc j hj x hx
    obtain ⟨a, b, h7, h8⟩ := h4 p hp
    exact (h5.trans h8).trans ((pointFactor_ok h7).2 hc j hj x hx)
  · intro j hj s hs x hx
    obtain ⟨a, b, h7, h8⟩ := h6 j hj
    exact h8.trans ((diagFactor_ok h7).2 s hs x hx)

/-- What the loop over the corners finds: nothing, or a corner inside the border and its factor. -/
theorem hexBest_ok {edge : List Vec} {segments : List Segment} {hexagon pts : List Vec} : ∀ {l : List ℕ} {b r : ℝ × Option Vec},
    l.foldlM (hexBest edge segments hexagon pts) b = .ok r → r = b ∨ ∃ i ∈ l, r.2 = some (hexagon.getD i 0) ∧ b.1 < r.1 ∧
      contains2D edge (hexagon.getD i 0) = true ∧ hexFactor hexagon segments pts i (hexagon.getD i 0) = .ok r.1
  | [], b, r, h => .inl (Except.ok.inj h).symm
  | i :: l, b, r, h => by
    obtain ⟨b', h1, h2⟩ := foldlM_cons_ok h
    have step : b' = b ∨ (b'.2 = some (hexagon.getD i 0) ∧ b.1 < b'.1 ∧
        contains2D edge (hexagon.getD i 0) = true ∧ hexFactor hexagon segments pts i (hexagon.getD i 0) = .ok b'.1) := by
      unfold hexBest at h1
      dsimp only at h1
      split_ifs at h1 with hc
      · obtain ⟨m, h3, h4⟩ := bind_ok h1
        split_ifs at h4 with hm
        · obtain rfl := Except.ok.inj h4
          exact .inr ⟨rfl, hm, hc, h3⟩
        · exact .inl (Except.ok.inj h4).symm
      · exact .inl (Except.ok.inj h1).symm
    rcases hexBest_ok h2 with rfl | ⟨k, hk, e1, e2, e3, e4⟩
    · rcases step with e | ⟨e1, e2, e3, e4⟩
      · exact .inl e
      · exact .inr ⟨i, by simp, e1, e2, e3, e4⟩
    · refine .inr ⟨k, by simp [hk], e1, ?_, e3, e4⟩
      rcases step with rfl | ⟨-, e5, -⟩
      · exact e2
      · exact e5.trans e2

/-! ### The hexagon -/

theorem hexAround_eq (x y R : ℝ) : hexAround x y R (R / 2 * Real.sqrt 3) = hexagon x y R := rfl

theorem hex_scaled (x y R f : ℝ) (c : Vec) (hc : c.z = 0) : ((hexagon x y R).map fun v => (v - c) * f + c) =
    hexagon (c.x + f * (x - c.x)) (c.y + f * (y - c.y)) (f * R) := by
  simp only [hexagon, List.map_cons, List.map_nil, List.cons.injEq, and_true]
  refine ⟨?_, ?_, ?_, ?_, ?_, ?_⟩ <;>
    ext <;> simp only [Vec.add_x, Vec.add_y, Vec.add_z, Vec.mul_x, Vec.mul_y, Vec.mul_z, Vec.sub_x, Vec.sub_y, Vec.sub_z, hc] <;> ring

theorem hex_pairs (x y r : ℝ) : cycPairs (hexagon x y r) =
    [(⟨x - r, y, 0⟩, ⟨x - r / 2, y - r / 2 * Real.sqrt 3, 0⟩), (⟨x - r / 2, y - r / 2 * Real.sqrt 3, 0⟩, ⟨x + r / 2, y - r / 2 * Real.sqrt 3, 0⟩),
     (⟨x + r / 2, y - r / 2 * Real.sqrt 3, 0⟩, ⟨x + r, y, 0⟩), (⟨x + r, y, 0⟩, ⟨x + r / 2, y + r / 2 * Real.sqrt 3, 0⟩),
     (⟨x + r / 2, y + r / 2 * Real.sqrt 3, 0⟩, ⟨x - r / 2, y + r / 2 * Real.sqrt 3, 0⟩), (⟨x - r / 2, y + r / 2 * Real.sqrt 3, 0⟩, ⟨x - r, y, 0⟩)] := by
  simp [cycPairs, hexagon]

/-- The sides of a regular hexagon as inequalities. -/
theorem hex_sides (x y R : ℝ) (p : Vec) (Φ : ℝ → Prop) : (∀ s ∈ cycPairs (hexagon x y R), Φ (left s.1 s.2 p)) ↔
    Φ (R / 2 * (R * Real.sqrt 3 + (Real.sqrt 3 * (p.x - x) + (p.y - y)))) ∧ Φ (R * (R / 2 * Real.sqrt 3 + (p.y - y))) ∧
    Φ (R / 2 * (R * Real.sqrt 3 - (Real.sqrt 3 * (p.x - x) - (p.y - y)))) ∧
    Φ (R / 2 * (R * Real.sqrt 3 - (Real.sqrt 3 * (p.x - x) + (p.y - y)))) ∧ Φ (R * (R / 2 * Real.sqrt 3 - (p.y - y))) ∧
    Φ (R / 2 * (R * Real.sqrt 3 + (Real.sqrt 3 * (p.x - x) - (p.y - y)))) := by
  rw [hex_pairs]
  simp only [List.mem_cons, List.not_mem_nil, or_false, forall_eq_or_imp, forall_eq, left]
  generalize Real.sqrt 3 = k
  have key : ∀ {a b : ℝ}, a = b → (Φ a ↔ Φ b) := fun h => by rw [h]
  refine and_congr (key (by ring)) (and_congr (key (by ring)) (and_congr (key (by ring)) (and_congr (key (by ring)) (and_congr (key (by ring)) (key (by ring))))))

/-- Being inside a regular hexagon, as inequalities. -/
theorem hex_inside {x y R : ℝ} (hR : 0 < R) {p : Vec} : Inside (hexagon x y R) p ↔
    (|p.y - y| < R / 2 * Real.sqrt 3 ∧ |Real.sqrt 3 * (p.x - x) + (p.y - y)| < R * Real.sqrt 3 ∧
      |Real.sqrt 3 * (p.x - x) - (p.y - y)| < R * Real.sqrt 3) := by
  unfold Inside
  rw [hex_sides x y R p (fun l => 0 < l)]
  simp only [mul_pos_iff_of_pos_left hR, mul_pos_iff_of_pos_left (half_pos hR), abs_lt]
  constructor
  · rintro ⟨h1, h2, h3, h4, h5, h6⟩
    refine ⟨⟨?_, ?_⟩, ⟨?_, ?_⟩, ?_, ?_⟩ <;> linarith
  · rintro ⟨⟨h1, h2⟩, ⟨h3, h4⟩, h5, h6⟩
    refine ⟨?_, ?_, ?_, ?_, ?_, ?_⟩ <;> linarith

theorem hex_within {x y R : ℝ} (hR : 0 < R) {p : Vec} : Within (hexagon x y R) p ↔
    (|p.y - y| ≤ R / 2 * Real.sqrt 3 ∧ |Real.sqrt 3 * (p.x - x) + (p.y - y)| ≤ R * Real.sqrt 3 ∧
      |Real.sqrt 3 * (p.x - x) - (p.y - y)| ≤ R * Real.sqrt 3) := by
  unfold Within
  rw [hex_sides x y R p (fun l => 0 ≤ l)]
  simp only [mul_nonneg_iff_of_pos_left hR, mul_nonneg_iff_of_pos_left (half_pos hR), abs_le]
  constructor
  · rintro ⟨h1, h2, h3, h4, h5, h6⟩
    refine ⟨⟨?_, ?_⟩, ⟨?_, ?_⟩, ?_, ?_⟩ <;> linarith
  · rintro ⟨⟨h1, h2⟩, ⟨h3, h4⟩, h5, h6⟩
    refine ⟨?_, ?_, ?_, ?_, ?_, ?_⟩ <;> linarith

theorem sqrt3 : Real.sqrt 3 * Real.sqrt 3 = 3 := Real.mul_self_sqrt (by norm_num)

/-- Points in a hexagon are not farther from its center than its corners. -/
theorem hex_radius {x y R : ℝ} (hR : 0 < R) {p : Vec} (h : Inside (hexagon x y R) p) : (p.x - x) ^ 2 + (p.y - y) ^ 2 < R ^ 2 := by
  obtain ⟨h1, h2, h3⟩ := (hex_inside hR).mp h
  have s3 := sqrt3
  have s0 : 0 < Real.sqrt 3 := by positivity
  generalize p.x - x = P at *
  generalize p.y - y = Q at *
  generalize Real.sqrt 3 = k at *
  have q1 := sq_lt_sq' (by linarith [abs_lt.mp h1 |>.1]) (abs_lt.mp h1 |>.2)
  -- |kP| + |Q| < kR
  have hk : k * |P| + |Q| < R * k := by
    have e1 : k * |P| = |k * P| := by rw [abs_mul, abs_of_pos s0]
    rw [e1]
    rcases abs_cases (k * P) with ⟨h, _⟩ | ⟨h, _⟩ <;> rcases abs_cases Q with ⟨h', _⟩ | ⟨h', _⟩ <;>
      rw [h, h'] <;> have a1 := abs_lt.mp h2 <;> have a2 := abs_lt.mp h3 <;> linarith [a1.1, a1.2, a2.1, a2.2]
  have hP := abs_nonneg P
  have hQ := abs_nonneg Q
  rw [← sq_abs P, ← sq_abs Q]
  generalize |P| = a at *
  generalize |Q| = b at *
  -- a < R - b/k
  have h4 : 3 * a + k * b < 3 * R := by
    have : k * (k * a + b) < k * (R * k) := mul_lt_mul_of_pos_left hk s0
    have e1 : k * (k * a + b) = k * k * a + k * b := by ring
    have e2 : k * (R * k) = k * k * R := by ring
    rw [e1, e2, s3] at this
    exact this
  have h5 : k * b ≤ 3 / 2 * R := by
    have := mul_lt_mul_of_pos_left h1 s0
    have e2 : k * (R / 2 * k) = k * k * (R / 2) := by ring
    rw [e2, s3] at this
    linarith
  have h6 : 9 * a ^ 2 ≤ (3 * R - k * b) ^ 2 := by
    have : (3 * a) ^ 2 ≤ (3 * R - k * b) ^ 2 := pow_le_pow_left₀ (by positivity) (by linarith) 2
    linarith
  have h7 : (k * b) ^ 2 = 3 * b ^ 2 := by rw [mul_pow, pow_two k, s3]
  have h8 : 0 ≤ k * b := by positivity
  rcases eq_or_lt_of_le hQ with hb | hb
  · rw [← hb] at h4 ⊢
    have : a < R := by linarith
    have := pow_lt_pow_left₀ this hP two_ne_zero
    linarith
  · have h9 : 0 < k * b := by positivity
    nlinarith [mul_pos h9 hR]

/-- **C86** (whole cells) -/
theorem whole_inside {edge : List Vec} {x y R : ℝ} (hR : 0 < R) (hd : ∀ s ∈ toSegments edge true, R ≤ s.distance2D ⟨x, y, 0⟩)
    (hc : contains2D edge ⟨x, y, 0⟩ = true) {p : Vec} (hp : Inside (hexagon x y R) p) :
    contains2D edge p = true ∧ ¬ OnOutline edge p := by
  have far : ∀ s ∈ cycPairs edge, ∀ t : ℝ, 0 ≤ t → t ≤ 1 → R ^ 2 ≤ ((between2D s.1 s.2 t).x - x) ^ 2 + ((between2D s.1 s.2 t).y - y) ^ 2 := by
    intro s hs t t0 t1
    have h1 := hd ⟨s.1, s.2⟩ (by rw [toSegments_closed]; exact List.mem_map_of_mem (f := fun s : Vec × Vec => (⟨s.1, s.2⟩ : Segment)) hs)
    have h2 := h1.trans ((C28_segment_distance ⟨s.1, s.2⟩ ⟨x, y, 0⟩).1 t t0 t1)
    exact (Real.le_sqrt' hR).mp h2
  have hr := hex_radius hR hp
  constructor
  · rw [← hc]
    refine C34_path ?_
    rintro s hs ⟨t, u, t0, t1, u0, u1, e⟩
    have := far s hs u u0 u1
    rw [← e] at this
    simp only [between2D] at this
    have e2 : (p.x + t * (x - p.x) - x) ^ 2 + (p.y + t * (y - p.y) - y) ^ 2 = (1 - t) ^ 2 * ((p.x - x) ^ 2 + (p.y - y) ^ 2) := by ring
    rw [e2] at this
    have : (1 - t) ^ 2 ≤ 1 := by nlinarith
    have : (1 - t) ^ 2 * ((p.x - x) ^ 2 + (p.y - y) ^ 2) ≤ 1 * ((p.x - x) ^ 2 + (p.y - y) ^ 2) :=
      mul_le_mul_of_nonneg_right this (by positivity)
    linarith
  · rintro ⟨s, hs, t, t0, t1, e⟩
    have := far s hs t t0 t1
    rw [← e] at this
    simp only [Vec.xy] at this
    linarith

/-! ### The fan -/

theorem hexAt_map (f : Vec → Vec) (x y R : ℝ) {i j : ℕ} (hj : j ≤ 6) (hi : i < 6) :
    hexAt ((hexagon x y R).map f) i j = f (hexAt (hexagon x y R) i j) := by
  unfold hexAt
  have : (i + 6 - j) % 6 < 6 := Nat.mod_lt _ (by norm_num)
  generalize (i + 6 - j) % 6 = n at *
  interval_cases n <;> rfl

theorem hexAt_pair {l : List Vec} (hl : l.length = 6) {i j : ℕ} (hi : i < 6) (hj : j < 6) : (hexAt l i (j + 1), hexAt l i j) ∈ cycPairs l := by
  match l, hl with
  | [a, b, c, d, e, f], _ =>
    have h : cycPairs [a, b, c, d, e, f] = [(a, b), (b, c), (c, d), (d, e), (e, f), (f, a)] := rfl
    rw [h]
    interval_cases i <;> interval_cases j <;> simp [hexAt]

theorem hexAt_zero {l : List Vec} {i : ℕ} (hi : i < 6) : hexAt l i 0 = l.getD i 0 := by
  unfold hexAt; rw [Nat.sub_zero, Nat.add_mod_right, Nat.mod_eq_of_lt hi]

theorem hexAt_six {l : List Vec} {i : ℕ} (hi : i < 6) : hexAt l i 6 = l.getD i 0 := by
  unfold hexAt; rw [Nat.add_sub_cancel, Nat.mod_eq_of_lt hi]

/-- The doubled area of the triangles of the fan. -/
theorem fan_area (x y R : ℝ) {i j : ℕ} (hi : i < 6) (hj : j ∈ [1, 2, 3, 4]) : ∃ κ : ℝ, (κ = 1 / 2 ∨ κ = 1) ∧
    cr (hexAt (hexagon x y R) i j - (hexagon x y R).getD i 0) (hexAt (hexagon x y R) i (j + 1) - (hexagon x y R).getD i 0) =
      -(κ * (R ^ 2 * Real.sqrt 3)) := by
  simp only [List.mem_cons, List.not_mem_nil, or_false] at hj
  rcases hj with rfl | rfl | rfl | rfl
  · refine ⟨1 / 2, .inl rfl, ?_⟩
    interval_cases i <;> simp [hexAt, hexagon, cr] <;> ring
  · refine ⟨1, .inr rfl, ?_⟩
    interval_cases i <;> simp [hexAt, hexagon, cr] <;> ring
  · refine ⟨1, .inr rfl, ?_⟩
    interval_cases i <;> simp [hexAt, hexagon, cr] <;> ring
  · refine ⟨1 / 2, .inl rfl, ?_⟩
    interval_cases i <;> simp [hexAt, hexagon, cr] <;> ring


theorem cr_anti (u v : Vec) : cr u v = -cr v u := by unfold cr; ring

/-- A point inside of a hexagon scaled at a corner is in one of the triangles of the fan. -/
theorem fan_find {x y R f : ℝ} (hR : 0 < R) (hf : 0 < f) {i : ℕ} (hi : i < 6) {p : Vec}
    (hp : Inside ((hexagon x y R).map fun v => (v - (hexagon x y R).getD i 0) * f + (hexagon x y R).getD i 0) p) :
    ∃ j ∈ [1, 2, 3, 4], ∃ A B : ℝ, At ((hexagon x y R).getD i 0) (hexAt (hexagon x y R) i j - (hexagon x y R).getD i 0)
      (hexAt (hexagon x y R) i (j + 1) - (hexagon x y R).getD i 0) A B p ∧ 0 < A ∧ 0 ≤ B ∧ A + B < f ∧ (B = 0 → j ≠ 1) := by
  have hs0 : 0 < Real.sqrt 3 := by positivity
  obtain ⟨c, hc⟩ : ∃ c, c = (hexagon x y R).getD i 0 := ⟨_, rfl⟩
  rw [← hc] at hp ⊢
  obtain ⟨w, hw⟩ : ∃ w : ℕ → Vec, w = fun j => hexAt (hexagon x y R) i j - c := ⟨_, rfl⟩
  have len : ((hexagon x y R).map fun v => (v - c) * f + c).length = 6 := by simp [hexagon]
  have side : ∀ j < 6, 0 < left (w (j + 1) * f + c) (w j * f + c) p := by
    intro j hj
    have := hp _ (hexAt_pair len hi hj)
    rw [hexAt_map _ x y R (by omega) hi, hexAt_map _ x y R (by omega) hi] at this
    rw [hw]
    exact this
  have w0 : w 0 = 0 := by rw [hw]; dsimp only; rw [hexAt_zero hi, ← hc]; ext <;> simp
  have w6 : w 6 = 0 := by rw [hw]; dsimp only; rw [hexAt_six hi, ← hc]; ext <;> simp
  -- where the point is, relative to the spokes
  have g1 : cr (w 1) (p - c) < 0 := by
    have := side 0 (by norm_num)
    rw [w0] at this
    simp only [left, zero_add, Vec.add_x, Vec.add_y, Vec.mul_x, Vec.mul_y, Vec.zero_x, Vec.zero_y] at this
    simp only [cr, Vec.sub_x, Vec.sub_y]
    by_contra h
    push Not at h
    nlinarith [mul_nonneg hf.le h]
  have g5 : 0 < cr (w 5) (p - c) := by
    have := side 5 (by norm_num)
    rw [w6] at this
    simp only [left, zero_add, Vec.add_x, Vec.add_y, Vec.mul_x, Vec.mul_y, Vec.zero_x, Vec.zero_y] at this
    simp only [cr, Vec.sub_x, Vec.sub_y]
    by_contra h
    push Not at h
    nlinarith [mul_nonneg hf.le (neg_nonneg.mpr h)]
  have pick : ∃ j ∈ [1, 2, 3, 4], cr (w j) (p - c) ≤ 0 ∧ 0 < cr (w (j + 1)) (p - c) ∧ (cr (w j) (p - c) = 0 → j ≠ 1) := by
    rcases le_or_gt (cr (w 4) (p - c)) 0 with h4 | h4
    · exact ⟨4, by simp, h4, g5, by simp⟩
    rcases le_or_gt (cr (w 3) (p - c)) 0 with h3 | h3
    · exact ⟨3, by simp, h3, h4, by simp⟩
    rcases le_or_gt (cr (w 2) (p - c)) 0 with h2 | h2
    · exact ⟨2, by simp, h2, h3, by simp⟩
    exact ⟨1, by simp, g1.le, h2, fun h => by linarith⟩
  obtain ⟨j, hj, h1, h2, h3⟩ := pick
  have hj6 : j < 6 := by simp only [List.mem_cons, List.not_mem_nil, or_false] at hj; omega
  obtain ⟨κ, hκ, area⟩ := fan_area x y R hi hj
  have κ0 : 0 < κ := by rcases hκ with rfl | rfl <;> norm_num
  have ew : ∀ n, hexAt (hexagon x y R) i n - (hexagon x y R).getD i 0 = w n := by intro n; rw [hw, hc]
  rw [ew, ew] at area
  have hn : cr (w j) (w (j + 1)) < 0 := by rw [area]; have : 0 < κ * (R ^ 2 * Real.sqrt 3) := by positivity
                                           linarith
  refine ⟨j, hj, _, _, at_coords (by rw [hw] at hn; exact hn.ne) p, ?_, ?_, ?_, ?_⟩
  · have : hexAt (hexagon x y R) i j - c = w j ∧ hexAt (hexagon x y R) i (j + 1) - c = w (j + 1) := by rw [hw]; exact ⟨rfl, rfl⟩
    rw [this.1, this.2, cr_anti]
    exact div_pos_of_neg_of_neg (by linarith) hn
  · have : hexAt (hexagon x y R) i j - c = w j ∧ hexAt (hexagon x y R) i (j + 1) - c = w (j + 1) := by rw [hw]; exact ⟨rfl, rfl⟩
    rw [this.1, this.2]
    exact div_nonneg_of_nonpos h1 hn.le
  · have : hexAt (hexagon x y R) i j - c = w j ∧ hexAt (hexagon x y R) i (j + 1) - c = w (j + 1) := by rw [hw]; exact ⟨rfl, rfl⟩
    rw [this.1, this.2, ← add_div, div_lt_iff_of_neg hn]
    have s := side j hj6
    generalize w j = u at *
    generalize w (j + 1) = v at *
    simp only [left, Vec.add_x, Vec.add_y, Vec.mul_x, Vec.mul_y] at s
    simp only [cr, Vec.sub_x, Vec.sub_y]
    by_contra h
    push Not at h
    have h' := mul_nonneg hf.le (sub_nonneg.mpr h)
    nlinarith
  · intro h
    have : hexAt (hexagon x y R) i j - c = w j ∧ hexAt (hexagon x y R) i (j + 1) - c = w (j + 1) := by rw [hw]; exact ⟨rfl, rfl⟩
    rw [this.1, this.2] at h
    exact h3 ((div_eq_zero_iff.mp h).resolve_right hn.ne)


theorem hex_convex (x y : ℝ) {R : ℝ} (hR : 0 < R) : ConvexPolygon (hexagon x y R) := by
  have hs : 0 < Real.sqrt 3 := by positivity
  have hm : 0 < R / 2 * Real.sqrt 3 := by positivity
  refine ⟨by simp [hexagon], ?_, ?_⟩
  · simp only [hexagon, List.nodup_cons, List.mem_cons, Vec.mk.injEq, List.not_mem_nil, or_false, not_or, not_and, not_false_eq_true, List.nodup_nil, and_true]
    refine ⟨⟨?_, ?_, ?_, ?_, ?_⟩, ⟨?_, ?_, ?_, ?_⟩, ⟨?_, ?_, ?_⟩, ⟨?_, ?_⟩, ?_⟩ <;> intro h1 <;> first
      | (exfalso; linarith)
      | (intro h2; exfalso; linarith)
  · intro s hs' r hr
    rw [hex_pairs] at hs'
    simp only [hexagon, List.mem_cons, List.not_mem_nil, or_false] at hs' hr
    rcases hs' with rfl | rfl | rfl | rfl | rfl | rfl <;> rcases hr with rfl | rfl | rfl | rfl | rfl | rfl <;> intro h1 h2 <;> first
      | exact absurd rfl h1
      | exact absurd rfl h2
      | (unfold left; ring_nf; positivity)

theorem convex_corner {e : List Vec} (h : ConvexPolygon e) {s : Vec × Vec} (hs : s ∈ cycPairs e) {r : Vec} (hr : r ∈ e) : 0 ≤ left s.1 s.2 r := by
  by_cases e1 : r = s.1
  · rw [e1, left_self1]
  by_cases e2 : r = s.2
  · rw [e2, left_self2]
  exact (h.2.2 s hs r hr e1 e2).le

theorem hexAt_mem (x y R : ℝ) (i j : ℕ) : hexAt (hexagon x y R) i j ∈ hexagon x y R := by
  unfold hexAt
  have : (i + 6 - j) % 6 < 6 := Nat.mod_lt _ (by norm_num)
  generalize (i + 6 - j) % 6 = n at *
  interval_cases n <;> simp [hexagon]

theorem hexAt_shift (x y R : ℝ) (i j : ℕ) : hexAt (hexagon x y R) i j = hexAt (hexagon 0 0 R) i j + ⟨x, y, 0⟩ := by
  unfold hexAt
  have : (i + 6 - j) % 6 < 6 := Nat.mod_lt _ (by norm_num)
  generalize (i + 6 - j) % 6 = n at *
  interval_cases n <;> ext <;> simp [hexagon] <;> ring

theorem hexAt_flat (x y R : ℝ) (i j : ℕ) : (hexAt (hexagon x y R) i j).z = 0 := by
  have := hexAt_mem x y R i j
  simp only [hexagon, List.mem_cons, List.not_mem_nil, or_false] at this
  rcases this with h | h | h | h | h | h <;> rw [hexagon, h]

theorem hexAt_far (x y : ℝ) {R : ℝ} (hR : 0 < R) (i j k : ℕ) :
    |(hexAt (hexagon x y R) i j).x - (hexAt (hexagon x y R) i k).x| ≤ 2 * R ∧
    |(hexAt (hexagon x y R) i j).y - (hexAt (hexagon x y R) i k).y| ≤ 2 * R := by
  have hs : Real.sqrt 3 ≤ 2 := by
    rw [show (2 : ℝ) = Real.sqrt 4 by rw [show (4 : ℝ) = 2 ^ 2 by norm_num, Real.sqrt_sq (by norm_num)]]
    exact Real.sqrt_le_sqrt (by norm_num)
  have hm : R / 2 * Real.sqrt 3 ≤ R := by nlinarith
  have hm0 : 0 ≤ R / 2 * Real.sqrt 3 := by positivity
  have key : ∀ p ∈ hexagon x y R, |p.x - x| ≤ R ∧ |p.y - y| ≤ R := by
    intro p hp
    simp only [hexagon, List.mem_cons, List.not_mem_nil, or_false] at hp
    rcases hp with rfl | rfl | rfl | rfl | rfl | rfl <;> simp only [abs_le] <;> refine ⟨⟨?_, ?_⟩, ?_, ?_⟩ <;> linarith
  obtain ⟨h1, h2⟩ := key _ (hexAt_mem x y R i j)
  obtain ⟨h3, h4⟩ := key _ (hexAt_mem x y R i k)
  simp only [abs_le] at *
  refine ⟨⟨?_, ?_⟩, ?_, ?_⟩ <;> linarith

/-- A factor found for a corner: no side of the border crosses a spoke of the fan near the corner. -/
theorem factor_spoke {cfg : HexCfg} {edge : List Vec} {x y f : ℝ} {pts : List Vec} {i : ℕ} (hi : i < 6) (hcl : CleanBorder cfg edge)
    (h : hexFactor (hexagon x y (cfg.maxDiameter / 2)) (toSegments edge true) pts i ((hexagon x y (cfg.maxDiameter / 2)).getD i 0) = .ok f)
    {j : ℕ} (hj : j ∈ [1, 2, 3, 4, 5]) {s : Vec × Vec} (hs : s ∈ cycPairs edge) {t σ : ℝ} (t0 : 0 ≤ t) (t1 : t ≤ 1) (σ0 : 0 ≤ σ) (σ1 : σ ≤ 1)
    (hx : between2D s.1 s.2 t = between2D ((hexagon x y (cfg.maxDiameter / 2)).getD i 0) (hexAt (hexagon x y (cfg.maxDiameter / 2)) i j) σ)
    (hcr : cr (hexAt (hexagon x y (cfg.maxDiameter / 2)) i j - (hexagon x y (cfg.maxDiameter / 2)).getD i 0) (s.2 - s.1) ≠ 0) : f ≤ σ := by
  have hc0 := hexAt_zero (l := hexagon x y (cfg.maxDiameter / 2)) hi
  rw [← hc0] at h hx hcr
  generalize hR : cfg.maxDiameter / 2 = R at *
  have hz := hexAt_flat x y R i 0
  have hang := hcl.angles s hs _ (by rw [hR]; exact hexAt_mem 0 0 R i 0) _ (by rw [hR]; exact hexAt_mem 0 0 R i j)
  have sx : ∀ n, (hexAt (hexagon x y R) i n).x = (hexAt (hexagon 0 0 R) i n).x + x := fun n => by rw [hexAt_shift x y]; simp
  have sy : ∀ n, (hexAt (hexagon x y R) i n).y = (hexAt (hexagon 0 0 R) i n).y + y := fun n => by rw [hexAt_shift x y]; simp
  have hit : (⟨hexAt (hexagon x y R) i 0, hexAt (hexagon x y R) i j⟩ : Segment).intersect2D ⟨s.1, s.2⟩ = .ok (some (between2D s.1 s.2 t)) := by
    rw [C29_intersection]
    refine ⟨by norm_num, ?_, σ, t, hx, rfl, fun _ => ⟨σ0, σ1⟩, fun _ => ⟨t0, t1⟩⟩
    rcases hang with h0 | h0
    · exfalso
      apply hcr
      simp only [cr, Vec.sub_x, Vec.sub_y, sx, sy]
      linarith
    · dsimp only
      rw [sx, sx, sy, sy]
      refine le_trans (by norm_num) (h0.trans (le_of_eq ?_))
      congr 1
      ring
  have := (hexFactor_ok h).2.2 j hj ⟨s.1, s.2⟩ (by rw [toSegments_closed]; exact List.mem_map_of_mem (f := fun s : Vec × Vec => (⟨s.1, s.2⟩ : Segment)) hs) _ hit
  rw [hx] at this
  refine this.trans (le_of_eq ?_)
  generalize hexAt (hexagon x y R) i 0 = c at *
  generalize hexAt (hexagon x y R) i j = d at *
  have hne : 0 < (c.x - d.x) * (c.x - d.x) + (c.y - d.y) * (c.y - d.y) := by
    by_contra h0
    push Not at h0
    apply hcr
    have e1 : c.x - d.x = 0 := by nlinarith [mul_self_nonneg (c.x - d.x), mul_self_nonneg (c.y - d.y)]
    have e2 : c.y - d.y = 0 := by nlinarith [mul_self_nonneg (c.x - d.x), mul_self_nonneg (c.y - d.y)]
    simp only [cr, Vec.sub_x, Vec.sub_y]
    rw [show d.x - c.x = 0 by linarith, show d.y - c.y = 0 by linarith]
    ring
  have e1 : (between2D c d σ - c).magnitude = σ * Real.sqrt ((c.x - d.x) * (c.x - d.x) + (c.y - d.y) * (c.y - d.y)) := by
    simp only [Vec.magnitude, between2D, Vec.sub_x, Vec.sub_y, Vec.sub_z, hz]
    rw [show (c.x + σ * (d.x - c.x) - c.x) * (c.x + σ * (d.x - c.x) - c.x) + (c.y + σ * (d.y - c.y) - c.y) * (c.y + σ * (d.y - c.y) - c.y) + (0 - 0) * (0 - 0) =
      σ ^ 2 * ((c.x - d.x) * (c.x - d.x) + (c.y - d.y) * (c.y - d.y)) by ring, Real.sqrt_mul (by positivity), Real.sqrt_sq σ0]
  rw [e1]
  simp only [segMagnitude2D, Vec.magnitude2D, Vec.sub_x, Vec.sub_y]
  rw [mul_div_cancel_right₀ _ (Real.sqrt_pos.mpr hne).ne']

theorem hexAt_ne (x y : ℝ) {R : ℝ} (hR : 0 < R) {i a b : ℕ} (hi : i < 6) (ha : a < 6) (hb : b < 6) (hab : a ≠ b) :
    hexAt (hexagon x y R) i a ≠ hexAt (hexagon x y R) i b := by
  unfold hexAt
  have l : (hexagon x y R).length = 6 := by simp [hexagon]
  have h1 : (i + 6 - a) % 6 < (hexagon x y R).length := by rw [l]; exact Nat.mod_lt _ (by norm_num)
  have h2 : (i + 6 - b) % 6 < (hexagon x y R).length := by rw [l]; exact Nat.mod_lt _ (by norm_num)
  rw [List.getD_eq_getElem?_getD, List.getD_eq_getElem?_getD, List.getElem?_eq_getElem h1, List.getElem?_eq_getElem h2, Option.getD_some, Option.getD_some]
  intro h
  have := (hex_convex x y hR).2.1.getElem_inj_iff.mp h
  omega

/-- A factor found for a corner: no corner of the border is in a triangle of the fan, near the corner. -/
theorem factor_point {cfg : HexCfg} {edge : List Vec} {x y f : ℝ} {i : ℕ} (hi : i < 6) (hcl : CleanBorder cfg edge)
    (hcc : CleanCell cfg edge x y) (hD : 5 ≤ cfg.maxDiameter)
    (h : hexFactor (hexagon x y (cfg.maxDiameter / 2)) (toSegments edge true)
      (edge.filter fun p => contains2D (hexagon x y (cfg.maxDiameter / 2)) p) i ((hexagon x y (cfg.maxDiameter / 2)).getD i 0) = .ok f)
    {j : ℕ} (hj : j ∈ [1, 2, 3, 4]) {e : Vec} (he : e ∈ edge) {A B : ℝ} (hA : 0 < A) (hB : 0 ≤ B) (hAB : A + B < f) (hB1 : B = 0 → j ≠ 1)
    (hat : At ((hexagon x y (cfg.maxDiameter / 2)).getD i 0) (hexAt (hexagon x y (cfg.maxDiameter / 2)) i j - (hexagon x y (cfg.maxDiameter / 2)).getD i 0)
      (hexAt (hexagon x y (cfg.maxDiameter / 2)) i (j + 1) - (hexagon x y (cfg.maxDiameter / 2)).getD i 0) A B e) : False := by
  have f1 := (hexFactor_ok h).1
  have fp := (hexFactor_ok h).2.1
  have hc0 := hexAt_zero (l := hexagon x y (cfg.maxDiameter / 2)) hi
  rw [← hc0] at h hat fp
  unfold CleanCell at hcc
  generalize hR : cfg.maxDiameter / 2 = R at *
  have R0 : 5 / 2 ≤ R := by linarith
  have Rpos : 0 < R := by linarith
  obtain ⟨κ, hκ, area⟩ := fan_area x y R hi hj
  rw [← hc0] at area
  have κ0 : 1 / 2 ≤ κ := by rcases hκ with rfl | rfl <;> norm_num
  have ez := hcl.flat e he
  have cz := hexAt_flat x y R i 0
  have hj6 : j < 6 := by simp only [List.mem_cons, List.not_mem_nil, or_false] at hj; omega
  have hj1 : 1 ≤ j ∧ j ≤ 4 := by simp only [List.mem_cons, List.not_mem_nil, or_false] at hj; omega
  -- the corner is strictly inside of the cell
  have hin : Inside (hexagon x y R) e := by
    intro s hs
    have cv := hex_convex x y Rpos
    have aff : left s.1 s.2 e = (1 - A - B) * left s.1 s.2 (hexAt (hexagon x y R) i 0) + A * left s.1 s.2 (hexAt (hexagon x y R) i j) +
        B * left s.1 s.2 (hexAt (hexagon x y R) i (j + 1)) := by
      obtain ⟨h1, h2⟩ := hat
      simp only [Vec.sub_x, Vec.sub_y] at h1 h2
      simp only [left, h1, h2]
      ring
    have n0 := convex_corner cv hs (hexAt_mem x y R i 0)
    have n1 := convex_corner cv hs (hexAt_mem x y R i j)
    have n2 := convex_corner cv hs (hexAt_mem x y R i (j + 1))
    have m0 := mul_nonneg (by linarith : 0 ≤ 1 - A - B) n0
    have m1 := mul_nonneg hA.le n1
    have m2 := mul_nonneg hB n2
    rw [aff]
    by_contra hcon
    push Not at hcon
    have z0 : left s.1 s.2 (hexAt (hexagon x y R) i 0) = 0 :=
      (mul_eq_zero.mp (by linarith : (1 - A - B) * left s.1 s.2 (hexAt (hexagon x y R) i 0) = 0)).resolve_left (by linarith)
    have z1 : left s.1 s.2 (hexAt (hexagon x y R) i j) = 0 := (mul_eq_zero.mp (by linarith : A * left s.1 s.2 (hexAt (hexagon x y R) i j) = 0)).resolve_left hA.ne'
    have z2 : B = 0 ∨ left s.1 s.2 (hexAt (hexagon x y R) i (j + 1)) = 0 := mul_eq_zero.mp (by linarith)
    -- three points on the line of a side
    have on : ∀ r ∈ hexagon x y R, left s.1 s.2 r = 0 → r = s.1 ∨ r = s.2 := by
      intro r hr h0
      by_contra hne
      push Not at hne
      linarith [cv.2.2 s hs r hr hne.1 hne.2]
    have o0 := on _ (hexAt_mem x y R i 0) z0
    have o1 := on _ (hexAt_mem x y R i j) z1
    have c1 : (hexAt (hexagon x y R) i 1, hexAt (hexagon x y R) i 0) ∈ cycPairs (hexagon x y R) := hexAt_pair (by simp [hexagon]) hi (by norm_num)
    have c5 : (hexAt (hexagon x y R) i 0, hexAt (hexagon x y R) i 5) ∈ cycPairs (hexagon x y R) := by
      have := hexAt_pair (l := hexagon x y R) (by simp [hexagon]) hi (by norm_num : 5 < 6)
      rwa [hexAt_six hi, ← hexAt_zero hi] at this
    have sw : ∀ a b c : Vec, left a b c = -left c b a := by intro a b c; unfold left; ring
    have sw' : ∀ a b c : Vec, left a b c = -left a c b := by intro a b c; unfold left; ring
    have dne : ∀ {a b : ℕ}, a < 6 → b < 6 → a ≠ b → hexAt (hexagon x y R) i a ≠ hexAt (hexagon x y R) i b :=
      fun ha hb hab => hexAt_ne x y Rpos hi ha hb hab
    have d0j := dne (by norm_num : 0 < 6) hj6 (by omega)
    obtain ⟨s1, s2⟩ := s
    dsimp only at *
    rcases o0 with o0 | o0
    · -- the side starts at the corner
      have e2 : s2 = hexAt (hexagon x y R) i j := by
        rcases o1 with o1 | o1
        · exact absurd (o0.trans o1.symm) d0j
        · exact o1.symm
      subst e2
      rw [← o0] at hs
      have g1 := cv.2.2 _ hs _ (hexAt_mem x y R i 5) (dne (by norm_num) (by norm_num) (by norm_num)) (dne (by norm_num) hj6 (by omega))
      have g2 := cv.2.2 _ c5 _ (hexAt_mem x y R i j) d0j.symm (dne hj6 (by norm_num) (by omega))
      dsimp only at g1 g2
      rw [sw'] at g1
      linarith
    · have e2 : s1 = hexAt (hexagon x y R) i j := by
        rcases o1 with o1 | o1
        · exact o1.symm
        · exact absurd (o0.trans o1.symm) d0j
      subst e2
      rw [← o0] at hs
      by_cases hj' : j = 1
      · subst hj'
        rcases z2 with z2 | z2
        · exact hB1 z2 rfl
        · have g1 := cv.2.2 _ hs _ (hexAt_mem x y R i (1 + 1)) (dne (by norm_num) (by norm_num) (by norm_num)) (dne (by norm_num) (by norm_num) (by norm_num))
          dsimp only at g1
          rw [o0] at g1
          linarith
      · have g1 := cv.2.2 _ hs _ (hexAt_mem x y R i 1) (dne (by norm_num) hj6 (by omega)) (dne (by norm_num) (by norm_num) (by norm_num))
        have g2 := cv.2.2 _ c1 _ (hexAt_mem x y R i j) (dne hj6 (by norm_num) (by omega)) d0j.symm
        dsimp only at g1 g2
        rw [sw] at g1
        linarith
  have mem : e ∈ edge.filter fun p => contains2D (hexagon x y R) p := by
    rw [List.mem_filter]
    exact ⟨he, C34_convex_inside _ _ (hex_convex x y Rpos) hin⟩
  have notc : ¬ e.isClose (hexAt (hexagon x y R) i 0) := by
    intro hcl'
    have := hcc e he _ (hexAt_mem x y R i 0) hcl'.1 hcl'.2.1
    have hn : cr (hexAt (hexagon x y R) i j - hexAt (hexagon x y R) i 0) (hexAt (hexagon x y R) i (j + 1) - hexAt (hexagon x y R) i 0) ≠ 0 := by
      rw [area]
      have : 0 < κ * (R ^ 2 * Real.sqrt 3) := by positivity
      linarith
    obtain ⟨h1, h2⟩ := hat
    rw [this] at h1 h2
    generalize hexAt (hexagon x y R) i j - hexAt (hexagon x y R) i 0 = u at *
    generalize hexAt (hexagon x y R) i (j + 1) - hexAt (hexagon x y R) i 0 = v at *
    have : A * cr u v = 0 := by
      unfold cr
      linear_combination v.x * h2 - v.y * h1
    rcases mul_eq_zero.mp this with h | h
    · exact hA.ne' h
    · exact hn h
  have far : 1 / 1000000 ≤ (A + B) * (2 * R) := by
    by_contra hcon
    push Not at hcon
    apply notc
    obtain ⟨h1, h2⟩ := hat
    simp only [Vec.sub_x, Vec.sub_y] at h1 h2
    obtain ⟨u1, u2⟩ := hexAt_far x y Rpos i j 0
    obtain ⟨v1, v2⟩ := hexAt_far x y Rpos i (j + 1) 0
    have bound : ∀ {a b : ℝ}, |a| ≤ 2 * R → |b| ≤ 2 * R → |A * a + B * b| < 1 / 1000000 := by
      intro a b ha hb
      refine lt_of_le_of_lt (abs_add_le _ _) (lt_of_le_of_lt ?_ hcon)
      rw [abs_mul, abs_mul, abs_of_pos hA, abs_of_nonneg hB]
      nlinarith [mul_le_mul_of_nonneg_left ha hA.le, mul_le_mul_of_nonneg_left hb hB]
    refine ⟨?_, ?_, ?_⟩
    · show |_| < _
      rw [h1]
      convert bound u1 v1 using 2
      ring
    · show |_| < _
      rw [h2]
      convert bound u2 v2 using 2
      ring
    · show |_| < _
      rw [ez, cz]; norm_num
  have S0 : 0 < A + B := by linarith
  obtain ⟨c, hc⟩ : ∃ c, c = hexAt (hexagon x y R) i 0 := ⟨_, rfl⟩
  obtain ⟨a, ha⟩ : ∃ a, a = hexAt (hexagon x y R) i j := ⟨_, rfl⟩
  obtain ⟨b, hb⟩ : ∃ b, b = hexAt (hexagon x y R) i (j + 1) := ⟨_, rfl⟩
  have fpe := fp e mem notc j hj
  rw [← hc, ← ha, ← hb] at fpe area hat
  rw [← hc] at cz
  clear fp hcc hin mem notc h hc0 hc ha hb
  obtain ⟨h1, h2⟩ := hat
  simp only [Vec.sub_x, Vec.sub_y] at h1 h2
  have hit : (⟨b, a⟩ : Segment).intersect2D ⟨c, e⟩ 1 = .ok (some (between2D c e (1 / (A + B)))) := by
    rw [C29_intersection]
    refine ⟨by norm_num, ?_, A / (A + B), 1 / (A + B), ?_, rfl, fun _ => ⟨by positivity, (div_le_one S0).mpr (by linarith)⟩, fun h => absurd h (by norm_num)⟩
    · dsimp only
      have e1 : (a.x - b.x) * (e.y - c.y) - (a.y - b.y) * (e.x - c.x) = (A + B) * cr (a - c) (b - c) := by
        rw [h1, h2]
        simp only [cr, Vec.sub_x, Vec.sub_y]
        ring
      rw [e1, area, abs_mul, abs_neg, abs_of_pos S0, abs_of_nonneg (by positivity)]
      have k1 : 1 ≤ Real.sqrt 3 := by rw [Real.one_le_sqrt]; norm_num
      have k2 : 17 / 10 ≤ Real.sqrt 3 := by
        rw [Real.le_sqrt'] <;> norm_num
      have g1 : 2 * R ≤ κ * (R ^ 2 * Real.sqrt 3) := by
        have g2 : 4 ≤ R * Real.sqrt 3 := by nlinarith
        have g3 : R * 4 ≤ R * (R * Real.sqrt 3) := mul_le_mul_of_nonneg_left g2 Rpos.le
        have g4 : 0 ≤ R * (R * Real.sqrt 3) := by positivity
        nlinarith
      have := mul_le_mul_of_nonneg_left g1 S0.le
      norm_num at far ⊢
      linarith
    · ext
      · simp only [between2D, h1]; field_simp; ring
      · simp only [between2D, h2]; field_simp; ring
      · rfl
  have := fpe _ hit
  have hpos : 0 < (e - c).magnitude := by
    unfold Vec.magnitude
    apply Real.sqrt_pos.mpr
    simp only [Vec.sub_x, Vec.sub_y, Vec.sub_z, ez, cz]
    by_contra h0
    push Not at h0
    have q1 : e.x - c.x = 0 := by nlinarith [mul_self_nonneg (e.x - c.x), mul_self_nonneg (e.y - c.y)]
    have q2 : e.y - c.y = 0 := by nlinarith [mul_self_nonneg (e.x - c.x), mul_self_nonneg (e.y - c.y)]
    have : A * cr (a - c) (b - c) = 0 := by
      simp only [cr, Vec.sub_x, Vec.sub_y]
      linear_combination (b.x - c.x) * h2 - (b.y - c.y) * h1 + (b.y - c.y) * q1 - (b.x - c.x) * q2
    rw [area] at this
    have : 0 < A * (κ * (R ^ 2 * Real.sqrt 3)) := by positivity
    linarith
  have e2 : (between2D c e (1 / (A + B)) - c).magnitude = (e - c).magnitude / (A + B) := by
    simp only [Vec.magnitude, between2D, Vec.sub_x, Vec.sub_y, Vec.sub_z, cz, ez]
    rw [show (c.x + 1 / (A + B) * (e.x - c.x) - c.x) * (c.x + 1 / (A + B) * (e.x - c.x) - c.x) +
      (c.y + 1 / (A + B) * (e.y - c.y) - c.y) * (c.y + 1 / (A + B) * (e.y - c.y) - c.y) + (0 - 0) * (0 - 0) =
      ((e.x - c.x) * (e.x - c.x) + (e.y - c.y) * (e.y - c.y) + (0 - 0) * (0 - 0)) / (A + B) ^ 2 by field_simp; ring,
      Real.sqrt_div' _ (by positivity), Real.sqrt_sq S0.le]
  rw [e2, div_div_eq_mul_div, mul_div_cancel_left₀ _ hpos.ne'] at this
  linarith

/-- **C86** (scaled cells) The inside of a hexagon scaled at a corner does not meet the border, and is inside of it. -/
theorem scaled_inside {cfg : HexCfg} {edge : List Vec} {x y f : ℝ} {i : ℕ} (hi : i < 6) (hcl : CleanBorder cfg edge)
    (hcc : CleanCell cfg edge x y) (hD : 5 ≤ cfg.maxDiameter) (f0 : 0 < f)
    (hc : contains2D edge ((hexagon x y (cfg.maxDiameter / 2)).getD i 0) = true)
    (h : hexFactor (hexagon x y (cfg.maxDiameter / 2)) (toSegments edge true)
      (edge.filter fun p => contains2D (hexagon x y (cfg.maxDiameter / 2)) p) i ((hexagon x y (cfg.maxDiameter / 2)).getD i 0) = .ok f)
    {p : Vec} (hp : Inside ((hexagon x y (cfg.maxDiameter / 2)).map fun v =>
      (v - (hexagon x y (cfg.maxDiameter / 2)).getD i 0) * f + (hexagon x y (cfg.maxDiameter / 2)).getD i 0) p) :
    contains2D edge p = true ∧ ¬ OnOutline edge p := by
  have Rpos : 0 < cfg.maxDiameter / 2 := by linarith
  have f1 := (hexFactor_ok h).1
  have cz : ((hexagon x y (cfg.maxDiameter / 2)).getD i 0).z = 0 := by rw [← hexAt_zero hi]; exact hexAt_flat ..
  have sides : ∀ s ∈ cycPairs edge, s.1.xy ≠ s.2.xy := by
    intro s hs e
    obtain ⟨m1, m2⟩ := Geo.mem_cycPairs hs
    apply hcl.sides s hs
    ext
    · exact (Vec.mk.inj e).1
    · exact (Vec.mk.inj e).2.1
    · rw [hcl.flat _ m1, hcl.flat _ m2]
  -- the border does not meet the inside
  have clear : ∀ {q : Vec}, Inside ((hexagon x y (cfg.maxDiameter / 2)).map fun v =>
      (v - (hexagon x y (cfg.maxDiameter / 2)).getD i 0) * f + (hexagon x y (cfg.maxDiameter / 2)).getD i 0) q →
      ∀ s ∈ cycPairs edge, ∀ t : ℝ, 0 ≤ t → t ≤ 1 → q.xy = between2D s.1 s.2 t → False := by
    intro q hq s hs t t0 t1 e
    obtain ⟨j, hj, A, B, hat, hA, hB, hAB, hB1⟩ := fan_find Rpos f0 hi hq
    obtain ⟨κ, hκ, area⟩ := fan_area x y (cfg.maxDiameter / 2) hi hj
    have κ0 : 0 < κ := by rcases hκ with rfl | rfl <;> norm_num
    have hat' : At ((hexagon x y (cfg.maxDiameter / 2)).getD i 0) (hexAt (hexagon x y (cfg.maxDiameter / 2)) i j - (hexagon x y (cfg.maxDiameter / 2)).getD i 0)
        (hexAt (hexagon x y (cfg.maxDiameter / 2)) i (j + 1) - (hexagon x y (cfg.maxDiameter / 2)).getD i 0) A B (between2D s.1 s.2 t) := by
      rw [← e]; exact hat
    have hj5 : j ∈ [1, 2, 3, 4, 5] ∧ j + 1 ∈ [1, 2, 3, 4, 5] := by
      simp only [List.mem_cons, List.not_mem_nil, or_false] at hj ⊢; omega
    refine fan_out (f := f) ?_ (sides s hs) t0 t1 hat' hA hB hAB ?_ ?_ ?_
    · rw [area]
      have : 0 < κ * ((cfg.maxDiameter / 2) ^ 2 * Real.sqrt 3) := by positivity
      linarith
    · intro v hv A' B' hv' hA' hB' hB0 hAB'
      have hve : v ∈ edge := by
        obtain ⟨m1, m2⟩ := Geo.mem_cycPairs hs
        rcases hv with rfl | rfl
        · exact m1
        · exact m2
      exact factor_point hi hcl hcc hD h hj hve hA' hB' hAB' (fun h => hB1 (hB0 h)) hv'
    · intro t' σ u0 u1 ht' σ0 σ1 hcr
      have := factor_spoke hi hcl h hj5.1 hs u0 u1 σ0 (by linarith) (by
        obtain ⟨e1, e2⟩ := ht'
        simp only [Vec.sub_x, Vec.sub_y] at e1 e2
        ext
        · rw [e1]; simp only [between2D]; ring
        · rw [e2]; simp only [between2D]; ring
        · rfl) hcr
      linarith
    · intro t' σ u0 u1 ht' σ0 σ1 hcr
      have := factor_spoke hi hcl h hj5.2 hs u0 u1 σ0 (by linarith) (by
        obtain ⟨e1, e2⟩ := ht'
        simp only [Vec.sub_x, Vec.sub_y] at e1 e2
        ext
        · rw [e1]; simp only [between2D]; ring
        · rw [e2]; simp only [between2D]; ring
        · rfl) hcr
      linarith
  refine ⟨?_, fun ⟨s, hs, t, t0, t1, e⟩ => clear hp s hs t t0 t1 e⟩
  rw [← hc]
  refine (C34_path ?_).symm
  rintro s hs ⟨τ, t, τ0, τ1, t0, t1, e⟩
  rcases eq_or_lt_of_le τ0 with rfl | τ0
  · -- the corner itself
    obtain ⟨κ, hκ, area⟩ := fan_area x y (cfg.maxDiameter / 2) hi (by simp : 1 ∈ [1, 2, 3, 4])
    have κ0 : 0 < κ := by rcases hκ with rfl | rfl <;> norm_num
    have hsp : ∀ j ∈ [1, 2, 3, 4, 5], cr (hexAt (hexagon x y (cfg.maxDiameter / 2)) i j - (hexagon x y (cfg.maxDiameter / 2)).getD i 0) (s.2 - s.1) = 0 := by
      intro j hj
      by_contra hcr
      have := factor_spoke (σ := 0) hi hcl h hj hs t0 t1 le_rfl zero_le_one (by
        rw [← e]
        ext <;> simp [between2D]) hcr
      linarith
    have p1 := hsp 1 (by simp)
    have p2 := hsp 2 (by simp)
    generalize hexAt (hexagon x y (cfg.maxDiameter / 2)) i 1 - (hexagon x y (cfg.maxDiameter / 2)).getD i 0 = u at *
    generalize hexAt (hexagon x y (cfg.maxDiameter / 2)) i (1 + 1) - (hexagon x y (cfg.maxDiameter / 2)).getD i 0 = v at *
    have hn : cr u v ≠ 0 := by
      rw [area]
      have : 0 < κ * ((cfg.maxDiameter / 2) ^ 2 * Real.sqrt 3) := by positivity
      linarith
    apply sides s hs
    have z1 : (s.2 - s.1).x * cr u v = 0 := by unfold cr at *; linear_combination v.x * p1 - u.x * p2
    have z2 : (s.2 - s.1).y * cr u v = 0 := by unfold cr at *; linear_combination v.y * p1 - u.y * p2
    have x1 := (mul_eq_zero.mp z1).resolve_right hn
    have x2 := (mul_eq_zero.mp z2).resolve_right hn
    simp only [Vec.sub_x, Vec.sub_y] at x1 x2
    ext
    · simp only [Vec.xy]; linarith
    · simp only [Vec.xy]; linarith
    · rfl
  · refine clear (q := between2D ((hexagon x y (cfg.maxDiameter / 2)).getD i 0) p τ) ?_ s hs t t0 t1 (by rw [← e]; rfl)
    have hcv := hex_scaled x y (cfg.maxDiameter / 2) f _ cz
    have hmem : (hexagon x y (cfg.maxDiameter / 2)).getD i 0 ∈ ((hexagon x y (cfg.maxDiameter / 2)).map fun v =>
      (v - (hexagon x y (cfg.maxDiameter / 2)).getD i 0) * f + (hexagon x y (cfg.maxDiameter / 2)).getD i 0) := by
      rw [List.mem_map]
      refine ⟨(hexagon x y (cfg.maxDiameter / 2)).getD i 0, ?_, ?_⟩
      · rw [← hexAt_zero hi]; exact hexAt_mem ..
      · ext <;> simp
    rw [hcv] at hp hmem ⊢
    intro s' hs'
    have g1 := hp s' hs'
    have g2 := convex_corner (hex_convex _ _ (by positivity)) hs' hmem
    have g3 : left s'.1 s'.2 (between2D ((hexagon x y (cfg.maxDiameter / 2)).getD i 0) p τ) =
        (1 - τ) * left s'.1 s'.2 ((hexagon x y (cfg.maxDiameter / 2)).getD i 0) + τ * left s'.1 s'.2 p := by
      simp only [left, between2D]; ring
    rw [g3]
    have := mul_nonneg (by linarith : 0 ≤ 1 - τ) g2
    have := mul_pos τ0 g1
    linarith

end Chrumm.Part
