import Verif.Props.Rings
import Verif.Part.Boss

/-! C78: heads and threads of bosses. -/

namespace Chrumm.Part
open Geo Geo.Spec Spec Classical

/-- Consecutive edges have good quads. -/
def ChainGood (k : Bool) : List (List Vec) → Prop
  | a :: b :: rest => (∀ i, GoodQuad (corner k a i) (corner k a (i + 1)) (corner k b (i + 1)) (corner k b i)) ∧ ChainGood k (b :: rest)
  | _ => True

/-- Consecutive edges have good quads, from the later to the earlier. -/
def ChainGoodUp (k : Bool) : List (List Vec) → Prop
  | a :: b :: rest => (∀ i, GoodQuad (corner k b i) (corner k b (i + 1)) (corner k a (i + 1)) (corner k a i)) ∧ ChainGoodUp k (b :: rest)
  | _ => True

theorem meshDown_sum {A : Type} [AddCommGroup A] {g : Vec → Vec → A} (hg : Anti g) : ∀ (arcs : List (List Vec)) (ts : List (Tri Vec))
    (hn : arcs ≠ []), (∀ a ∈ arcs, a ≠ []) → ChainGood true arcs → meshDown true arcs = .ok ts →
    esum g (meshEdges ts) = esum g (cycPairs (arcs.head hn)) - esum g (cycPairs (arcs.getLast hn))
  | [], _, hn, _, _, _ => absurd rfl hn
  | [a], ts, _, _, _, h => by
    cases h
    simp [meshEdges]
  | a :: b :: rest, ts, _, ha, hc, h => by
    unfold meshDown at h
    obtain ⟨t, h1, h⟩ := bind_ok h
    obtain ⟨ts', h2, h⟩ := bind_ok h
    cases h
    have ih := meshDown_sum hg (b :: rest) ts' (by simp) (fun x hx => ha x (by simp [hx])) hc.2 h2
    rw [meshEdges_append, esum_append, ih, closed_strip_sum (ha a (by simp)) (ha b (by simp)) h1 hc.1 hg]
    simp only [List.head_cons, List.getLast_cons_cons]
    abel

theorem meshUp_sum {A : Type} [AddCommGroup A] {g : Vec → Vec → A} (hg : Anti g) : ∀ (arcs : List (List Vec)) (ts : List (Tri Vec))
    (hn : arcs ≠ []), (∀ a ∈ arcs, a ≠ []) → ChainGoodUp true arcs → meshUp true arcs = .ok ts →
    esum g (meshEdges ts) = esum g (cycPairs (arcs.getLast hn)) - esum g (cycPairs (arcs.head hn))
  | [], _, hn, _, _, _ => absurd rfl hn
  | [a], ts, _, _, _, h => by
    cases h
    simp [meshEdges]
  | a :: b :: rest, ts, _, ha, hc, h => by
    unfold meshUp at h
    obtain ⟨t, h1, h⟩ := bind_ok h
    obtain ⟨ts', h2, h⟩ := bind_ok h
    cases h
    have ih := meshUp_sum hg (b :: rest) ts' (by simp) (fun x hx => ha x (by simp [hx])) hc.2 h2
    rw [meshEdges_append, esum_append, ih, closed_strip_sum (ha b (by simp)) (ha a (by simp)) h1 hc.1 hg]
    simp only [List.head_cons, List.getLast_cons_cons]
    abel

/-- Neighbours in a ring. -/
theorem ring_pairs {c : Vec} {r z α θ : ℝ} {n : ℕ} (hn : 0 < n) (hnθ : n * θ = 2 * Real.pi) {s : Vec × Vec}
    (hs : s ∈ cycPairs ((List.range n).map fun i : ℕ => ringPoint c r z (α + i * θ))) :
    ∃ φ, s = (ringPoint c r z φ, ringPoint c r z (φ + θ)) := by
  unfold cycPairs at hs
  obtain ⟨i, hi⟩ := List.mem_iff_getElem?.mp hs
  rw [List.getElem?_zip_eq_some] at hi
  have hin : i < n := by
    have := List.getElem?_eq_some_iff.mp hi.1
    obtain ⟨h, -⟩ := this
    simpa using h
  obtain ⟨e1, e2⟩ := hi
  rw [List.getElem?_map, List.getElem?_range hin] at e1
  rw [List.getElem?_rotate (by simpa using hin), List.getElem?_map, List.length_map, List.length_range,
    List.getElem?_range (Nat.mod_lt _ hn)] at e2
  simp only [Option.map_some, Option.some.injEq] at e1 e2
  have e3 : ringPoint c r z (α + ((i + 1) % n : ℕ) * θ) = ringPoint c r z ((α + i * θ) + θ) := by
    rcases Nat.lt_or_ge (i + 1) n with hlt | hge
    · rw [Nat.mod_eq_of_lt hlt]; congr 1; push_cast; ring
    · have : i + 1 = n := by omega
      rw [this, Nat.mod_self]
      have := ringPoint_period c r z α 1
      simp only [Int.cast_one, one_mul] at this
      have e4 : (α + i * θ) + θ = α + 2 * Real.pi := by
        rw [← hnθ]
        have : (i : ℝ) + 1 = n := by exact_mod_cast ‹i + 1 = n›
        rw [← this]; ring
      rw [e4, this]; simp
  refine ⟨α + i * θ, Prod.ext e1.symm ?_⟩
  rw [← e3]; exact e2.symm

theorem ring_left (c : Vec) (r z φ θ : ℝ) : left (ringPoint c r z φ) (ringPoint c r z (φ + θ)) c = r ^ 2 * Real.sin θ := by
  have e5 : Real.sin θ = Real.sin (φ + θ) * Real.cos φ - Real.cos (φ + θ) * Real.sin φ := by
    rw [← Real.sin_sub]; congr 1; ring
  simp only [left, ringPoint, e5]
  ring

theorem ring_dist (c : Vec) (r z φ : ℝ) : distSq2D c (ringPoint c r z φ) = r ^ 2 := by
  simp only [distSq2D, ringPoint]
  linear_combination r ^ 2 * Real.sin_sq_add_cos_sq φ

theorem profile_ring (pos : Vec) (r f scale z α θ : ℝ) (hf : r * f = 1) (m : ℕ) :
    profileRing (edgeScaled ((List.range m).map fun i : ℕ => ringPoint 0 r 0 (α + i * θ)) f) pos scale z =
      (List.range m).map fun i : ℕ => ringPoint pos scale z (α + i * θ) := by
  unfold profileRing edgeTranslated edgeScaled
  rw [List.map_map, List.map_map, List.map_map]
  apply List.map_congr_left
  intro i _
  ext
  · simp only [ringPoint, Function.comp, Vec.add_x, Vec.mul_x, Vec.sub_x, Vec.zero_x]
    linear_combination scale * Real.cos (α + i * θ) * hf
  · simp only [ringPoint, Function.comp, Vec.add_y, Vec.mul_y, Vec.sub_y, Vec.zero_y]
    linear_combination scale * Real.sin (α + i * θ) * hf
  · simp only [ringPoint, Function.comp, Vec.add_z, Vec.mul_z, Vec.sub_z, Vec.zero_z]
    ring

/-- C78. The head of a boss closes the gap between the clearance hole on the top of the floor and the hole for the
screw's head on its underside, around the boss position. -/
theorem C78_head (q : Quality) (outerHeight : ℝ) (cfg : BossCfg) (pos : Vec) (clearanceHole headHole : List Vec)
    (triangles : List (Tri Vec)) (hq : SaneQuality q) (hc : SaneHead outerHeight cfg)
    (h : bossHead q outerHeight cfg pos = .ok (clearanceHole, headHole, triangles)) :
    Closes triangles (cycPairs clearanceHole ++ cycPairs headHole) ∧
    (∀ p ∈ clearanceHole, distSq2D pos p = (cfg.clearanceHoleDiameter / 2) ^ 2 ∧ p.z = 0) ∧
    (∀ s ∈ cycPairs clearanceHole.reverse, 0 < left s.1 s.2 pos) ∧
    (∀ p ∈ headHole, distSq2D pos p = (min (cfg.countersinkDiameter / 2)
      (cfg.clearanceHoleDiameter / 2 + (outerHeight - cfg.clearanceHoleLength))) ^ 2 ∧ p.z = -outerHeight) ∧
    (∀ s ∈ cycPairs headHole, 0 < left s.1 s.2 pos) := by
  unfold bossHead at h
  dsimp only at h
  obtain ⟨arc, h1, h⟩ := bind_ok h
  obtain ⟨f, h2, h⟩ := bind_ok h
  obtain ⟨ts, h3, h⟩ := bind_ok h
  cases h
  obtain ⟨hr0, rfl⟩ := pyDiv_val h2
  obtain ⟨hcl, hlen, hwide, hdeep, hrest⟩ := hc
  dsimp only at hrest
  set cR := cfg.clearanceHoleDiameter / 2 with hcR
  set cL := cfg.clearanceHoleLength with hcL
  set sR := cfg.countersinkDiameter / 2 with hsR
  obtain ⟨n, θ, hn, hnθ, hθ0, hθ1, hs1, hs0, hs3, rfl⟩ := full_circle hq (by linarith) h1
  have hf : cR * (1 / cR) = 1 := mul_one_div_cancel hr0
  simp only [profile_ring _ _ _ _ _ _ _ hf] at h3 ⊢
  obtain ⟨k, hk0, ek1, ek2⟩ : ∃ k : ℝ, (k = 0 ∨ 1 / 1000 ≤ k) ∧ min sR (cR + (outerHeight - cL)) = cR + k ∧
      min outerHeight (cL + (sR - cR)) = cL + k := by
    refine ⟨min (sR - cR) (outerHeight - cL), ?_, ?_, ?_⟩
    · rcases min_choice (sR - cR) (outerHeight - cL) with e | e <;> rw [e]
      · rcases hwide with h | h
        · left; rw [hsR, hcR, h]; ring
        · right; rw [hsR, hcR]; linarith
      · rcases hdeep with h | h
        · left; rw [h]; ring
        · right; linarith
    · rw [← min_add_add_left]; congr 1; ring
    · rw [← min_add_add_left, min_comm]; congr 1; ring
  have hk3 : outerHeight = cL + k ∨ 1 / 1000 ≤ outerHeight - (cL + k) := by
    have : sR - cR = (cfg.countersinkDiameter - cfg.clearanceHoleDiameter) / 2 := by rw [hsR, hcR]; ring
    rw [← this] at hrest
    rcases hrest with h | h
    · left; rw [← ek2, min_eq_left h]
    · right; rw [← ek2, min_eq_right (by linarith)]; linarith
  rw [ek1] at h3 ⊢
  rw [ek2] at h3
  have hkn : 0 ≤ k := by rcases hk0 with h | h <;> linarith
  have hk := cos_half_sq hθ0 hθ1
  have a1 : 7 / 1000 ≤ |cR * Real.sin (θ / 2)| := hs1.trans (le_abs_self _)
  have a2 : 7 / 1000 ≤ |(cR + k) * Real.sin (θ / 2)| := by
    refine le_trans ?_ (le_abs_self _)
    nlinarith
  have hsin : 0 < Real.sin θ := Real.sin_pos_of_pos_of_lt_pi hθ0 (by linarith [Real.pi_pos])
  have hp1 : 0 < cR ^ 2 * Real.sin θ := by positivity
  have hp2 : 0 < (cR + k) ^ 2 * Real.sin θ := by
    have : 0 < cR + k := by linarith
    positivity
  have hne : ∀ r z : ℝ, ((List.range n).map fun i : ℕ => ringPoint pos r z (0 + i * θ)) ≠ [] := fun r z => ring_ne_nil hn
  refine ⟨?_, ?_, ?_, ?_, ?_⟩
  · unfold Closes
    rw [sameChain_iff]
    intro g hg
    rw [esum_append, esum_append, esum_cyc_reverse hg, esum_nil,
      meshDown_sum hg _ triangles (by simp) ?_ ?_ h3]
    · simp only [List.head_cons, List.getLast_cons_cons, List.getLast_singleton]
      abel
    · intro a ha
      simp only [List.mem_cons, List.not_mem_nil, or_false] at ha
      rcases ha with rfl | rfl | rfl | rfl <;> exact hne _ _
    · refine ⟨rings_good pos _ _ _ _ 0 θ n hn hnθ hk a1 a1 ?_, rings_good pos _ _ _ _ 0 θ n hn hnθ hk a1 a2 ?_,
        rings_good pos _ _ _ _ 0 θ n hn hnθ hk a2 a2 ?_, trivial⟩
      · rcases hlen with h | h
        · left; exact ⟨rfl, by rw [h]; ring⟩
        · right; left; rw [show -cL - 0 = -cL by ring, abs_neg]; exact h.trans (le_abs_self _)
      · rcases hk0 with h | h
        · left; rw [h]; exact ⟨by ring, by ring⟩
        · right; right; rw [show cR + k - cR = k by ring]; exact h.trans (le_abs_self _)
      · rcases hk3 with h | h
        · left; exact ⟨rfl, by rw [h]⟩
        · right; left
          rw [show -outerHeight - -(cL + k) = -(outerHeight - (cL + k)) by ring, abs_neg]; exact h.trans (le_abs_self _)
  · intro p hp
    rw [List.mem_reverse] at hp
    obtain ⟨i, -, rfl⟩ := List.mem_map.mp hp
    exact ⟨ring_dist _ _ _ _, rfl⟩
  · intro s hs
    rw [List.reverse_reverse] at hs
    obtain ⟨φ, rfl⟩ := ring_pairs hn hnθ hs
    rw [ring_left]; exact hp1
  · intro p hp
    obtain ⟨i, -, rfl⟩ := List.mem_map.mp hp
    exact ⟨ring_dist _ _ _ _, rfl⟩
  · intro s hs
    obtain ⟨φ, rfl⟩ := ring_pairs hn hnθ hs
    rw [ring_left]; exact hp2

end Chrumm.Part
