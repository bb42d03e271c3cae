import Verif.Props.BossMesh
import Verif.Spec.Plan

/-! C78: threads of bosses. -/

namespace Chrumm.Part
open Geo Geo.Spec Spec Classical

/-- The points of an arc that is not closed. -/
theorem open_arc {q : Quality} {radius start span : ℝ} {center : Vec} {pts : List Vec} (hq : SaneQuality q)
    (hr : 1 / 2 ≤ radius) (h1 : Real.pi / 2 ≤ span) (h2 : span + 1 / 1000 ≤ 2 * Real.pi)
    (h : arc2D q radius start span center = .ok pts) :
    ∃ n : ℕ, ∃ θ : ℝ, 0 < n ∧ n * θ = span ∧ 0 < θ ∧ θ ≤ Real.pi / 2 ∧
      7 / 1000 ≤ radius * Real.sin (θ / 2) ∧ 0 < Real.sin (θ / 2) ∧ 1e-6 ≤ 2 * radius ^ 2 * Real.sin (θ / 2) ^ 3 ∧
      pts = (List.range (n + 1)).map fun i : ℕ => ringPoint center radius 0 (start + i * θ) := by
  obtain ⟨d⟩ := arc2D_data (by linarith) (by linarith [hq.angle]) h
  have hnR : (0 : ℝ) < d.n := by exact_mod_cast d.n_pos
  have hpi := Real.pi_pos
  have hsp : 0 < span := by linarith
  have hc : clampSpan span = span := clampSpan_eq (by rw [abs_of_pos hsp]; unfold tau; linarith)
  have hs := step_ge hq hr d (by rw [hc, abs_of_pos hsp]; linarith)
  have hp := d.pts_eq
  rw [hc, if_pos (by rw [abs_of_pos hsp, abs_sub_comm, abs_of_pos (by unfold tau; linarith)]; unfold tau; linarith)] at hp
  rw [hc, abs_of_pos (div_pos hsp hnR)] at hs
  exact ⟨d.n, span / d.n, d.n_pos, mul_div_cancel₀ _ hnR.ne', hs.1, hs.2.1, hs.2.2.1, hs.2.2.2.1, hs.2.2.2.2, hp⟩

theorem path_range {f : ℕ → Vec} {n : ℕ} {s : Vec × Vec} (hs : s ∈ pathPairs ((List.range (n + 1)).map f)) :
    ∃ i, i < n ∧ s = (f i, f (i + 1)) := by
  unfold pathPairs at hs
  obtain ⟨i, hi⟩ := List.mem_iff_getElem?.mp hs
  rw [List.getElem?_zip_eq_some] at hi
  obtain ⟨e1, e2⟩ := hi
  rw [List.getElem?_tail, List.getElem?_map] at e2
  have hin : i + 1 < n + 1 := by
    by_contra hcon
    rw [List.getElem?_eq_none (by simpa using hcon)] at e2
    cases e2
  rw [List.getElem?_range hin] at e2
  rw [List.getElem?_map, List.getElem?_range (by omega)] at e1
  simp only [Option.map_some, Option.some.injEq] at e1 e2
  exact ⟨i, by omega, Prod.ext e1.symm e2.symm⟩

/-- What the meshes of a thread need to know about the outline of an upright hole. -/
structure HoleShape (r : ℝ) (hole : List Vec) : Prop where
  ne : hole ≠ []
  flat : ∀ p ∈ hole, p.z = 0
  near : ∀ p ∈ hole, p.x ^ 2 + p.y ^ 2 ≤ 2 * r ^ 2
  chord : ∀ s ∈ cycPairs hole, (1 / 100 : ℝ) ^ 2 ≤ distSq2D s.1 s.2
  wind : ∀ s ∈ cycPairs hole, 1 / 1000 ≤ s.1.x * s.2.y - s.1.y * s.2.x

theorem ring_chord (c : Vec) (r z φ θ : ℝ) : distSq2D (ringPoint c r z φ) (ringPoint c r z (φ + θ)) =
    (2 * (r * Real.sin (θ / 2))) ^ 2 := by
  have := chord_sq φ θ
  simp only [distSq2D, ringPoint]
  linear_combination r ^ 2 * this

theorem ring_wind (r z φ θ : ℝ) : (ringPoint 0 r z φ).x * (ringPoint 0 r z (φ + θ)).y -
    (ringPoint 0 r z φ).y * (ringPoint 0 r z (φ + θ)).x = r ^ 2 * Real.sin θ := by
  have e5 : Real.sin θ = Real.sin (φ + θ) * Real.cos φ - Real.cos (φ + θ) * Real.sin φ := by
    rw [← Real.sin_sub]; congr 1; ring
  simp only [ringPoint, e5, Vec.zero_x, Vec.zero_y]
  ring

theorem step_facts {r θ : ℝ} (hr : 1 / 2 ≤ r) (h0 : 0 < θ) (h1 : θ ≤ Real.pi / 2)
    (hs : 7 / 1000 ≤ r * Real.sin (θ / 2)) :
    (1 / 100 : ℝ) ^ 2 ≤ (2 * (r * Real.sin (θ / 2))) ^ 2 ∧ 1 / 1000 ≤ r ^ 2 * Real.sin θ := by
  constructor
  · nlinarith
  · have hc := cos_half_sq h0 h1
    have hc0 : 0 < Real.cos (θ / 2) := Real.cos_pos_of_mem_Ioo ⟨by linarith [Real.pi_pos], by linarith [Real.pi_pos]⟩
    have hc1 := Real.cos_le_one (θ / 2)
    have hc2 : 1 / 2 ≤ Real.cos (θ / 2) := by nlinarith
    have e : Real.sin θ = 2 * Real.sin (θ / 2) * Real.cos (θ / 2) := by rw [← Real.sin_two_mul]; congr 1; ring
    have : r ^ 2 * Real.sin θ = 2 * (r * Real.sin (θ / 2)) * (r * Real.cos (θ / 2)) := by rw [e]; ring
    rw [this]
    have h3 : 1 / 4 ≤ r * Real.cos (θ / 2) := by nlinarith
    nlinarith

theorem circle_shape {q : Quality} {radius : ℝ} {pts : List Vec} (hq : SaneQuality q)
    (hr : 1 / 2 ≤ radius) (h : arc2D q radius 0 tau 0 = .ok pts) : HoleShape radius pts := by
  obtain ⟨n, θ, hn, hnθ, hθ0, hθ1, hs1, hs0, hs3, rfl⟩ := full_circle hq hr h
  obtain ⟨f1, f2⟩ := step_facts hr hθ0 hθ1 hs1
  refine ⟨ring_ne_nil hn, ?_, ?_, ?_, ?_⟩
  · intro p hp
    obtain ⟨i, -, rfl⟩ := List.mem_map.mp hp
    rfl
  · intro p hp
    obtain ⟨i, -, rfl⟩ := List.mem_map.mp hp
    have := ring_dist 0 radius 0 (0 + i * θ)
    simp only [distSq2D, Vec.zero_x, Vec.zero_y] at this
    nlinarith
  · intro s hs
    obtain ⟨φ, rfl⟩ := ring_pairs hn hnθ hs
    rw [ring_chord]; exact f1
  · intro s hs
    obtain ⟨φ, rfl⟩ := ring_pairs hn hnθ hs
    rw [ring_wind]; exact f2

theorem top_algebra {s c t r : ℝ} (hsc : s ^ 2 + c ^ 2 = 1) (hct : c * t = s) :
    (-(r * t) - -(r * (2 * s * c))) ^ 2 + (r - r * (1 - 2 * s ^ 2)) ^ 2 = (r * t) ^ 2 ∧
    -(r * t) * (r * (1 - 2 * s ^ 2)) + r * (r * (2 * s * c)) = r ^ 2 * t := by
  subst hct
  constructor
  · linear_combination (4 * r ^ 2 * c ^ 2 * t ^ 2) * hsc
  · linear_combination (2 * r ^ 2 * t) * hsc

theorem hole_shape {q : Quality} {radius : ℝ} {taper : Option ℝ} {pts : List Vec} (hq : SaneQuality q)
    (hr : 1 / 2 ≤ radius) (ht : ∀ a ∈ taper, a ≤ 0 ∨ 1 / 10 ≤ a ∧ a ≤ Real.pi / 2)
    (h : uprightHole2D q taper radius = .ok pts) : HoleShape radius pts := by
  have hpi := Real.pi_pos
  have hpi3 := Real.pi_gt_three
  rcases taper with _ | a
  · exact circle_shape hq hr h
  · rcases ht a rfl with ha | ⟨ha1, ha2⟩
    · unfold uprightHole2D at h
      dsimp only at h
      rw [if_neg (by linarith)] at h
      exact circle_shape hq hr h
    · unfold uprightHole2D at h
      dsimp only at h
      rw [if_pos (by linarith)] at h
      obtain ⟨arc, h1, h⟩ := bind_ok h
      obtain ⟨t', h2, h⟩ := bind_ok h
      cases h
      obtain ⟨hc, e⟩ := pyDiv_val h2
      obtain ⟨n, θ, hn, hnθ, hθ0, hθ1, hs1, hs0, hs3, rfl⟩ := open_arc hq hr (by unfold tau; linarith) (by unfold tau; linarith) h1
      obtain ⟨f1, f2⟩ := step_facts hr hθ0 hθ1 hs1
      clear h1 h2
      set s := Real.sin (a / 2) with hs
      set c := Real.cos (a / 2) with hcc
      have hsc : s ^ 2 + c ^ 2 = 1 := Real.sin_sq_add_cos_sq _
      have hc0 : 0 < c := Real.cos_pos_of_mem_Ioo ⟨by linarith, by linarith⟩
      have hs0' : 0 < s := Real.sin_pos_of_pos_of_lt_pi (by linarith) (by linarith)
      set t := s / c with htdef
      have ht0 : 1 / 20 ≤ t := by
        have : a / 2 < Real.tan (a / 2) := Real.lt_tan (by linarith) (by linarith)
        rw [Real.tan_eq_sin_div_cos] at this
        change _ < t at this
        linarith
      have hct : c * t = s := by rw [htdef]; field_simp
      have ht1 : t ≤ 1 := by
        rw [htdef, div_le_one hc0]
        have h1 : s ≤ Real.sin (Real.pi / 4) := Real.sin_le_sin_of_le_of_le_pi_div_two (by linarith) (by linarith) (by linarith)
        have h2 : Real.cos (Real.pi / 4) ≤ c := Real.cos_le_cos_of_nonneg_of_le_pi (by linarith) (by linarith) (by linarith)
        rw [Real.sin_pi_div_four] at h1
        rw [Real.cos_pi_div_four] at h2
        linarith
      have e' : t' = -(radius * t) := by rw [e, htdef]; ring
      subst e'
      have hsa : Real.sin a = 2 * s * c := by rw [hs, hcc, ← Real.sin_two_mul]; congr 1; ring
      have hca : Real.cos a = 1 - 2 * s ^ 2 := by
        have := Real.cos_two_mul (a / 2)
        rw [show 2 * (a / 2) = a by ring] at this
        rw [this, ← hcc]; linarith
      set f : ℕ → Vec := fun i : ℕ => ringPoint 0 radius 0 (tau / 4 + a + i * θ) with hf
      have ef0 : f 0 = ⟨-(radius * Real.sin a), radius * Real.cos a, 0⟩ := by
        rw [hf]
        simp only [ringPoint, Nat.cast_zero, zero_mul, add_zero, Vec.zero_x, Vec.zero_y, zero_add]
        have : tau / 4 + a = a + Real.pi / 2 := by unfold tau; ring
        rw [this, Real.cos_add_pi_div_two, Real.sin_add_pi_div_two]
        ext <;> simp
      have efn : f n = ⟨radius * Real.sin a, radius * Real.cos a, 0⟩ := by
        rw [hf]
        simp only [ringPoint, Vec.zero_x, Vec.zero_y, zero_add]
        have : tau / 4 + a + n * θ = (Real.pi / 2 - a) + 2 * Real.pi := by rw [hnθ]; unfold tau; ring
        rw [this, Real.cos_add_two_pi, Real.sin_add_two_pi, Real.cos_pi_div_two_sub, Real.sin_pi_div_two_sub]
      have hrt : 1 / 40 ≤ radius * t := by nlinarith
      have hrt2 : 1 / 80 ≤ radius ^ 2 * t := by nlinarith
      have hmem : ∀ p ∈ ((⟨-(radius * t), radius, 0⟩ : Vec) :: (List.range (n + 1)).map f ++ [Vec.mirroredX ⟨-(radius * t), radius, 0⟩]),
          p = ⟨-(radius * t), radius, 0⟩ ∨ (∃ i, p = f i) ∨ p = ⟨radius * t, radius, 0⟩ := by
        intro p hp
        rw [List.cons_append, List.mem_cons, List.mem_append, List.mem_singleton] at hp
        rcases hp with h | h | h
        · exact Or.inl h
        · obtain ⟨i, -, rfl⟩ := List.mem_map.mp h
          exact Or.inr (Or.inl ⟨i, rfl⟩)
        · refine Or.inr (Or.inr ?_)
          rw [h]; simp [Vec.mirroredX]
      have hpairs : ∀ p ∈ cycPairs ((⟨-(radius * t), radius, 0⟩ : Vec) :: (List.range (n + 1)).map f ++ [Vec.mirroredX ⟨-(radius * t), radius, 0⟩]),
          p = (⟨-(radius * t), radius, 0⟩, f 0) ∨ (∃ i, p = (f i, f (i + 1))) ∨ p = (f n, ⟨radius * t, radius, 0⟩) ∨
          p = (⟨radius * t, radius, 0⟩, ⟨-(radius * t), radius, 0⟩) := by
        have em : Vec.mirroredX ⟨-(radius * t), radius, 0⟩ = ⟨radius * t, radius, 0⟩ := by simp [Vec.mirroredX]
        rw [em]
        generalize (⟨-(radius * t), radius, 0⟩ : Vec) = top
        generalize (⟨radius * t, radius, 0⟩ : Vec) = top'
        intro p hp
        rw [List.cons_append, cycPairs_cons] at hp
        have e1 : (List.range (n + 1)).map f = f 0 :: ((List.range n).map fun i => f (i + 1)) := by
          rw [List.range_succ_eq_map, List.map_cons, List.map_map]; rfl
        have key : ∀ (l : List Vec) (x y : Vec) (p : Vec × Vec), p ∈ pathPairs (l ++ [x] ++ [y]) → p ∈ pathPairs (l ++ [x]) ∨ p = (x, y) := by
          intro l
          induction l with
          | nil =>
            intro x y p hp
            right
            simpa [pathPairs] using hp
          | cons a l ih =>
            intro x y p hp
            rcases l with _ | ⟨b, l⟩
            · simp only [pathPairs, List.nil_append, List.cons_append, List.tail_cons, List.zip_cons_cons, List.zip_nil_right,
                List.mem_cons, List.not_mem_nil, or_false] at hp ⊢
              exact hp
            · have := ih x y p
              simp only [pathPairs, List.cons_append, List.tail_cons, List.zip_cons_cons, List.mem_cons] at hp this ⊢
              rcases hp with h | h
              · exact Or.inl (Or.inl h)
              · rcases this h with h | h
                · exact Or.inl (Or.inr h)
                · exact Or.inr h
        have e2 : (List.range (n + 1)).map f = (List.range n).map f ++ [f n] := by
          rw [List.range_succ, List.map_append]; rfl
        have hp' : p ∈ pathPairs ((top :: (List.range (n + 1)).map f) ++ [top'] ++ [top]) := by
          simpa using hp
        rcases key _ _ _ _ hp' with h | h
        · rw [e2, ← List.cons_append] at h
          rcases key _ _ _ _ h with h | h
          · rw [List.cons_append, ← e2, e1] at h
            have h' : p = (top, f 0) ∨ p ∈ pathPairs (f 0 :: ((List.range n).map fun i => f (i + 1))) := by
              simp only [pathPairs, List.tail_cons, List.zip_cons_cons, List.mem_cons] at h ⊢
              exact h
            rcases h' with h | h
            · exact Or.inl h
            · rw [← e1] at h
              obtain ⟨i, -, rfl⟩ := path_range h
              exact Or.inr (Or.inl ⟨i, rfl⟩)
          · exact Or.inr (Or.inr (Or.inl h))
        · exact Or.inr (Or.inr (Or.inr h))
      have hfs : ∀ i, f (i + 1) = ringPoint 0 radius 0 ((tau / 4 + a + i * θ) + θ) := by
        intro i
        rw [hf]
        dsimp only
        congr 1
        push_cast; ring
      refine ⟨by simp, ?_, ?_, ?_, ?_⟩
      · intro p hp
        rcases hmem p hp with rfl | ⟨i, rfl⟩ | rfl <;> rfl
      · intro p hp
        rcases hmem p hp with rfl | ⟨i, rfl⟩ | rfl
        · dsimp only; nlinarith [mul_nonneg (sq_nonneg radius) (sub_nonneg.mpr ht1)]
        · have := ring_dist 0 radius 0 (tau / 4 + a + i * θ)
          simp only [distSq2D, Vec.zero_x, Vec.zero_y] at this
          simp only [hf]
          nlinarith
        · dsimp only; nlinarith [mul_nonneg (sq_nonneg radius) (sub_nonneg.mpr ht1)]
      · intro p hp
        have hk : (-(radius * t) - -(radius * Real.sin a)) ^ 2 + (radius - radius * Real.cos a) ^ 2 = (radius * t) ^ 2 := by
          rw [hsa, hca]
          exact (top_algebra hsc hct).1
        have hsq : (1 / 100 : ℝ) ^ 2 ≤ (radius * t) ^ 2 := pow_le_pow_left₀ (by norm_num) (by linarith) 2
        clear_value t s c
        rcases hpairs p hp with rfl | ⟨i, rfl⟩ | rfl | rfl
        · rw [ef0]; refine hsq.trans (le_of_eq ?_); rw [← hk]; simp only [distSq2D]
        · rw [hfs]; simp only [hf]; rw [ring_chord]; exact f1
        · rw [efn]; refine hsq.trans (le_of_eq ?_); rw [← hk]; simp only [distSq2D]; ring
        · refine hsq.trans ?_; simp only [distSq2D]
          have e0 : (-(radius * t) - radius * t) ^ 2 + (radius - radius) ^ 2 = 4 * (radius * t) ^ 2 := by ring
          first | rw [e0] | skip
          linarith [sq_nonneg (radius * t)]
      · intro p hp
        have hk : -(radius * t) * (radius * Real.cos a) + radius * (radius * Real.sin a) = radius ^ 2 * t := by
          rw [hsa, hca]
          exact (top_algebra hsc hct).2
        clear_value t s c
        rcases hpairs p hp with rfl | ⟨i, rfl⟩ | rfl | rfl
        · rw [ef0]; dsimp only; linarith
        · rw [hfs]; simp only [hf]; rw [ring_wind]; exact f2
        · rw [efn]; dsimp only; linarith
        · dsimp only
          have e0 : radius * t * radius - radius * -(radius * t) = 2 * (radius ^ 2 * t) := by ring
          rw [e0]; linarith


/-- The place of a point of the sketch in the ring of the given size and height. -/
noncomputable def ringMap (pos : Vec) (β r scale z : ℝ) (p : Vec) : Vec :=
  ⟨pos.x + scale / r * (p.x * Real.cos β - p.y * Real.sin β), pos.y + scale / r * (p.x * Real.sin β + p.y * Real.cos β), z⟩

theorem profile_map {hole : List Vec} {r : ℝ} (hs : HoleShape r hole) (pos : Vec) (β scale z : ℝ) :
    profileRing (edgeTransformed (edgeScaled hole (1 / r)) ((1 : Mat).rotatedZ β)) pos scale z =
      hole.map (ringMap pos β r scale z) := by
  unfold profileRing edgeTranslated edgeScaled edgeTransformed
  rw [List.map_map, List.map_map, List.map_map]
  apply List.map_congr_left
  intro p hp
  have hz := hs.flat p hp
  simp only [Function.comp, rotZ_transformed, ringMap]
  ext
  · simp only [Vec.add_x, Vec.mul_x, Vec.sub_x, Vec.zero_x, Vec.add_y, Vec.mul_y, Vec.sub_y, Vec.zero_y]; ring
  · simp only [Vec.add_x, Vec.mul_x, Vec.sub_x, Vec.zero_x, Vec.add_y, Vec.mul_y, Vec.sub_y, Vec.zero_y]; ring
  · simp only [Vec.add_z, Vec.mul_z, Vec.sub_z, Vec.zero_z, hz]; ring

theorem ringMap_dist (pos : Vec) (β r scale z z' : ℝ) (p p' : Vec) :
    distSq2D (ringMap pos β r scale z p) (ringMap pos β r scale z' p') = (scale / r) ^ 2 * distSq2D p p' := by
  simp only [distSq2D, ringMap]
  linear_combination (scale / r) ^ 2 * ((p'.x - p.x) ^ 2 + (p'.y - p.y) ^ 2) * Real.sin_sq_add_cos_sq β

theorem ringMap_wind (pos : Vec) (β r scale z z' : ℝ) (p p' : Vec) :
    ((ringMap pos β r scale z p).x - pos.x) * ((ringMap pos β r scale z' p').y - pos.y) -
      ((ringMap pos β r scale z p).y - pos.y) * ((ringMap pos β r scale z' p').x - pos.x) =
      (scale / r) ^ 2 * (p.x * p'.y - p.y * p'.x) := by
  simp only [ringMap]
  linear_combination (scale / r) ^ 2 * (p.x * p'.y - p.y * p'.x) * Real.sin_sq_add_cos_sq β

theorem ringMap_far (pos : Vec) (β r scale z : ℝ) (p : Vec) :
    ((ringMap pos β r scale z p).x - pos.x) ^ 2 + ((ringMap pos β r scale z p).y - pos.y) ^ 2 =
      (scale / r) ^ 2 * (p.x ^ 2 + p.y ^ 2) := by
  simp only [ringMap]
  linear_combination (scale / r) ^ 2 * (p.x ^ 2 + p.y ^ 2) * Real.sin_sq_add_cos_sq β

/-- The tip of a thread: the heights of the points of the wall. -/
structure TipAt (cfg : BossCfg) (pos : Vec) (tip : Plane) (tipZ : ℝ) : Prop where
  pos_eq : tip.pos = ⟨pos.x, pos.y, tipZ⟩
  project : ∀ v w : Vec, tip.projectZ v = .ok w → tip.normal.z ≠ 0 ∧
    w = ⟨v.x, v.y, tipZ + (tip.normal.x * (pos.x - v.x) + tip.normal.y * (pos.y - v.y)) / tip.normal.z⟩

theorem tipAt_make {cfg : BossCfg} {pos n : Vec} {tipZ : ℝ} {tip : Plane}
    (h : Plane.make ⟨pos.x, pos.y, tipZ⟩ n = .ok tip) (hn : n.dot n = 1) : TipAt cfg pos tip tipZ ∧ tip.normal = n := by
  unfold Plane.make at h
  have hu : n.normalized = .ok n := UnitOf.normalized ⟨hn, 1, one_pos, by ext <;> simp⟩
  rw [hu] at h
  cases h
  refine ⟨⟨rfl, ?_⟩, rfl⟩
  intro v w hw
  unfold Plane.projectZ at hw
  split_ifs at hw with h0
  obtain ⟨d, h1, hw⟩ := bind_ok hw
  obtain ⟨hz, rfl⟩ := pyDiv_val h1
  cases hw
  dsimp only at hz ⊢
  refine ⟨hz, ?_⟩
  ext
  · rfl
  · rfl
  · simp only [Vec.dot, Vec.sub_x, Vec.sub_y, Vec.sub_z]
    field_simp
    ring

end Chrumm.Part
