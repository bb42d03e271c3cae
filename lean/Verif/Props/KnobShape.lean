import Verif.Props.KnobShaft

/-! C97: the shape of the knob. -/

namespace Chrumm.Part
open Geo Geo.Spec Spec Classical

theorem piece_strip (a b : List Vec) (c : Bool) : Piece.points (strip a b c) = a ++ b := by
  simp [Piece.points, strip, Sheet.points]

theorem piece_face (a : List Vec) (b : List (List Vec)) : Piece.points (face a b) = a ++ b.flatten := by
  simp [Piece.points, face, Sheet.points]

theorem axisSq_moved (v : Vec) (z : ℝ) : axisSq (v + ⟨0, 0, z⟩) = axisSq v ∧ (v + ⟨0, 0, z⟩).z = v.z + z := by
  simp [axisSq]

theorem magnitude_axis {v : Vec} (h : v.z = 0) : 0 ≤ v.magnitude ∧ v.magnitude ^ 2 = axisSq v := by
  refine ⟨Real.sqrt_nonneg _, ?_⟩
  unfold Vec.magnitude
  rw [Real.sq_sqrt (by nlinarith [sq_nonneg v.x, sq_nonneg v.y, sq_nonneg v.z])]
  rw [h]; simp only [axisSq]; ring

theorem forall₂_right_mem {α β : Type} {R : α → β → Prop} {l : List α} {m : List β} (h : List.Forall₂ R l m) {b : β}
    (hb : b ∈ m) : ∃ a ∈ l, R a b := by
  induction h with
  | nil => simp at hb
  | cons a _ ih =>
    rcases List.mem_cons.1 hb with rfl | h2
    · exact ⟨_, List.mem_cons_self, a⟩
    · obtain ⟨x, hx, h⟩ := ih h2
      exact ⟨x, List.mem_cons_of_mem _ hx, h⟩


/-- **C97** The shape of the knob (upside down), for every configuration that is accepted: the top is a disk in the plane
`z = 0`; the chamfer is a cone of 45 degrees, not higher than configured; the wall goes from the chamfer to the bottom, and stays
between the full radius and the depth of the grooves; the skirt is a round hole; the hole for the shaft starts at the bottom
of the skirt, ends below the roof, and does not reach into the shaft. -/
theorem C97_shape {q : Quality} {cfg : KnobCfg} (ho : SaneOutside cfg) (hs : SaneShaft cfg) (hq : 0 < q.maxChordAngle)
    {ps : List Piece} (h : knobPieces q cfg = .ok ps) :
    let radius := cfg.outerDiameter / 2
    let total := cfg.skirtHeight + cfg.shaftHeight + cfg.roofThickness
    let step := cfg.roofThickness + cfg.shaftHeight
    ∃ top cone wall skirt shaft blind ring rim, ps = [top, cone, wall, skirt, shaft, blind, ring, rim] ∧
      (∀ p ∈ Piece.points top, p.z = 0 ∧ (p = 0 ∨ axisSq p = (radius - cfg.outerChamfer) ^ 2)) ∧
      (∀ p ∈ Piece.points cone, -2e-6 < p.z ∧ p.z ≤ cfg.outerChamfer ∧ axisSq p = (radius - cfg.outerChamfer + p.z) ^ 2) ∧
      (∀ p ∈ Piece.points wall, (p.z = total ∨ axisSq p = (radius - cfg.outerChamfer + p.z) ^ 2) ∧ axisSq p ≤ radius ^ 2 ∧
        (0 < cfg.grooveCount → (radius - cfg.grooveInset) ^ 2 - 2e-12 ≤ axisSq p) ∧
        (cfg.grooveCount ≤ 0 → axisSq p = radius ^ 2)) ∧
      (∀ p ∈ Piece.points skirt, (p.z = total ∨ p.z = step) ∧ axisSq p = (radius - cfg.skirtThickness) ^ 2) ∧
      (∀ p ∈ Piece.points shaft, (p.z = step ∨ p.z = cfg.roofThickness) ∧ ¬ DeepInShaft cfg p) ∧
      (∀ p ∈ Piece.points blind, p.z = cfg.roofThickness) ∧
      (∀ p ∈ Piece.points ring, p.z = step ∧ (axisSq p = (radius - cfg.skirtThickness) ^ 2 ∨ ¬ DeepInShaft cfg p)) ∧
      ∀ p ∈ Piece.points rim, p.z = total := by
  intro radius total step
  unfold knobPieces at h
  dsimp only at h
  obtain ⟨groove, h1, h⟩ := bind_ok h
  obtain ⟨dirs, h2, h⟩ := bind_ok h
  obtain ⟨shaft, h3, h⟩ := bind_ok h
  obtain ⟨skirt, h4, h⟩ := bind_ok h
  obtain rfl := Except.ok.inj h
  obtain ⟨g1, g2⟩ := C97_outline ho hq h1
  obtain ⟨s1, -⟩ := C97_shaft hs hq h3
  have k1 : ∀ p ∈ skirt, p.z = 0 ∧ axisSq p = (radius - cfg.skirtThickness) ^ 2 := by
    intro p hp
    obtain ⟨z0, hz⟩ := C53_on_circle (by linarith [ho.skirt]) hq h4 p hp
    exact ⟨z0, by rw [← hz]; simp [axisSq, distSq2D]⟩
  have hr1 := ho.outer
  have hr2 := ho.chamfer
  have hr3 := ho.chamfer_lt
  have hr4 : 0 ≤ radius := by change 0 ≤ cfg.outerDiameter / 2; linarith
  have g : ∀ p ∈ groove, p.z = 0 ∧ axisSq p ≤ radius ^ 2 ∧ (0 < cfg.grooveCount → (radius - cfg.grooveInset) ^ 2 - 2e-12 ≤ axisSq p) ∧
        (cfg.grooveCount ≤ 0 → axisSq p = radius ^ 2) ∧ -2e-6 < p.magnitude - (radius - cfg.outerChamfer) := by
    intro p hp
    rcases le_or_gt cfg.grooveCount 0 with hn | hn
    · obtain ⟨z0, e⟩ := g1 hn p hp
      obtain ⟨m0, m1⟩ := magnitude_axis z0
      refine ⟨z0, e.le, fun h0 => absurd hn (not_le.mpr h0), fun _ => e, ?_⟩
      have : p.magnitude = radius := by
        rw [e] at m1
        exact (sq_eq_sq₀ m0 hr4).mp m1
      norm_num
      linarith
    · obtain ⟨i1, i2, -⟩ := g2 hn
      obtain ⟨z0, e1, e2⟩ := i2 p hp
      obtain ⟨m0, m1⟩ := magnitude_axis z0
      refine ⟨z0, e2, fun _ => e1, fun h0 => absurd hn (not_lt.mpr h0), ?_⟩
      have : radius - cfg.grooveInset - 2e-6 ≤ p.magnitude := by
        by_contra hc
        rw [not_le] at hc
        rw [← m1] at e1
        change (radius - cfg.grooveInset) ^ 2 - 2e-12 ≤ _ at e1
        generalize radius - cfg.grooveInset = a at *
        norm_num at hc e1
        nlinarith
      linarith
  have moved : ∀ {e : List Vec} {z : ℝ} {p : Vec}, p ∈ edgeTranslated e ⟨0, 0, z⟩ → ∃ v ∈ e, p = v + ⟨0, 0, z⟩ := by
    intro e z p hp
    obtain ⟨v, hv, rfl⟩ := List.mem_map.mp hp
    exact ⟨v, hv, rfl⟩
  have deep : ∀ (v : Vec) (z : ℝ), DeepInShaft cfg (v + ⟨0, 0, z⟩) ↔ DeepInShaft cfg v := by
    intro v z
    simp [DeepInShaft, axisSq]
  have onT : ∀ p ∈ groove.map fun p => (⟨p.x, p.y, p.magnitude - (radius - cfg.outerChamfer)⟩ : Vec), ∃ v ∈ groove,
      axisSq p = axisSq v ∧ p.z = v.magnitude - (radius - cfg.outerChamfer) ∧ axisSq p = (radius - cfg.outerChamfer + p.z) ^ 2 ∧
      -2e-6 < p.z ∧ p.z ≤ cfg.outerChamfer := by
    intro p hp
    obtain ⟨v, hv, rfl⟩ := List.mem_map.mp hp
    obtain ⟨z0, e1, -, -, e2⟩ := g v hv
    obtain ⟨m0, m1⟩ := magnitude_axis z0
    refine ⟨v, hv, rfl, rfl, ?_, e2, ?_⟩
    · dsimp only
      rw [show radius - cfg.outerChamfer + (v.magnitude - (radius - cfg.outerChamfer)) = v.magnitude by ring, m1]
      rfl
    · dsimp only
      rw [← m1] at e1
      have := le_trans (le_abs_self _) (abs_le_of_sq_le_sq e1 hr4)
      linarith
  have onC : ∀ p ∈ dirs.map fun (p : Vec) => (p * (radius - cfg.outerChamfer) : Vec), p.z = 0 ∧
      axisSq p = (radius - cfg.outerChamfer) ^ 2 := by
    intro p hp
    obtain ⟨d, hd, rfl⟩ := List.mem_map.mp hp
    obtain ⟨v, hv, e⟩ := forall₂_right_mem (mapM_ok h2) hd
    have e : v.normalized = .ok d := e
    obtain ⟨u1, k, hk, u2⟩ := normalized_unit e
    have z0 := (g v hv).1
    have hz : d.z = 0 := by
      rw [u2, Vec.mul_z] at z0
      exact (mul_eq_zero.mp z0).resolve_right hk.ne'
    rw [Vec.dot, hz] at u1
    simp only [axisSq, Vec.mul_x, Vec.mul_y, Vec.mul_z, hz, zero_mul, true_and]
    linear_combination (radius - cfg.outerChamfer) ^ 2 * u1
  refine ⟨_, _, _, _, _, _, _, _, rfl, ?_, ?_, ?_, ?_, ?_, ?_, ?_, ?_⟩
  · intro p hp
    rw [piece_strip, List.mem_append, List.mem_singleton] at hp
    rcases hp with rfl | hp
    · exact ⟨rfl, .inl rfl⟩
    · exact ⟨(onC p hp).1, .inr (onC p hp).2⟩
  · intro p hp
    rw [piece_strip, List.mem_append] at hp
    rcases hp with hp | hp
    · obtain ⟨e1, e2⟩ := onC p hp
      rw [e1, e2]
      refine ⟨by norm_num, hr2.le, by ring⟩
    · obtain ⟨v, -, -, -, e1, e2, e3⟩ := onT p hp
      exact ⟨e2, e3, e1⟩
  · intro p hp
    rw [piece_strip, List.mem_append] at hp
    rcases hp with hp | hp
    · obtain ⟨v, hv, e0, -, e1, -⟩ := onT p hp
      obtain ⟨-, i1, i2, i3, -⟩ := g v hv
      rw [← e0] at i1 i2 i3
      exact ⟨.inr e1, i1, i2, i3⟩
    · obtain ⟨v, hv, rfl⟩ := moved hp
      obtain ⟨i0, i1, i2, i3, -⟩ := g v hv
      obtain ⟨a1, a2⟩ := axisSq_moved v total
      rw [a1, a2, i0, zero_add]
      exact ⟨.inl rfl, i1, i2, i3⟩
  · intro p hp
    rw [piece_strip, List.mem_append] at hp
    rcases hp with hp | hp
    · obtain ⟨v, hv, rfl⟩ := moved hp
      rw [(axisSq_moved v _).1, (axisSq_moved v _).2, (k1 v hv).1, zero_add]
      exact ⟨.inl rfl, (k1 v hv).2⟩
    · obtain ⟨v, hv, rfl⟩ := moved hp
      rw [(axisSq_moved v _).1, (axisSq_moved v _).2, (k1 v hv).1, zero_add]
      exact ⟨.inr rfl, (k1 v hv).2⟩
  · intro p hp
    rw [piece_strip, List.mem_append] at hp
    rcases hp with hp | hp
    · obtain ⟨v, hv, rfl⟩ := moved hp
      rw [deep, (axisSq_moved v _).2, (s1 v hv).1, zero_add]
      exact ⟨.inl rfl, (s1 v hv).2.1⟩
    · obtain ⟨v, hv, rfl⟩ := moved hp
      rw [deep, (axisSq_moved v _).2, (s1 v hv).1, zero_add]
      exact ⟨.inr rfl, (s1 v hv).2.1⟩
  · intro p hp
    rw [piece_face, List.flatten_nil, List.append_nil] at hp
    obtain ⟨v, hv, rfl⟩ := moved hp
    rw [(axisSq_moved v _).2, (s1 v hv).1, zero_add]
  · intro p hp
    rw [piece_face, List.flatten_singleton, List.mem_append, List.mem_reverse] at hp
    rcases hp with hp | hp
    · obtain ⟨v, hv, rfl⟩ := moved hp
      rw [(axisSq_moved v _).1, (axisSq_moved v _).2, (k1 v hv).1, zero_add]
      exact ⟨rfl, .inl (k1 v hv).2⟩
    · obtain ⟨v, hv, rfl⟩ := moved hp
      rw [deep, (axisSq_moved v _).2, (s1 v hv).1, zero_add]
      exact ⟨rfl, .inr (s1 v hv).2.1⟩
  · intro p hp
    rw [piece_face, List.flatten_singleton, List.mem_append, List.mem_reverse] at hp
    rcases hp with hp | hp
    · obtain ⟨v, hv, rfl⟩ := moved hp
      rw [(axisSq_moved v _).2, (g v hv).1, zero_add]
    · obtain ⟨v, hv, rfl⟩ := moved hp
      rw [(axisSq_moved v _).2, (k1 v hv).1, zero_add]

end Chrumm.Part
