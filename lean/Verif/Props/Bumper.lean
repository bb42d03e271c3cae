import Verif.Props.ArcMesh
import Verif.Props.PlanWalls
import Verif.Part.Bumper

/-! C59: bumpers. -/

namespace Chrumm.Part
open Geo Geo.Spec Spec Classical

theorem translated_ring (pos : Vec) (r α θ fh : ℝ) (m : ℕ) :
    edgeTranslated ((List.range m).map fun i : ℕ => ringPoint 0 r 0 (α + i * θ)) (pos.xy - ⟨0, 0, fh⟩) =
      (List.range m).map fun i : ℕ => ringPoint pos r (-fh) (α + i * θ) := by
  unfold edgeTranslated
  rw [List.map_map]
  apply List.map_congr_left
  intro i _
  ext <;> simp [ringPoint, Vec.xy] <;> ring

theorem ring_ne_nil {f : ℕ → Vec} {m : ℕ} (hm : 0 < m) : (List.range m).map f ≠ [] := by
  intro h
  have := congrArg List.length h
  simp at this
  omega

theorem head_range {f : ℕ → Vec} {m : ℕ} (hm : 0 < m) (h : (List.range m).map f ≠ []) : ((List.range m).map f).head h = f 0 := by
  obtain ⟨k, rfl⟩ := Nat.exists_eq_succ_of_ne_zero hm.ne'
  simp [List.range_succ_eq_map]

theorem last_range {f : ℕ → Vec} {m : ℕ} (h : (List.range (m + 1)).map f ≠ []) :
    ((List.range (m + 1)).map f).getLast h = f m := by
  simp [List.range_succ]

/-- The sum of a fan over an open edge. -/
theorem fan_sum {A : Type} [AddCommGroup A] {g : Vec → Vec → A} (hg : Anti g) {e : List Vec} {ts : List (Tri Vec)}
    (he : e ≠ []) (h : meshPairwise (e.take 1) e false = .ok ts)
    (hq : ∀ i, GoodQuad (corner false (e.take 1) i) (corner false (e.take 1) (i + 1)) (corner false e (i + 1)) (corner false e i)) :
    esum g (meshEdges ts) = -esum g (cycPairs e) := by
  obtain ⟨a, l, rfl⟩ := List.exists_cons_of_ne_nil he
  have ht : (a :: l).take 1 = [a] := rfl
  rw [ht] at h hq
  rw [open_strip_sum (by simp) he h hq hg, esum_cyc g (a :: l) he, esum_path_one]
  simp only [List.getLast_singleton, List.head_cons, hg.self]
  rw [hg.swap a]
  abel

theorem neg_sub_height (a b : ℝ) : -(a - b) = -a + b := by ring

/-- C59. A full bumper recess closes the round hole in the floor: the triangles complete a mesh with the hole's outline.
The outline is on a circle around the position, on the underside of the floor, counter-clockwise; there is no split. -/
theorem C59_full (q : Quality) (floorHeight : ℝ) (cfg : BumperCfg) (pos : Vec) (b : Bumper) (hq : SaneQuality q)
    (hd : 1 ≤ cfg.diameter) (hh : 1 / 1000 ≤ |cfg.height|)
    (h : Bumper.make q floorHeight cfg pos false = .ok b) :
    Closes b.triangles (cycPairs b.floorEdge) ∧ b.splitEdge = [] ∧
    (∀ p ∈ b.floorEdge, distSq2D pos p = (cfg.diameter / 2) ^ 2 ∧ p.z = -floorHeight) ∧
    (∀ s ∈ cycPairs b.floorEdge, 0 < left s.1 s.2 pos) := by
  unfold Bumper.make at h
  obtain ⟨arc, h1, h⟩ := bind_ok h
  obtain ⟨t1, h2, h⟩ := bind_ok h
  obtain ⟨t2, h3, h⟩ := bind_ok h
  obtain ⟨split, h4, h⟩ := bind_ok h
  cases h
  cases h4
  change arc2D _ _ _ _ _ = _ at h1
  set r := cfg.diameter / 2 with hr
  have hr2 : 1 / 2 ≤ r := by linarith
  obtain ⟨n, θ, hn, hnθ, hθ0, hθ1, hs1, hs0, hs3, rfl⟩ := full_circle hq hr2 h1
  rw [translated_ring] at h2 h3 ⊢
  rw [translated_ring] at h3
  have hne : ∀ z : ℝ, ((List.range n).map fun i : ℕ => ringPoint pos r z (0 + i * θ)) ≠ [] := fun z => ring_ne_nil hn
  have hk := cos_half_sq hθ0 hθ1
  have habs : 7 / 1000 ≤ |r * Real.sin (θ / 2)| := hs1.trans (le_abs_self _)
  refine ⟨?_, rfl, ?_, ?_⟩
  · unfold Closes
    rw [sameChain_iff]
    intro g hg
    dsimp only
    rw [esum_append, meshEdges_append, esum_append,
      fan_sum hg (hne _) h2 (fan_good pos r _ 0 θ n hn hθ0 hnθ.le hs0 hs3),
      closed_strip_sum (hne _) (hne _) h3 (rings_good pos r _ r _ 0 θ n hn hnθ hk habs habs
        (Or.inr (Or.inl (by rw [neg_sub_height, show -floorHeight - (-floorHeight + cfg.height) = -cfg.height by ring, abs_neg]; exact hh)))) hg]
    rw [esum_nil]
    abel
  · intro p hp
    obtain ⟨i, -, rfl⟩ := List.mem_map.mp hp
    refine ⟨?_, rfl⟩
    simp only [distSq2D, ringPoint]
    linear_combination r ^ 2 * Real.sin_sq_add_cos_sq (0 + i * θ)
  · intro s hs
    unfold cycPairs at hs
    obtain ⟨i, hi⟩ := List.mem_iff_getElem?.mp hs
    rw [List.getElem?_zip_eq_some] at hi
    have hin : i < n := by
      have := List.getElem?_eq_some_iff.mp hi.1
      obtain ⟨h, -⟩ := this
      simpa using h
    obtain ⟨e1, e2⟩ := hi
    rw [List.getElem?_map, List.getElem?_range hin] at e1
    rw [List.getElem?_rotate (by simpa using hin), List.getElem?_map, List.length_map, List.length_range,
      List.getElem?_range (Nat.mod_lt _ hn)] at e2
    simp only [Option.map_some, Option.some.injEq] at e1 e2
    have e3 : ringPoint pos r (-floorHeight) (0 + ((i + 1) % n : ℕ) * θ) = ringPoint pos r (-floorHeight) ((0 + i * θ) + θ) := by
      rcases Nat.lt_or_ge (i + 1) n with hlt | hge
      · rw [Nat.mod_eq_of_lt hlt]; congr 1; push_cast; ring
      · have : i + 1 = n := by omega
        rw [this, Nat.mod_self]
        have := ringPoint_period pos r (-floorHeight) 0 1
        simp only [Int.cast_one, one_mul] at this
        have e4 : (0 + i * θ) + θ = 0 + 2 * Real.pi := by
          rw [← hnθ]
          have : (i : ℝ) + 1 = n := by exact_mod_cast ‹i + 1 = n›
          rw [← this]; ring
        rw [e4, this]; simp
    rw [← e1, ← e2, e3]
    simp only [left, ringPoint]
    have hp : 0 < Real.sin θ := Real.sin_pos_of_pos_of_lt_pi hθ0 (by linarith [Real.pi_pos])
    have hr0 : 0 < r := by linarith
    have e5 : Real.sin θ = Real.sin (0 + i * θ + θ) * Real.cos (0 + i * θ) - Real.cos (0 + i * θ + θ) * Real.sin (0 + i * θ) := by
      rw [← Real.sin_sub]; congr 1; ring
    have e6 : 0 < r ^ 2 * Real.sin θ := by positivity
    rw [e5] at e6
    nlinarith

/-- C59. Half a bumper recess, at the split of the body: the triangles close the gap between the half hole in the floor,
and the cut through the recess. The cut is in the plane x = pos.x, the half hole is on its right. -/
theorem C59_half (q : Quality) (floorHeight : ℝ) (cfg : BumperCfg) (pos : Vec) (b : Bumper) (hq : SaneQuality q)
    (hd : 1 ≤ cfg.diameter) (hh : 1 / 1000 ≤ |cfg.height|)
    (h : Bumper.make q floorHeight cfg pos true = .ok b) :
    Closes b.triangles (pathPairs b.floorEdge ++ pathPairs b.splitEdge) ∧
    (∀ p ∈ b.floorEdge, distSq2D pos p = (cfg.diameter / 2) ^ 2 ∧ pos.x ≤ p.x ∧ p.z = -floorHeight) ∧
    (let y := cfg.diameter / 2
     b.splitEdge = [⟨pos.x, pos.y + y, -floorHeight⟩, ⟨pos.x, pos.y + y, -floorHeight + cfg.height⟩,
      ⟨pos.x, pos.y - y, -floorHeight + cfg.height⟩, ⟨pos.x, pos.y - y, -floorHeight⟩] ∧
     b.floorEdge.head? = b.splitEdge.getLast? ∧ b.floorEdge.getLast? = b.splitEdge.head?) := by
  unfold Bumper.make at h
  obtain ⟨arc, h1, h⟩ := bind_ok h
  obtain ⟨t1, h2, h⟩ := bind_ok h
  obtain ⟨t2, h3, h⟩ := bind_ok h
  obtain ⟨split, h4, h⟩ := bind_ok h
  cases h
  unfold bumperArc at h1
  unfold bumperSplit at h4
  obtain ⟨arc', h0, h1'⟩ := bind_ok h1
  cases h1'
  clear h1
  obtain ⟨g1, h5, h4⟩ := bind_ok h4
  obtain ⟨t1', h6, h4⟩ := bind_ok h4
  obtain ⟨t0, h7, h4⟩ := bind_ok h4
  obtain ⟨g0, h8, h4⟩ := bind_ok h4
  cases h4
  set r := cfg.diameter / 2 with hr
  have hr2 : 1 / 2 ≤ r := by linarith
  obtain ⟨n, θ, hn, hnθ, hθ0, hθ1, hs1, hs0, hs3, rfl⟩ := half_circle hq hr2 h0
  have hsn : edgeSnapped ((List.range (n + 1)).map fun i : ℕ => ringPoint 0 r 0 (-Real.pi / 2 + i * θ)) =
      (List.range (n + 1)).map fun i : ℕ => ringPoint 0 r 0 (-Real.pi / 2 + i * θ) := by
    unfold edgeSnapped
    rw [List.map_map]
    apply List.map_congr_left
    intro i hi
    rw [List.mem_range] at hi
    exact snapped_half hn hθ0 hnθ hs1 (by linarith) (by omega)
  rw [hsn] at h2 h3 h5 h6 h7 h8 ⊢
  rw [translated_ring] at h2 h3 h5 h6 h7 h8 ⊢
  rw [translated_ring] at h3
  have hne : ∀ z : ℝ, ((List.range (n + 1)).map fun i : ℕ => ringPoint pos r z (-Real.pi / 2 + i * θ)) ≠ [] :=
    fun z => ring_ne_nil (by omega)
  have hk := cos_half_sq hθ0 hθ1
  have habs : 7 / 1000 ≤ |r * Real.sin (θ / 2)| := hs1.trans (le_abs_self _)
  rw [pyIndex_last, List.getLast?_eq_some_getLast (hne _), last_range, Option.some.injEq] at h5 h6
  rw [pyIndex_zero, ← List.head?_eq_getElem?, List.head?_eq_some_head (hne _), head_range (by omega), Option.some.injEq] at h7 h8
  have hpi := Real.pi_pos
  have el : ∀ z : ℝ, ringPoint pos r z (-Real.pi / 2 + (n : ℝ) * θ) = ⟨pos.x, pos.y + r, z⟩ := by
    intro z
    rw [hnθ, show -Real.pi / 2 + Real.pi = Real.pi / 2 by ring]
    simp [ringPoint]
  have ef : ∀ z : ℝ, ringPoint pos r z (-Real.pi / 2 + ((0 : ℕ) : ℝ) * θ) = ⟨pos.x, pos.y - r, z⟩ := by
    intro z
    rw [show -Real.pi / 2 + ((0 : ℕ) : ℝ) * θ = -(Real.pi / 2) by simp; ring]
    simp [ringPoint, sub_eq_add_neg]
  rw [el] at h5 h6
  rw [ef] at h7 h8
  subst h5 h6 h7 h8
  rw [neg_sub_height]
  refine ⟨?_, ?_, rfl, ?_, ?_⟩
  · unfold Closes
    rw [sameChain_iff]
    intro g hg
    dsimp only
    rw [esum_append, meshEdges_append, esum_append, esum_append,
      fan_sum hg (hne _) h2 (fan_good pos r _ _ θ (n + 1) (by omega) hθ0 (by push_cast; nlinarith) hs0 hs3),
      open_strip_sum (hne _) (hne _) h3 (arcs_good pos r _ r _ _ θ n hk habs habs
        (Or.inr (Or.inl (by rw [neg_sub_height, show -floorHeight - (-floorHeight + cfg.height) = -cfg.height by ring, abs_neg]; exact hh)))) hg,
      esum_cyc g _ (hne _), last_range, last_range, head_range (by omega), head_range (by omega), el, ef, el, ef, neg_sub_height,
      esum_path_cons2, esum_path_cons2, esum_path_cons2, esum_path_one]
    rw [esum_nil, hg.swap ⟨pos.x, pos.y + r, -floorHeight⟩, hg.swap ⟨pos.x, pos.y - r, -floorHeight + cfg.height⟩ ⟨pos.x, pos.y - r, -floorHeight⟩]
    abel
  · intro p hp
    obtain ⟨i, hi, rfl⟩ := List.mem_map.mp hp
    rw [List.mem_range] at hi
    refine ⟨?_, ?_, rfl⟩
    · simp only [distSq2D, ringPoint]
      linear_combination r ^ 2 * Real.sin_sq_add_cos_sq (-Real.pi / 2 + i * θ)
    · have hiR : (i : ℝ) ≤ n := by exact_mod_cast (by omega : i ≤ n)
      have : 0 ≤ Real.cos (-Real.pi / 2 + i * θ) := Real.cos_nonneg_of_mem_Icc ⟨by
        have : (0 : ℝ) ≤ i * θ := by positivity
        linarith, by nlinarith⟩
      have : 0 ≤ r * Real.cos (-Real.pi / 2 + i * θ) := mul_nonneg (by linarith) this
      simp only [ringPoint]
      linarith
  · dsimp only
    rw [List.head?_eq_some_head (hne _), head_range (by omega), ef]
    rfl
  · dsimp only
    rw [List.getLast?_eq_some_getLast (hne _), last_range, el]
    rfl

/-- C59. Bumpers can always be built. -/
theorem C59_succeeds (q : Quality) (floorHeight : ℝ) (cfg : BumperCfg) (pos : Vec) (isHalf : Bool) (hq : SaneQuality q)
    (hd : 1 ≤ cfg.diameter) (hf : q.maxChordHeight ≤ cfg.diameter) :
    ∃ b, Bumper.make q floorHeight cfg pos isHalf = .ok b := by
  have hq0 : 0 < q.maxChordAngle := by linarith [hq.angle]
  have hh0 : 0 < q.maxChordHeight := by linarith [hq.height]
  have hpi := Real.pi_pos
  have harc : ∀ start span : ℝ, span ≠ 0 → ∃ pts, arc2D q (cfg.diameter / 2) start span 0 = .ok pts ∧ pts ≠ [] := by
    intro start span hs
    obtain ⟨pts, hp⟩ := ((C53_succeeds q (cfg.diameter / 2) start span 0 hq0 hh0).2.1 (by linarith)).mpr ⟨by linarith, hs⟩
    refine ⟨pts, hp, ?_⟩
    rintro rfl
    have := (C53_ends (by linarith) hq0 hp).1
    cases this
  have mesh : ∀ (arc : List Vec) (u v : Vec) (k : Bool), arc ≠ [] →
      (∃ t1, meshPairwise ((edgeTranslated arc u).take 1) (edgeTranslated arc u) false = .ok t1) ∧
      ∃ t2, meshPairwise (edgeTranslated arc u) (edgeTranslated arc v) k = .ok t2 := by
    intro arc u v k ha
    constructor
    · exact C32_total _ _ _ (by simpa [edgeTranslated] using ha) (by simpa [edgeTranslated] using ha)
    · exact C32_total _ _ _ (by simpa [edgeTranslated] using ha) (by simpa [edgeTranslated] using ha)
  unfold Bumper.make
  cases isHalf with
  | false =>
    obtain ⟨arc, ha, hne⟩ := harc 0 tau tau_pos.ne'
    obtain ⟨⟨t1, h1⟩, t2, h2⟩ := mesh arc (pos.xy - ⟨0, 0, floorHeight - cfg.height⟩) (pos.xy - ⟨0, 0, floorHeight⟩) true hne
    simp only [bumperArc, bumperSplit, ha, bind, Except.bind, Bool.not_false, h1, h2, pure, Except.pure]
    exact ⟨_, rfl⟩
  | true =>
    obtain ⟨arc, ha, hne⟩ := harc (-Real.pi / 2) Real.pi hpi.ne'
    have hne' : edgeSnapped arc ≠ [] := by simpa [edgeSnapped] using hne
    obtain ⟨⟨t1, h1⟩, t2, h2⟩ := mesh (edgeSnapped arc) (pos.xy - ⟨0, 0, floorHeight - cfg.height⟩) (pos.xy - ⟨0, 0, floorHeight⟩) false hne'
    have idx : ∀ v : Vec, (∃ x, pyIndex (edgeTranslated (edgeSnapped arc) v) (-1) = .ok x) ∧
        ∃ x, pyIndex (edgeTranslated (edgeSnapped arc) v) 0 = .ok x := by
      intro v
      have hv : edgeTranslated (edgeSnapped arc) v ≠ [] := by simpa [edgeTranslated] using hne'
      exact ⟨⟨_, pyIndex_last.mpr (List.getLast?_eq_some_getLast hv)⟩,
        ⟨_, pyIndex_zero.mpr (by rw [← List.head?_eq_getElem?]; exact List.head?_eq_some_head hv)⟩⟩
    obtain ⟨⟨x1, e1⟩, x2, e2⟩ := idx (pos.xy - ⟨0, 0, floorHeight⟩)
    obtain ⟨⟨x3, e3⟩, x4, e4⟩ := idx (pos.xy - ⟨0, 0, floorHeight - cfg.height⟩)
    simp only [bumperArc, bumperSplit, ha, bind, Except.bind, Bool.not_true, h1, h2, pure, Except.pure, e1, e2, e3, e4]
    exact ⟨_, rfl⟩

/-- The bumper of the default configuration meets the hypotheses. -/
example : SaneQuality ⟨1 / 100, Real.pi / 6⟩ ∧
    ∃ b, Bumper.make ⟨1 / 100, Real.pi / 6⟩ 3 ⟨84 / 10, 1, 3⟩ ⟨10, 20, 0⟩ true = .ok b := by
  have hq : SaneQuality ⟨1 / 100, Real.pi / 6⟩ := ⟨by norm_num, by have := Real.two_le_pi; dsimp only; linarith, by
    have := Real.pi_pos; dsimp only; linarith⟩
  exact ⟨hq, C59_succeeds _ _ _ _ _ hq (by norm_num) (by norm_num)⟩

end Chrumm.Part
