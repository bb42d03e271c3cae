import Verif.Props.Strips
import Verif.Props.Layout
import Verif.Spec.Parts
import Verif.Part.Key

/-! C77: the mesh of a key. -/

namespace Chrumm.Part
open Geo Geo.Spec Spec Classical

/-! ### Areas by components -/

theorem prod_sq {u v w : ℝ} (hu : 1 / 200 ≤ u) (hv : 1 / 200 ≤ v) (h : w = u * v ∨ w = -(u * v)) : (2 * 1e-6 : ℝ) ^ 2 ≤ w ^ 2 := by
  have : w ^ 2 = (u * v) ^ 2 := by rcases h with rfl | rfl <;> ring
  rw [this]
  have : (1 / 200 : ℝ) * (1 / 200) ≤ u * v := mul_le_mul hu hv (by norm_num) (by linarith)
  calc (2 * 1e-6 : ℝ) ^ 2 ≤ ((1 / 200 : ℝ) * (1 / 200)) ^ 2 := by norm_num
    _ ≤ _ := pow_le_pow_left₀ (by norm_num) this 2

theorem area_x {a b c : Vec} (u v : ℝ) (hu : 1 / 200 ≤ u) (hv : 1 / 200 ≤ v)
    (h : (b.y - a.y) * (c.z - a.z) - (b.z - a.z) * (c.y - a.y) = u * v ∨
      (b.y - a.y) * (c.z - a.z) - (b.z - a.z) * (c.y - a.y) = -(u * v)) : 1e-6 ≤ (Tri.mk a b c).area := by
  refine area_of_sq le_rfl ((prod_sq hu hv h).trans ?_)
  simp only [Vec.magSquared, Vec.cross, Vec.sub_x, Vec.sub_y, Vec.sub_z]
  nlinarith [sq_nonneg ((b.z - a.z) * (c.x - a.x) - (b.x - a.x) * (c.z - a.z)), sq_nonneg ((b.x - a.x) * (c.y - a.y) - (b.y - a.y) * (c.x - a.x))]

theorem area_y {a b c : Vec} (u v : ℝ) (hu : 1 / 200 ≤ u) (hv : 1 / 200 ≤ v)
    (h : (b.z - a.z) * (c.x - a.x) - (b.x - a.x) * (c.z - a.z) = u * v ∨
      (b.z - a.z) * (c.x - a.x) - (b.x - a.x) * (c.z - a.z) = -(u * v)) : 1e-6 ≤ (Tri.mk a b c).area := by
  refine area_of_sq le_rfl ((prod_sq hu hv h).trans ?_)
  simp only [Vec.magSquared, Vec.cross, Vec.sub_x, Vec.sub_y, Vec.sub_z]
  nlinarith [sq_nonneg ((b.y - a.y) * (c.z - a.z) - (b.z - a.z) * (c.y - a.y)), sq_nonneg ((b.x - a.x) * (c.y - a.y) - (b.y - a.y) * (c.x - a.x))]

theorem area_z {a b c : Vec} (u v : ℝ) (hu : 1 / 200 ≤ u) (hv : 1 / 200 ≤ v)
    (h : (b.x - a.x) * (c.y - a.y) - (b.y - a.y) * (c.x - a.x) = u * v ∨
      (b.x - a.x) * (c.y - a.y) - (b.y - a.y) * (c.x - a.x) = -(u * v)) : 1e-6 ≤ (Tri.mk a b c).area := by
  refine area_of_sq le_rfl ((prod_sq hu hv h).trans ?_)
  simp only [Vec.magSquared, Vec.cross, Vec.sub_x, Vec.sub_y, Vec.sub_z]
  nlinarith [sq_nonneg ((b.y - a.y) * (c.z - a.z) - (b.z - a.z) * (c.y - a.y)), sq_nonneg ((b.z - a.z) * (c.x - a.x) - (b.x - a.x) * (c.z - a.z))]

/-! ### Strips of few points -/

theorem good2 {a0 a1 b0 b1 : Vec} (h0 : GoodQuad a0 a1 b1 b0) (i : ℕ) :
    GoodQuad (corner false [a0, a1] i) (corner false [a0, a1] (i + 1)) (corner false [b0, b1] (i + 1)) (corner false [b0, b1] i) := by
  match i with
  | 0 => exact h0
  | j + 1 =>
    simp only [corner, walk, Bool.false_eq_true, if_false, List.length_cons, List.length_nil]
    rw [min_eq_right (by omega), min_eq_right (by omega)]
    exact goodQuad_still rfl rfl

theorem good3 {a0 a1 a2 b0 b1 b2 : Vec} (h0 : GoodQuad a0 a1 b1 b0) (h1 : GoodQuad a1 a2 b2 b1) (i : ℕ) :
    GoodQuad (corner false [a0, a1, a2] i) (corner false [a0, a1, a2] (i + 1)) (corner false [b0, b1, b2] (i + 1))
      (corner false [b0, b1, b2] i) := by
  match i with
  | 0 => exact h0
  | 1 => exact h1
  | j + 2 =>
    simp only [corner, walk, Bool.false_eq_true, if_false, List.length_cons, List.length_nil]
    rw [min_eq_right (by omega), min_eq_right (by omega)]
    exact goodQuad_still rfl rfl

theorem good4 {a0 a1 a2 a3 b0 b1 b2 b3 : Vec} (h0 : GoodQuad a0 a1 b1 b0) (h1 : GoodQuad a1 a2 b2 b1)
    (h2 : GoodQuad a2 a3 b3 b2) (i : ℕ) :
    GoodQuad (corner false [a0, a1, a2, a3] i) (corner false [a0, a1, a2, a3] (i + 1))
      (corner false [b0, b1, b2, b3] (i + 1)) (corner false [b0, b1, b2, b3] i) := by
  match i with
  | 0 => exact h0
  | 1 => exact h1
  | 2 => exact h2
  | j + 3 =>
    simp only [corner, walk, Bool.false_eq_true, if_false, List.length_cons, List.length_nil]
    rw [min_eq_right (by omega), min_eq_right (by omega)]
    exact goodQuad_still rfl rfl

/-- Collapsing an edge whose ends differ keeps the ends and the chain between them. -/
theorem collapsed_path {A : Type} [AddCommGroup A] {g : Vec → Vec → A} (hg : Anti g) {e : List Vec} {d : ℝ} (hd : 0 < d)
    (h : ∀ s ∈ cycPairs e, s.1 = s.2 ∨ d ≤ Real.sqrt (distSq s.1 s.2)) (he : e ≠ []) (hne : e.getLast he ≠ e.head he) :
    ∃ hk : collapsed e d ≠ [], (collapsed e d).head hk = e.head he ∧ (collapsed e d).getLast hk = e.getLast he ∧
      esum g (pathPairs (collapsed e d)) = esum g (pathPairs e) := by
  have hsum := collapsed_sum hg hd h
  have hkeep := collapsed_eq_keepNe hd h he
  have hhead := keepNe_head (e.head he) e
  have hlast : ∀ (z : Vec) (l : List Vec) (hl : l ≠ []), l.getLast hl ≠ z → ∃ hk : keepNe z l ≠ [],
      (keepNe z l).getLast hk = l.getLast hl := by
    intro z l
    induction l with
    | nil => intro hl; exact absurd rfl hl
    | cons x l ih =>
      intro hl hz
      cases l with
      | nil =>
        simp only [List.getLast_singleton] at hz
        have e0 : keepNe z [x] = [x] := by unfold keepNe; rw [if_neg hz]
        exact ⟨by rw [e0]; simp, by simp [e0]⟩
      | cons y l =>
        obtain ⟨hk, e1⟩ := ih (by simp) (by rwa [List.getLast_cons_cons] at hz)
        unfold keepNe
        split_ifs with hxy
        · exact ⟨hk, by rw [e1, List.getLast_cons_cons]⟩
        · refine ⟨by simp, ?_⟩
          rw [List.getLast_cons hk, e1, List.getLast_cons_cons]
  obtain ⟨hk, e1⟩ := hlast (e.head he) e he hne
  rw [← hkeep] at hhead
  have hk' : collapsed e d ≠ [] := by rw [hkeep]; exact hk
  have e2 : (collapsed e d).head hk' = e.head he := by
    rw [List.head_append_of_ne_nil hk', List.head_append_of_ne_nil he] at hhead
    exact hhead
  have e3 : (collapsed e d).getLast hk' = e.getLast he := by
    rw [← e1]; congr 1
  refine ⟨hk', e2, e3, ?_⟩
  rw [esum_cyc g _ hk', esum_cyc g e he, e2, e3] at hsum
  exact add_right_cancel hsum

/-! ### The key -/

/-- The chain of half the mesh: the exit edge with the notch on one side, the entry edge on the other, and two vertical
paths in opposite corners. -/
theorem half_sum {holeW holeD holeH chamfer : ℝ} {clip : Option ClipCfg} {half : List (Tri Vec)} {notch : List Vec}
    (hs : SaneHole holeW holeD holeH chamfer clip)
    (h : halfTriangles holeW holeD holeH chamfer clip = .ok (half, notch))
    {A : Type} [AddCommGroup A] {g : Vec → Vec → A} (hg : Anti g) :
    let exit := withMirroredY (exitEdge0 holeW holeD holeH) ++ notch
    let entry := withMirroredY (entryEdge0 holeW holeD chamfer)
    let W := holeW / 2
    let D := holeD / 2
    ∃ hx : exit ≠ [], ∃ he : entry ≠ [], exit.head hx = ⟨-W, -D, -holeH⟩ ∧ entry.head he = ⟨-W, -D - chamfer, 0⟩ ∧
    esum g (meshEdges half) = esum g (pathPairs exit) + g (exit.getLast hx) ⟨W, D, -holeH⟩ -
      (esum g (pathPairs entry) + g (entry.getLast he) ⟨W, D + chamfer, 0⟩) +
      (g ⟨W, D, -holeH⟩ ⟨W, D, -chamfer⟩ + g ⟨W, D, -chamfer⟩ ⟨W, D + chamfer, 0⟩) -
      (g ⟨-W, -D, -holeH⟩ ⟨-W, -D, -chamfer⟩ + g ⟨-W, -D, -chamfer⟩ ⟨-W, -D - chamfer, 0⟩) := by
  obtain ⟨hW, hD, hc, hH, hclip⟩ := hs
  intro exit entry W D
  have q1 : ∀ i, GoodQuad (corner false (withMirroredY (exitEdge0 holeW holeD holeH)) i)
      (corner false (withMirroredY (exitEdge0 holeW holeD holeH)) (i + 1))
      (corner false (withMirroredY (chamferEdge0 holeW holeD chamfer)) (i + 1))
      (corner false (withMirroredY (chamferEdge0 holeW holeD chamfer)) i) := by
    simp only [withMirroredY, exitEdge0, chamferEdge0, List.map_cons, List.map_nil, List.reverse_cons, List.reverse_nil,
      List.nil_append, List.cons_append, Vec.mirroredY]
    refine good4 (goodQuad_still rfl rfl) (goodQuad_four ?_ ?_ ?_) (goodQuad_still rfl rfl)
    · exact area_x holeD (holeH - chamfer) (by linarith) (by linarith) (by dsimp only; left; ring)
    · exact area_x holeD (holeH - chamfer) (by linarith) (by linarith) (by dsimp only; left; ring)
    · exact area_x holeD (holeH - chamfer) (by linarith) (by linarith) (by dsimp only; left; ring)
  have q2 : ∀ i, GoodQuad (corner false (withMirroredY (chamferEdge0 holeW holeD chamfer)) i)
      (corner false (withMirroredY (chamferEdge0 holeW holeD chamfer)) (i + 1))
      (corner false (withMirroredY (entryEdge0 holeW holeD chamfer)) (i + 1))
      (corner false (withMirroredY (entryEdge0 holeW holeD chamfer)) i) := by
    simp only [withMirroredY, entryEdge0, chamferEdge0, List.map_cons, List.map_nil, List.reverse_cons, List.reverse_nil,
      List.nil_append, List.cons_append, Vec.mirroredY]
    rcases hc with rfl | hc
    · simp only [sub_zero, neg_zero]
      exact good4 (goodQuad_same rfl rfl) (goodQuad_same rfl rfl) (goodQuad_same rfl rfl)
    · refine good4 (goodQuad_ab rfl (Or.inl ?_)) (goodQuad_four ?_ ?_ ?_) (goodQuad_ab rfl (Or.inl ?_))
      · exact area_x chamfer chamfer (by linarith) (by linarith) (by dsimp only; left; ring)
      · exact area_x holeD chamfer (by linarith) (by linarith) (by dsimp only; left; ring)
      · exact area_x holeD chamfer (by linarith) (by linarith) (by dsimp only; left; ring)
      · exact area_x holeD chamfer (by linarith) (by linarith) (by dsimp only; left; ring)
      · exact area_x chamfer chamfer (by linarith) (by linarith) (by dsimp only; left; ring)
  unfold halfTriangles at h
  dsimp only at h
  obtain ⟨t1, h1, h⟩ := bind_ok h
  obtain ⟨t2, h2, h⟩ := bind_ok h
  have s1 := open_strip_sum (g := g) (by simp [withMirroredY, exitEdge0]) (by simp [withMirroredY, chamferEdge0]) h1 q1 hg
  have s2 := open_strip_sum (g := g) (by simp [withMirroredY, chamferEdge0]) (by simp [withMirroredY, entryEdge0]) h2 q2 hg
  have hW' : -(-holeW / 2) = W := by change -(-holeW / 2) = holeW / 2; ring
  have hD' : -(-holeD / 2) = D := by change -(-holeD / 2) = holeD / 2; ring
  have hD2 : -(-holeD / 2 - chamfer) = D + chamfer := by change -(-holeD / 2 - chamfer) = holeD / 2 + chamfer; ring
  have hWm : -holeW / 2 = -W := by change -holeW / 2 = -(holeW / 2); ring
  have hDm : -holeD / 2 = -D := by change -holeD / 2 = -(holeD / 2); ring
  have hD3 : -(-D - chamfer) = D + chamfer := by ring
  cases clip with
  | none =>
    obtain ⟨t3, h3, h⟩ := bind_ok h
    cases h
    have s3 := open_strip_sum (g := g) (by simp) (by simp) h3 (good3 (by
      simp only [Vec.mirroredX, Vec.mirroredY]
      refine goodQuad_four ?_ ?_ ?_
      · exact area_y holeW (holeH - chamfer) (by linarith) (by linarith) (by dsimp only; right; ring)
      · exact area_y holeW (holeH - chamfer) (by linarith) (by linarith) (by dsimp only; right; ring)
      · exact area_y holeW (holeH - chamfer) (by linarith) (by linarith) (by dsimp only; right; ring)) (by
      simp only [Vec.mirroredX, Vec.mirroredY]
      rcases hc with rfl | hc
      · simp only [sub_zero, neg_zero]
        exact goodQuad_still rfl rfl
      · refine goodQuad_four ?_ ?_ ?_
        · exact area_y holeW chamfer (by linarith) (by linarith) (by dsimp only; right; ring)
        · exact area_y holeW chamfer (by linarith) (by linarith) (by dsimp only; right; ring)
        · exact area_y holeW chamfer (by linarith) (by linarith) (by dsimp only; right; ring))) hg
    refine ⟨by simp [exit, withMirroredY, exitEdge0], by simp [entry, withMirroredY, entryEdge0], ?_, ?_, ?_⟩
    · simp [exit, withMirroredY, exitEdge0, W, D, neg_div]
    · simp [entry, withMirroredY, entryEdge0, W, D, neg_div]
    rw [meshEdges_append, meshEdges_append, esum_append, esum_append, s1, s2, s3]
    simp only [exit, entry, withMirroredY, exitEdge0, entryEdge0, chamferEdge0, List.map_cons, List.map_nil, List.reverse_cons,
      List.reverse_nil, List.nil_append, List.cons_append, List.append_nil, Vec.mirroredY, Vec.mirroredX, esum_path_cons2, esum_path_one, hW', hD', hD2,
      hWm, hDm, hD3, neg_neg, List.getLast_cons_cons, List.getLast_singleton, List.head_cons, hg.self]
    rw [hg.swap ⟨W, D, -holeH⟩ ⟨-W, D, -holeH⟩, hg.swap ⟨W, D + chamfer, 0⟩ ⟨-W, D + chamfer, 0⟩]
    abel
  | some c =>
    obtain ⟨⟨t3, notch'⟩, h3, h⟩ := bind_ok h
    cases h
    obtain ⟨k1, k2, k3, k4, k5, k6, k7⟩ := hclip c rfl
    unfold clipTriangles at h3
    obtain ⟨quot, h4, h3⟩ := bind_ok h3
    dsimp only at h3
    obtain ⟨u1, m1, h3⟩ := bind_ok h3
    obtain ⟨u2, m2, h3⟩ := bind_ok h3
    obtain ⟨u3, m3, h3⟩ := bind_ok h3
    obtain ⟨u4, m4, h3⟩ := bind_ok h3
    cases h3
    have hquot : quot * Real.sin c.taperAngle = c.depth * Real.tan c.taperAngle := by
      unfold pyDiv at h4
      rw [if_neg k7] at h4
      cases h4
      rw [Real.tan_eq_sin_div_cos]; ring
    rw [← hquot] at k2
    simp only [List.map_cons, List.map_nil, Vec.mirroredX, Vec.mirroredY, List.take_succ_cons, List.take_zero, List.drop_succ_cons, List.drop_zero,
      List.reverse_cons, List.reverse_nil, List.nil_append, List.cons_append] at m1 m2 m3 m4
    have s3 := open_strip_sum (g := g) (by simp) (by simp) m1 (good2 (by
      rcases hc with rfl | hc
      · simp only [sub_zero, neg_zero]
        exact goodQuad_same rfl rfl
      · refine goodQuad_four ?_ ?_ ?_
        · exact area_y holeW chamfer (by linarith) (by linarith) (by dsimp only; right; ring)
        · exact area_y holeW chamfer (by linarith) (by linarith) (by dsimp only; right; ring)
        · exact area_y holeW chamfer (by linarith) (by linarith) (by dsimp only; right; ring))) hg
    have s4 := open_strip_sum (g := g) (by simp) (by simp) m2 (good4 (by
      refine goodQuad_four ?_ ?_ ?_
      · exact area_y ((holeW - c.width) / 2) (holeH - c.height) (by linarith) (by linarith) (by simp only [Vec.add_x, Vec.add_y, Vec.add_z]; right; ring)
      · exact area_y ((holeW - c.width) / 2) (holeH - chamfer) (by linarith) (by linarith) (by simp only [Vec.add_x, Vec.add_y, Vec.add_z]; right; ring)
      · exact area_y ((holeW - c.width) / 2) (holeH - c.height) (by linarith) (by linarith) (by simp only [Vec.add_x, Vec.add_y, Vec.add_z]; right; ring)) (by
      refine goodQuad_four ?_ ?_ ?_
      · exact area_y c.width (c.height - chamfer) (by linarith) (by linarith) (by simp only [Vec.add_x, Vec.add_y, Vec.add_z]; right; ring)
      · exact area_y holeW (c.height - chamfer) (by linarith) (by linarith) (by simp only [Vec.add_x, Vec.add_y, Vec.add_z]; right; ring)
      · exact area_y c.width (c.height - chamfer) (by linarith) (by linarith) (by simp only [Vec.add_x, Vec.add_y, Vec.add_z]; right; ring)) (by
      refine goodQuad_four ?_ ?_ ?_
      · exact area_y ((holeW - c.width) / 2) (holeH - c.height) (by linarith) (by linarith) (by simp only [Vec.add_x, Vec.add_y, Vec.add_z]; right; ring)
      · exact area_y ((holeW - c.width) / 2) (holeH - chamfer) (by linarith) (by linarith) (by simp only [Vec.add_x, Vec.add_y, Vec.add_z]; right; ring)
      · exact area_y ((holeW - c.width) / 2) (holeH - c.height) (by linarith) (by linarith) (by simp only [Vec.add_x, Vec.add_y, Vec.add_z]; right; ring))) hg
    have s5 := open_strip_sum (g := g) (by simp) (by simp) m3 (good4 (by
      refine goodQuad_four ?_ ?_ ?_ <;>
      exact area_x c.depth (holeH - c.height) (by linarith) (by linarith) (by simp only [Vec.add_x, Vec.add_y, Vec.add_z]; left; ring)) (by
      refine goodQuad_four ?_ ?_ ?_ <;>
      exact area_y (c.width - 2 * (quot * Real.sin c.taperAngle)) (holeH - c.height) (by linarith) (by linarith) (by simp only [Vec.add_x, Vec.add_y, Vec.add_z]; right; ring)) (by
      refine goodQuad_four ?_ ?_ ?_ <;>
      exact area_x c.depth (holeH - c.height) (by linarith) (by linarith) (by simp only [Vec.add_x, Vec.add_y, Vec.add_z]; right; ring))) hg
    have s6 := open_strip_sum (g := g) (by simp) (by simp) m4 (good2 (by
      refine goodQuad_four ?_ ?_ ?_
      · exact area_z c.depth (c.width - 2 * (quot * Real.sin c.taperAngle)) (by linarith) (by linarith) (by simp only [Vec.add_x, Vec.add_y, Vec.add_z]; right; ring)
      · exact area_z c.depth c.width (by linarith) (by linarith) (by simp only [Vec.add_x, Vec.add_y, Vec.add_z]; right; ring)
      · exact area_z c.depth c.width (by linarith) (by linarith) (by simp only [Vec.add_x, Vec.add_y, Vec.add_z]; right; ring))) hg
    refine ⟨by simp [exit, withMirroredY, exitEdge0], by simp [entry, withMirroredY, entryEdge0], ?_, ?_, ?_⟩
    · simp [exit, withMirroredY, exitEdge0, W, D, neg_div]
    · simp [entry, withMirroredY, entryEdge0, W, D, neg_div]
    rw [meshEdges_append, meshEdges_append, meshEdges_append, meshEdges_append, meshEdges_append, esum_append, esum_append,
      esum_append, esum_append, esum_append, s1, s2, s3, s4, s5, s6]
    simp only [exit, entry, withMirroredY, exitEdge0, entryEdge0, chamferEdge0, List.map_cons, List.map_nil, List.reverse_cons,
      List.reverse_nil, List.nil_append, List.cons_append, Vec.mirroredY, Vec.mirroredX, esum_path_cons2, esum_path_one, hW', hD', hD2,
      hWm, hDm, hD3, neg_neg, List.getLast_cons_cons, List.getLast_singleton, List.head_cons, hg.self]
    change _ = _
    generalize (⟨-c.width / 2, holeD / 2, -holeH⟩ : Vec) + ⟨0, 0, holeH - c.height⟩ = T0
    generalize (⟨-c.width / 2 + quot * Real.sin c.taperAngle, holeD / 2 + c.depth, -holeH⟩ : Vec) + ⟨0, 0, holeH - c.height⟩ = T1
    generalize (⟨c.width / 2 - quot * Real.sin c.taperAngle, holeD / 2 + c.depth, -holeH⟩ : Vec) + ⟨0, 0, holeH - c.height⟩ = T2
    generalize (⟨c.width / 2, holeD / 2, -holeH⟩ : Vec) + ⟨0, 0, holeH - c.height⟩ = T3
    generalize (⟨-c.width / 2, holeD / 2, -holeH⟩ : Vec) = G0
    generalize (⟨-c.width / 2 + quot * Real.sin c.taperAngle, holeD / 2 + c.depth, -holeH⟩ : Vec) = G1
    generalize (⟨c.width / 2 - quot * Real.sin c.taperAngle, holeD / 2 + c.depth, -holeH⟩ : Vec) = G2
    generalize (⟨c.width / 2, holeD / 2, -holeH⟩ : Vec) = G3
    rw [hg.swap T3 T2, hg.swap T3 G3, hg.swap G0 ⟨-W, D, -holeH⟩, hg.swap ⟨W, D, -chamfer⟩ ⟨W, D, -holeH⟩]
    abel

/-- A closed edge of two halves. -/
theorem two_halves {A : Type} [AddCommGroup A] (g : Vec → Vec → A) (f : Vec → Vec) (hf : ∀ v, f (f v) = v) (e : List Vec)
    (he : e ≠ []) : esum g (cycPairs (e ++ e.map f)) =
      (esum g (pathPairs e) + g (e.getLast he) (f (e.head he))) +
      (esum (fun x y => g (f x) (f y)) (pathPairs e) + g (f (e.getLast he)) (f (f (e.head he)))) := by
  have hm : e.map f ≠ [] := by simpa using he
  rw [esum_cyc g _ (by simp [he]), esum_path_append g e _ he hm, pathPairs_map, esum_map, List.getLast_append_of_ne_nil (by simp [he]) hm,
    List.head_append_of_ne_nil he, List.getLast_map, List.head_map, hf]
  abel

theorem halves_reverse {A : Type} [AddCommGroup A] {g : Vec → Vec → A} (hg : Anti g) (f : Vec → Vec) (e : List Vec)
    (he : e ≠ []) : esum g (cycPairs (e.reverse ++ e.reverse.map f)) = -esum g (cycPairs (e ++ e.map f)) := by
  have : e.reverse ++ e.reverse.map f = (e.map f ++ e).reverse := by rw [List.reverse_append, List.map_reverse]
  rw [this, esum_cyc_reverse hg]
  congr 1
  have hk : e.map f ≠ [] := by simpa using he
  rw [esum_cyc g _ (by simp [he]), esum_cyc g _ (by simp [he]), esum_path_append g _ _ hk he,
    esum_path_append g _ _ he hk, List.getLast_append_of_ne_nil (by simp [he]) he,
    List.getLast_append_of_ne_nil (by simp [he]) hk,
    List.head_append_of_ne_nil he, List.head_append_of_ne_nil hk]
  abel

theorem halfTurn_halfTurn (v : Vec) : halfTurn (halfTurn v) = v := by
  ext <;> simp [halfTurn, Vec.mirroredX, Vec.mirroredY]

theorem distSq_eq (a b : Vec) : distSq a b = (a.x - b.x) ^ 2 + (a.y - b.y) ^ 2 + (a.z - b.z) ^ 2 := by
  unfold distSq; ring

/-- Points that differ by 1/1000 in a coordinate. -/
theorem far_x {a b : Vec} (h : 1 / 1000 ≤ |a.x - b.x|) : (1 / 1000 : ℝ) ≤ Real.sqrt (distSq a b) := by
  apply Real.le_sqrt_of_sq_le
  rw [distSq_eq]
  have := pow_le_pow_left₀ (by norm_num) h 2
  rw [sq_abs] at this
  nlinarith [sq_nonneg (a.y - b.y), sq_nonneg (a.z - b.z)]

theorem far_y {a b : Vec} (h : 1 / 1000 ≤ |a.y - b.y|) : (1 / 1000 : ℝ) ≤ Real.sqrt (distSq a b) := by
  apply Real.le_sqrt_of_sq_le
  rw [distSq_eq]
  have := pow_le_pow_left₀ (by norm_num) h 2
  rw [sq_abs] at this
  nlinarith [sq_nonneg (a.x - b.x), sq_nonneg (a.z - b.z)]

/-- The notch of a hole. -/
theorem notch_eq {holeW holeD holeH chamfer : ℝ} {clip : Option ClipCfg} {half : List (Tri Vec)} {notch : List Vec}
    (hs : SaneHole holeW holeD holeH chamfer clip)
    (h : halfTriangles holeW holeD holeH chamfer clip = .ok (half, notch)) :
    (clip = none ∧ notch = []) ∨ ∃ c τ, clip = some c ∧ FitsClip holeW holeH chamfer c ∧ τ = c.depth * Real.tan c.taperAngle ∧
      notch = [⟨-c.width / 2, holeD / 2, -holeH⟩, ⟨-c.width / 2 + τ, holeD / 2 + c.depth, -holeH⟩,
        ⟨c.width / 2 - τ, holeD / 2 + c.depth, -holeH⟩, ⟨c.width / 2, holeD / 2, -holeH⟩] := by
  unfold halfTriangles at h
  dsimp only at h
  obtain ⟨t1, h1, h⟩ := bind_ok h
  obtain ⟨t2, h2, h⟩ := bind_ok h
  cases clip with
  | none =>
    obtain ⟨t3, h3, h⟩ := bind_ok h
    cases h
    exact Or.inl ⟨rfl, rfl⟩
  | some c =>
    obtain ⟨⟨t3, notch'⟩, h3, h⟩ := bind_ok h
    cases h
    have hc := hs.notch c rfl
    unfold clipTriangles at h3
    obtain ⟨quot, h4, h3⟩ := bind_ok h3
    dsimp only at h3
    obtain ⟨u1, m1, h3⟩ := bind_ok h3
    obtain ⟨u2, m2, h3⟩ := bind_ok h3
    obtain ⟨u3, m3, h3⟩ := bind_ok h3
    obtain ⟨u4, m4, h3⟩ := bind_ok h3
    cases h3
    refine Or.inr ⟨c, quot * Real.sin c.taperAngle, rfl, hc, ?_, rfl⟩
    unfold pyDiv at h4
    rw [if_neg hc.taper] at h4
    cases h4
    rw [Real.tan_eq_sin_div_cos]; ring

theorem exit_far {holeW holeD holeH chamfer : ℝ} {clip : Option ClipCfg} {half : List (Tri Vec)} {notch : List Vec}
    (hs : SaneHole holeW holeD holeH chamfer clip)
    (h : halfTriangles holeW holeD holeH chamfer clip = .ok (half, notch)) :
    (∀ s ∈ cycPairs (withMirroredY (exitEdge0 holeW holeD holeH) ++ notch), s.1 = s.2 ∨ 1 / 1000 ≤ Real.sqrt (distSq s.1 s.2)) ∧
    ∃ hx : withMirroredY (exitEdge0 holeW holeD holeH) ++ notch ≠ [],
      (withMirroredY (exitEdge0 holeW holeD holeH) ++ notch).getLast hx ≠ (withMirroredY (exitEdge0 holeW holeD holeH) ++ notch).head hx := by
  have hW := hs.width
  have hD := hs.depth
  rcases notch_eq hs h with ⟨-, rfl⟩ | ⟨c, τ, -, hc, hτ, rfl⟩
  · simp only [withMirroredY, exitEdge0, List.map_cons, List.map_nil, List.reverse_cons, List.reverse_nil,
      List.nil_append, List.cons_append, Vec.mirroredY, cycPairs_cons, List.append_nil]
    constructor
    · intro s hs'
      simp only [pathPairs, List.tail_cons, List.zip_cons_cons, List.zip_nil_right, List.mem_cons, List.not_mem_nil, or_false] at hs'
      rcases hs' with rfl | rfl | rfl | rfl
      · exact Or.inl rfl
      · right
        refine far_y ?_
        dsimp only
        rw [le_abs]; right; linarith
      · exact Or.inl rfl
      · right
        refine far_y ?_
        dsimp only
        rw [le_abs]; left; linarith
    · refine ⟨by simp, ?_⟩
      simp only [List.getLast_cons_cons, List.getLast_singleton, List.head_cons, ne_eq, Vec.mk.injEq, not_and]
      intro _ h0
      exfalso
      linarith
  · simp only [withMirroredY, exitEdge0, List.map_cons, List.map_nil, List.reverse_cons, List.reverse_nil,
      List.nil_append, List.cons_append, Vec.mirroredY, cycPairs_cons]
    obtain ⟨k1, k2, k3, k4, k5, k6, k7⟩ := hc
    rw [← hτ] at k2
    constructor
    · intro s hs'
      simp only [pathPairs, List.tail_cons, List.zip_cons_cons, List.zip_nil_right, List.mem_cons, List.not_mem_nil, or_false] at hs'
      rcases hs' with rfl | rfl | rfl | rfl | rfl | rfl | rfl | rfl
      · exact Or.inl rfl
      · right
        refine far_y ?_
        dsimp only
        rw [le_abs]; right; linarith
      · exact Or.inl rfl
      · right
        refine far_x ?_
        dsimp only
        rw [le_abs]; right; linarith
      · right
        refine far_y ?_
        dsimp only
        rw [le_abs]; right; linarith
      · right
        refine far_x ?_
        dsimp only
        rw [le_abs]; right; linarith
      · right
        refine far_y ?_
        dsimp only
        rw [le_abs]; left; linarith
      · right
        refine far_y ?_
        dsimp only
        rw [le_abs]; left; linarith
    · refine ⟨by simp, ?_⟩
      simp only [List.getLast_cons_cons, List.getLast_singleton, List.head_cons, ne_eq, Vec.mk.injEq, not_and]
      intro _ h0
      exfalso
      linarith

theorem entry_far {holeW holeD chamfer : ℝ} (hW : 1 ≤ holeW) (hD : 1 ≤ holeD) (hc : chamfer = 0 ∨ 1 / 100 ≤ chamfer) :
    (∀ s ∈ cycPairs (withMirroredY (entryEdge0 holeW holeD chamfer)), s.1 = s.2 ∨ 1 / 1000 ≤ Real.sqrt (distSq s.1 s.2)) ∧
    ∃ hx : withMirroredY (entryEdge0 holeW holeD chamfer) ≠ [],
      (withMirroredY (entryEdge0 holeW holeD chamfer)).getLast hx ≠ (withMirroredY (entryEdge0 holeW holeD chamfer)).head hx := by
  have hc0 : 0 ≤ chamfer := by rcases hc with h | h <;> linarith
  simp only [withMirroredY, entryEdge0, List.map_cons, List.map_nil, List.reverse_cons, List.reverse_nil,
    List.nil_append, List.cons_append, Vec.mirroredY, cycPairs_cons]
  constructor
  · intro s hs'
    simp only [pathPairs, List.tail_cons, List.zip_cons_cons, List.zip_nil_right, List.mem_cons, List.not_mem_nil, or_false] at hs'
    rcases hs' with rfl | rfl | rfl | rfl
    · rcases hc with rfl | hc
      · left; simp
      · right
        refine far_x ?_
        dsimp only
        rw [le_abs]; left; linarith
    · right
      refine far_y ?_
      dsimp only
      rw [le_abs]; right; linarith
    · rcases hc with rfl | hc
      · left; simp
      · right
        refine far_x ?_
        dsimp only
        rw [le_abs]; right; linarith
    · right
      refine far_y ?_
      dsimp only
      rw [le_abs]; left; linarith
  · refine ⟨by simp, ?_⟩
    simp only [List.getLast_cons_cons, List.getLast_singleton, List.head_cons, ne_eq, Vec.mk.injEq, not_and]
    intro _ h0
    exfalso
    linarith

/-- Moving everything keeps a gap closed. -/
theorem closes_map {ts : List (Tri Vec)} {loops : List (Vec × Vec)} (h : Closes ts loops) (f : Vec → Vec) :
    Closes (ts.map fun t => t.map f) (loops.map (Prod.map f f)) := by
  unfold Closes at *
  rw [meshEdges_map, ← List.map_append]
  exact sameChain_map h f

/-- C77. The triangles of a key close the gap between the hole in the outer roof and the hole in the inner roof: together
with the two outlines, each directed edge is used as often as its reverse. -/
theorem C77_factory (switch : SwitchCfg) (roofThickness : ℝ) (f : KeyFactory)
    (hs : SaneHole (holeWidth switch roofThickness) (holeDepth switch roofThickness) roofThickness switch.entryChamfer
      (activeClip switch roofThickness))
    (h : KeyFactory.make switch roofThickness = .ok f) :
    Closes f.triangles (cycPairs f.roofHoleO ++ cycPairs f.roofHoleI) := by
  unfold KeyFactory.make at h
  dsimp only at h
  obtain ⟨⟨half, notch⟩, h1, h⟩ := bind_ok h
  cases h
  dsimp only
  set W := holeWidth switch roofThickness
  set D := holeDepth switch roofThickness
  rw [cyc_map, cyc_map, ← List.map_append]
  refine closes_map (ts := half ++ half.map fun t => t.map halfTurn) (loops :=
    cycPairs (collapsed (withMirroredY (entryEdge0 W D switch.entryChamfer)) (1 / 1000) ++
      (collapsed (withMirroredY (entryEdge0 W D switch.entryChamfer)) (1 / 1000)).map halfTurn) ++
    cycPairs ((collapsed (withMirroredY (exitEdge0 W D roofThickness) ++ notch) (1 / 1000)).reverse ++
      ((collapsed (withMirroredY (exitEdge0 W D roofThickness) ++ notch) (1 / 1000)).reverse).map halfTurn)) ?_
    (sidewaysTurn (isSideways switch roofThickness))
  · unfold Closes
    rw [sameChain_iff]
    intro g hg
    obtain ⟨hx, he, ex, ee, e1⟩ := half_sum hs h1 hg
    obtain ⟨_, _, _, _, e2⟩ := half_sum hs h1 (anti_map hg halfTurn)
    obtain ⟨f1, hx', f2⟩ := exit_far hs h1
    obtain ⟨f3, he', f4⟩ := entry_far hs.width hs.depth hs.chamfer_size
    obtain ⟨kx, x1, x2, x3⟩ := collapsed_path hg (by norm_num : (0 : ℝ) < 1 / 1000) f1 hx' f2
    obtain ⟨-, -, -, x4⟩ := collapsed_path (anti_map hg halfTurn) (by norm_num : (0 : ℝ) < 1 / 1000) f1 hx' f2
    obtain ⟨ke, y1, y2, y3⟩ := collapsed_path hg (by norm_num : (0 : ℝ) < 1 / 1000) f3 he' f4
    obtain ⟨-, -, -, y4⟩ := collapsed_path (anti_map hg halfTurn) (by norm_num : (0 : ℝ) < 1 / 1000) f3 he' f4
    set X := withMirroredY (exitEdge0 W D roofThickness) ++ notch
    set N := withMirroredY (entryEdge0 W D switch.entryChamfer)
    have r1 := two_halves g halfTurn halfTurn_halfTurn (collapsed N (1 / 1000)) ke
    have r2 := two_halves g halfTurn halfTurn_halfTurn (collapsed X (1 / 1000)) kx
    have r3 := halves_reverse hg halfTurn (collapsed X (1 / 1000)) kx
    have t1 : halfTurn ⟨-(W / 2), -(D / 2) - switch.entryChamfer, 0⟩ = ⟨W / 2, D / 2 + switch.entryChamfer, 0⟩ := by
      ext <;> simp [halfTurn, Vec.mirroredX, Vec.mirroredY]; ring
    have t2 : halfTurn ⟨-(W / 2), -(D / 2), -roofThickness⟩ = ⟨W / 2, D / 2, -roofThickness⟩ := by
      ext <;> simp [halfTurn, Vec.mirroredX, Vec.mirroredY]
    have t3 : halfTurn ⟨-(W / 2), -(D / 2), -switch.entryChamfer⟩ = ⟨W / 2, D / 2, -switch.entryChamfer⟩ := by
      ext <;> simp [halfTurn, Vec.mirroredX, Vec.mirroredY]
    have t1' : halfTurn ⟨W / 2, D / 2 + switch.entryChamfer, 0⟩ = ⟨-(W / 2), -(D / 2) - switch.entryChamfer, 0⟩ := by
      rw [← t1, halfTurn_halfTurn]
    have t2' : halfTurn ⟨W / 2, D / 2, -roofThickness⟩ = ⟨-(W / 2), -(D / 2), -roofThickness⟩ := by
      rw [← t2, halfTurn_halfTurn]
    have t3' : halfTurn ⟨W / 2, D / 2, -switch.entryChamfer⟩ = ⟨-(W / 2), -(D / 2), -switch.entryChamfer⟩ := by
      rw [← t3, halfTurn_halfTurn]
    rw [y1, y2, y3, y4, ee, t1, t1'] at r1
    rw [x1, x2, x3, x4, ex, t2, t2'] at r2
    rw [r2] at r3
    rw [t1, t2, t3, t1', t2', t3'] at e2
    rw [esum_append, meshEdges_append, esum_append, meshEdges_map, esum_map, esum_append, e1, e2, r1, r3, esum_nil]
    clear e1 e2 r1 r2 r3 t1 t2 t3 t1' t2' t3'
    generalize esum g (pathPairs X) = a1
    generalize esum g (pathPairs N) = a2
    generalize esum (fun x y => g (halfTurn x) (halfTurn y)) (pathPairs X) = a3
    generalize esum (fun x y => g (halfTurn x) (halfTurn y)) (pathPairs N) = a4
    abel

/-- C77. The same for each key, wherever it is placed. -/
theorem C77_key_closes (switch : SwitchCfg) (roofThickness : ℝ) (key : Key)
    (hs : SaneHole (holeWidth switch roofThickness) (holeDepth switch roofThickness) roofThickness switch.entryChamfer
      (activeClip switch roofThickness))
    (h : KeyFactory.make switch roofThickness = .ok key.factory) :
    Closes key.triangles (cycPairs key.roofHoleO ++ cycPairs key.roofHoleI) := by
  have := closes_map (C77_factory switch roofThickness key.factory hs h) (fun v => v.transformed key.matrix)
  rw [List.map_append] at this
  unfold Key.roofHoleO Key.roofHoleI
  rw [cyc_map, cyc_map]
  exact this

/-- C77. Such a key can always be built. -/
theorem C77_succeeds (switch : SwitchCfg) (roofThickness : ℝ)
    (hs : ∀ c ∈ activeClip switch roofThickness, Real.cos c.taperAngle ≠ 0) :
    ∃ f, KeyFactory.make switch roofThickness = .ok f := by
  unfold KeyFactory.make
  dsimp only
  have : ∀ W D ch : ℝ, ∃ r, halfTriangles W D roofThickness ch (activeClip switch roofThickness) = .ok r := by
    intro W D ch
    unfold halfTriangles
    dsimp only
    obtain ⟨t1, h1⟩ := C32_total (withMirroredY (exitEdge0 W D roofThickness)) (withMirroredY (chamferEdge0 W D ch)) false
      (by simp [withMirroredY, exitEdge0]) (by simp [withMirroredY, chamferEdge0])
    obtain ⟨t2, h2⟩ := C32_total (withMirroredY (chamferEdge0 W D ch)) (withMirroredY (entryEdge0 W D ch)) false
      (by simp [withMirroredY, chamferEdge0]) (by simp [withMirroredY, entryEdge0])
    rw [h1, h2]
    dsimp only [bind, Except.bind]
    cases hcl : activeClip switch roofThickness with
    | none =>
      dsimp only
      generalize he : List.map Vec.mirroredX _ = R
      have hR : R ≠ [] := by rw [← he]; simp
      obtain ⟨t3, h3⟩ := C32_total R [(⟨-W / 2, -D / 2, -roofThickness⟩ : Vec).mirroredY, (⟨-W / 2, -D / 2, -ch⟩ : Vec).mirroredY,
        (⟨-W / 2, -D / 2 - ch, 0⟩ : Vec).mirroredY] false hR (by simp)
      rw [h3]
      exact ⟨_, rfl⟩
    | some c =>
      dsimp only
      have hcos := hs c (by rw [hcl]; rfl)
      have key : ∀ (B : ℝ) (p q r : Vec), ∃ x, clipTriangles c B roofThickness p q r = .ok x := by
        intro B p q r
        unfold clipTriangles pyDiv
        rw [if_neg hcos]
        dsimp only [bind, Except.bind]
        obtain ⟨u1, m1⟩ := C32_total [q, q.mirroredX] [p, p.mirroredX] false (by simp) (by simp)
        rw [m1]
        dsimp only
        generalize hE2 : meshPairwise _ _ _ = E2
        obtain ⟨u2, m2⟩ : ∃ u, E2 = .ok u := by rw [← hE2]; exact C32_total _ _ _ (by simp) (by simp)
        rw [m2]
        dsimp only
        generalize hE3 : meshPairwise _ _ _ = E3
        obtain ⟨u3, m3⟩ : ∃ u, E3 = .ok u := by rw [← hE3]; exact C32_total _ _ _ (by simp) (by simp)
        rw [m3]
        dsimp only
        generalize hE4 : meshPairwise _ _ _ = E4
        obtain ⟨u4, m4⟩ : ∃ u, E4 = .ok u := by rw [← hE4]; exact C32_total _ _ _ (by simp) (by simp)
        rw [m4]
        exact ⟨_, rfl⟩
      obtain ⟨x, hx⟩ := key (D / 2) (⟨-W / 2, -D / 2 - ch, 0⟩ : Vec).mirroredY (⟨-W / 2, -D / 2, -ch⟩ : Vec).mirroredY
        (⟨-W / 2, -D / 2, -roofThickness⟩ : Vec).mirroredY
      rw [hx]
      exact ⟨_, rfl⟩
  obtain ⟨r, hr⟩ := this (holeWidth switch roofThickness) (holeDepth switch roofThickness) switch.entryChamfer
  rw [hr]
  exact ⟨_, rfl⟩

/-- The switch of the default configuration meets the hypotheses. -/
example : SaneHole (141 / 10) (139 / 10) 4 (4 / 10) (some ⟨8, 9 / 10, 14 / 10, Real.pi / 3, false⟩) := by
  refine ⟨by norm_num, by norm_num, Or.inr (by norm_num), by norm_num, ?_⟩
  rintro c ⟨⟩
  refine ⟨by norm_num, ?_, by norm_num, by norm_num, by norm_num, by norm_num, ?_⟩
  · dsimp only
    rw [Real.tan_pi_div_three]
    have : Real.sqrt 3 ≤ 2 := by rw [Real.sqrt_le_left (by norm_num)]; norm_num
    linarith
  · dsimp only
    rw [Real.cos_pi_div_three]; norm_num

end Chrumm.Part
