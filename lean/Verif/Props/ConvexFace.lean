import Verif.Props.Face
import Verif.Props.Planar
import Verif.Props.Strips

/-! C62 for faces: flat convex faces without holes are always cut completely, wherever they are in space. -/

namespace Chrumm.Geo.Spec

/-- A flat convex outline in space, seen from the tip of the unit vector `n`: all points have the same distance from
the plane through the origin, and any three of them, in their order, are counter-clockwise, each at least 2e-6
away from the line through the two others. -/
structure FlatConvex (n : Vec) (edge : List Vec) : Prop where
  unit : n.dot n = 1
  three : 3 ≤ edge.length
  flat : ∃ k, ∀ p ∈ edge, p.dot n = k
  convex : ∀ a b c, [a, b, c].Sublist edge →
    0 < (normalOf ⟨a, b, c⟩).dot n ∧
    2e-6 * Real.sqrt (distSq a b) ≤ (normalOf ⟨a, b, c⟩).dot n ∧
    2e-6 * Real.sqrt (distSq b c) ≤ (normalOf ⟨a, b, c⟩).dot n ∧
    2e-6 * Real.sqrt (distSq c a) ≤ (normalOf ⟨a, b, c⟩).dot n

end Chrumm.Geo.Spec

namespace Chrumm.Geo
open Spec Classical

/-- A closed polygon is a fan around its first corner. -/
theorem fan_cyc {g : Vec → Vec → ℝ} (hg : Anti g) (p : Vec) (l : List Vec) (hl : l ≠ []) :
    esum g (cycPairs (p :: l)) = ((pathPairs l).map fun (a, b) => g p a + g a b + g b p).sum := by
  rw [esum_cyc g _ (List.cons_ne_nil p l)]
  obtain ⟨a, m, rfl⟩ := List.exists_cons_of_ne_nil hl
  rw [esum_path_cons2, List.head_cons, List.getLast_cons_cons]
  clear hl
  induction m generalizing a with
  | nil =>
    have := hg.swap p a
    simp only [List.getLast_singleton, pathPairs, List.tail_cons, List.zip_nil_right, List.map_nil, List.sum_nil, esum_nil]
    linarith
  | cons b m ih =>
    have h1 : ((pathPairs (a :: b :: m)).map fun (x, y) => g p x + g x y + g y p).sum =
        g p a + g a b + g b p + ((pathPairs (b :: m)).map fun (x, y) => g p x + g x y + g y p).sum := by
      simp [pathPairs]
    rw [h1, ← ih b, esum_path_cons2, List.getLast_cons_cons]
    have := hg.swap p b
    linarith

/-- Flat triangles have the normal of their plane. -/
theorem flat_normal {n a b c : Vec} {k : ℝ} (hn : n.dot n = 1) (ha : a.dot n = k) (hb : b.dot n = k) (hc : c.dot n = k)
    (w : Vec) : (normalOf ⟨a, b, c⟩).dot w = (normalOf ⟨a, b, c⟩).dot n * n.dot w := by
  have h1 : (b - a).dot n = 0 := by simp only [Vec.dot, Vec.sub_x, Vec.sub_y, Vec.sub_z] at *; linarith
  have h2 : (c - a).dot n = 0 := by simp only [Vec.dot, Vec.sub_x, Vec.sub_y, Vec.sub_z] at *; linarith
  unfold normalOf
  dsimp only
  generalize b - a = u at *
  generalize c - a = v at *
  have key : u.cross v = n * (u.cross v).dot n := by
    simp only [Vec.dot] at hn h1 h2
    ext <;> simp only [Vec.cross, Vec.dot, Vec.mul_x, Vec.mul_y, Vec.mul_z]
    · linear_combination (-(u.y * v.z - u.z * v.y)) * hn + (v.z * n.y - v.y * n.z) * h1 + (u.y * n.z - u.z * n.y) * h2
    · linear_combination (-(u.z * v.x - u.x * v.z)) * hn + (v.x * n.z - v.z * n.x) * h1 + (u.z * n.x - u.x * n.z) * h2
    · linear_combination (-(u.x * v.y - u.y * v.x)) * hn + (v.y * n.x - v.x * n.y) * h1 + (u.x * n.y - u.y * n.x) * h2
  generalize (u.cross v).dot n = d at key
  rw [key]
  simp only [Vec.dot, Vec.mul_x, Vec.mul_y, Vec.mul_z]
  ring

theorem pathPairs_sublist {l : List Vec} {a b : Vec} (h : (a, b) ∈ pathPairs l) : [a, b].Sublist l := by
  induction l with
  | nil => simp [pathPairs] at h
  | cons x l ih =>
    cases l with
    | nil => simp [pathPairs] at h
    | cons y l =>
      have : pathPairs (x :: y :: l) = (x, y) :: pathPairs (y :: l) := rfl
      rw [this, List.mem_cons] at h
      rcases h with h | h
      · obtain ⟨rfl, rfl⟩ := Prod.mk.inj h
        simp
      · exact (ih h).cons _

/-- The normal of a flat convex outline is found. -/
theorem flatConvex_normal {n : Vec} {edge : List Vec} (h : FlatConvex n edge) : Vec.fromSurfaceNormal edge = .ok n := by
  obtain ⟨hn, h3, ⟨k, hk⟩, hc⟩ := h
  obtain ⟨p, l, rfl⟩ := List.exists_cons_of_ne_nil (l := edge) (by rintro rfl; simp at h3)
  have hl : l ≠ [] := by rintro rfl; simp at h3
  have tri : ∀ a b, (a, b) ∈ pathPairs l → [p, a, b].Sublist (p :: l) := fun a b hab => (pathPairs_sublist hab).cons₂ _
  have mem : ∀ a b, (a, b) ∈ pathPairs l → a ∈ p :: l ∧ b ∈ p :: l := fun a b hab =>
    ⟨(tri a b hab).subset (by simp), (tri a b hab).subset (by simp)⟩
  set d : ℝ := ((pathPairs l).map fun (a, b) => (normalOf ⟨p, a, b⟩).dot n).sum with hd
  have hsum : ∀ w : Vec, (Vec.newell (p :: l)).dot w = d * n.dot w := by
    intro w
    have e1 : (Vec.newell (p :: l)).dot w = esum (fun p q : Vec => (p.cross q).dot w) (cycPairs (p :: l)) := by
      rw [newell_eq, vecArea2]
      simp only [Vec.dot, esum]
      rw [← List.sum_map_mul_right, ← List.sum_map_mul_right, ← List.sum_map_mul_right, ← List.sum_map_add, ← List.sum_map_add]
    rw [e1, fan_cyc (cross_anti w) p l hl, hd, ← List.sum_map_mul_right]
    congr 1
    refine List.map_congr_left ?_
    rintro ⟨a, b⟩ hab
    obtain ⟨ma, mb⟩ := mem a b hab
    dsimp only
    rw [← flat_normal hn (hk p (by simp)) (hk a ma) (hk b mb)]
    simp only [normalOf, Vec.dot, Vec.cross, Vec.sub_x, Vec.sub_y, Vec.sub_z]
    ring
  have hpos : 0 < d := by
    obtain ⟨a, m, rfl⟩ := List.exists_cons_of_ne_nil hl
    obtain ⟨b, m, rfl⟩ := List.exists_cons_of_ne_nil (l := m) (by rintro rfl; simp at h3)
    rw [hd]
    refine List.sum_pos _ ?_ (by simp [pathPairs])
    rintro x hx
    obtain ⟨⟨u, v⟩, huv, rfl⟩ := List.mem_map.1 hx
    exact (hc _ _ _ (tri u v huv)).1
  unfold Vec.fromSurfaceNormal
  apply UnitOf.normalized
  refine ⟨hn, d, hpos, ?_⟩
  have hx := hsum ⟨1, 0, 0⟩
  have hy := hsum ⟨0, 1, 0⟩
  have hz := hsum ⟨0, 0, 1⟩
  simp only [Vec.dot, mul_one, mul_zero, add_zero, zero_add] at hx hy hz
  ext <;> simp only [Vec.mul_x, Vec.mul_y, Vec.mul_z] <;> linarith

/-- **C62** A flat convex face without holes is always cut completely: triangulating it cannot fail, and V corners give
V - 2 triangles, whatever the orientation of the face in space. -/
theorem C62_flat_face {n : Vec} {edge : List Vec} (h : FlatConvex n edge) :
    (∃ out, Triangulates edge [] out) ∧ ∀ out, Triangulates edge [] out → out.length = edge.length - 2 := by
  have hfn := flatConvex_normal h
  obtain ⟨hn, h3, ⟨k, hk⟩, hc⟩ := h
  have un : UnitOf n n := ⟨hn, 1, one_pos, by ext <;> simp⟩
  obtain ⟨m, hm⟩ : ∃ m, Mat.fromAlignment n ⟨0, 0, 1⟩ = .ok m := by
    rcases hm : Mat.fromAlignment n ⟨0, 0, 1⟩ with e | m
    · obtain ⟨h1 | h1, -⟩ := (C23_raises_iff _ _ _).1 hm
      · rw [h1] at hn; simp [Vec.dot] at hn
      · exact absurd (congrArg Vec.z h1) (by simp)
    · exact ⟨m, rfl⟩
  obtain ⟨w, hw, hpos, hdist⟩ := upright_cross hn hm
  set f : Vec → Vec := fun p => (p.transformed m).xy with hf
  have hleft : ∀ a b c, a ∈ edge → b ∈ edge → c ∈ edge → left (f a) (f b) (f c) = (normalOf ⟨a, b, c⟩).dot n * n.dot w := by
    intro a b c ha hb hc'
    rw [← flat_normal hn (hk a ha) (hk b hb) (hk c hc')]
    have e1 := hw a b
    have e2 := hw b c
    have e3 := hw c a
    have e4 : (normalOf ⟨a, b, c⟩).dot w = (a.cross b).dot w + (b.cross c).dot w + (c.cross a).dot w := by
      simp only [normalOf, Vec.dot, Vec.cross, Vec.sub_x, Vec.sub_y, Vec.sub_z]
      ring
    rw [e4, ← e1, ← e2, ← e3]
    simp only [left, hf, Vec.xy]
    ring
  have hd2 : ∀ a b, dist2D (f a) (f b) ≤ Real.sqrt (distSq a b) := by
    intro a b
    refine Real.sqrt_le_sqrt ?_
    rw [← hdist a b]
    simp only [distSq2D, distSq, hf, Vec.xy]
    nlinarith [sq_nonneg ((a.transformed m).z - (b.transformed m).z)]
  have hpt : ∀ i, i < edge.length → pt (edge.map f) i = f (edge.getD i 0) := by
    intro i hi
    unfold pt
    simp [List.getD, hi]
  have hconv : ConvexWithMargin (pt (edge.map f)) (List.range edge.length) := by
    intro x y z hs
    have mx : ∀ i ∈ [x, y, z], i < edge.length := fun i hi => List.mem_range.1 (hs.subset hi)
    have hx := mx x (by simp)
    have hy := mx y (by simp)
    have hz := mx z (by simp)
    have hsub : [edge.getD x 0, edge.getD y 0, edge.getD z 0].Sublist edge := by
      have h1 := hs.map (fun i => edge.getD i 0)
      have h2 : (List.range edge.length).map (fun i => edge.getD i 0) = edge := by
        apply List.ext_getElem
        · simp
        · intro i h1 h2
          simp only [List.getElem_map, List.getElem_range]
          exact (List.getElem_eq_getD (h := h2) 0).symm
      rw [h2] at h1
      exact h1
    rw [hpt x hx, hpt y hy, hpt z hz]
    generalize edge.getD x 0 = a at *
    generalize edge.getD y 0 = b at *
    generalize edge.getD z 0 = c at *
    obtain ⟨c1, c2, c3, c4⟩ := hc a b c hsub
    rw [hleft a b c (hsub.subset (by simp)) (hsub.subset (by simp)) (hsub.subset (by simp))]
    have b1 := hd2 a b
    have b2 := hd2 b c
    have b3 := hd2 c a
    generalize (normalOf ⟨a, b, c⟩).dot n = d at *
    generalize n.dot w = t at *
    have hdt : d * (1 / 2) ≤ d * t := mul_le_mul_of_nonneg_left hpos c1.le
    norm_num at c2 c3 c4 ⊢
    refine ⟨by nlinarith, by linarith, by linarith, by linarith⟩
  obtain ⟨ears, rest, hcut, ⟨out, hrun⟩, hall⟩ := C62_convex_delaunay (edge.map f) (List.range edge.length) (by simpa) hconv
  have hface : faceEars edge [] = .ok (edge, edge.map f, ears, List.range edge.length, rest) := by
    unfold faceEars
    rw [hfn]
    simp only [List.flatten_nil, List.append_nil, bind, Except.bind, hm]
    have h1 : mergeHoles (edge.map f) (List.range edge.length) (holeIndexes edge.length []) = .ok (List.range edge.length) := by
      simp [mergeHoles, sortHoles, holeIndexes]; rfl
    rw [← hf, h1]
    dsimp only
    rw [hcut]
    rfl
  refine ⟨⟨_, _, _, _, _, _, _, hface, hrun, rfl⟩, ?_⟩
  rintro out' ⟨real, upright, ears', poly, rest', tris, h1, h2, rfl⟩
  rw [hface] at h1
  simp only [Except.ok.injEq, Prod.mk.injEq] at h1
  obtain ⟨rfl, rfl, rfl, rfl, rfl⟩ := h1
  rw [List.length_map, (hall tris h2).1, List.length_range]

end Chrumm.Geo
