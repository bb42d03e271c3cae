import Verif.Props.Planar

/-! C42: triangulated faces. -/

namespace Chrumm.Geo.Spec

/-- Twice the area of a closed polygon, seen along the direction `w` (times its length). -/
noncomputable def areaAlong (w : Vec) (vs : List Vec) : ℝ := ((cycPairs vs).map fun (p, q) => (p.cross q).dot w).sum

end Chrumm.Geo.Spec

namespace Chrumm.Geo
open Spec

theorem esum_map_tri {P Q A : Type} [DecidableEq P] [DecidableEq Q] [AddCommGroup A] (f : P → Q) (g : Q → Q → A) (l : List (P × P)) :
    esum g (l.map fun (p, q) => (f p, f q)) = esum (fun p q => g (f p) (f q)) l := by
  induction l with
  | nil => rfl
  | cons e l ih => rw [List.map_cons, esum_cons, esum_cons, ih]

theorem Anti.comap {P Q A : Type} [AddCommGroup A] {g : Q → Q → A} (hg : Anti g) (f : P → Q) :
    Anti fun p q => g (f p) (f q) := ⟨fun _ _ => hg.swap _ _, fun _ => hg.self _⟩

theorem meshEdges_map_tri {P Q : Type} (f : P → Q) (ts : List (Tri P)) :
    meshEdges (ts.map (Tri.map f)) = (meshEdges ts).map fun (p, q) => (f p, f q) := by
  induction ts with
  | nil => rfl
  | cons t ts ih =>
    simp only [meshEdges, List.map_cons, List.flatMap_cons, List.map_append] at ih ⊢
    rw [ih]; rfl

/-- The index lists give back the points. -/
theorem range_points (l r : List Vec) : (List.range l.length).map (pt (l ++ r)) = l := by
  apply List.ext_getElem
  · simp
  · intro i h1 h2
    simp [pt, List.getD_eq_getElem?_getD, List.getElem?_append_left h2, h2]

theorem hole_points : ∀ (l : List Vec) (holes : List (List Vec)) (r : List Vec),
    (holeIndexes l.length holes).map (List.map (pt (l ++ holes.flatten ++ r))) = holes.filter (fun h => decide (h ≠ []))
  | l, [], r => rfl
  | l, hole :: holes, r => by
    unfold holeIndexes
    by_cases h : hole = []
    · subst h
      simp only [↓reduceIte, List.flatten_cons, List.nil_append]
      rw [hole_points l holes r]
      simp
    · have ih := hole_points (l ++ hole) holes r
      rw [List.length_append] at ih
      rw [if_neg h, List.map_cons, List.filter_cons_of_pos (by simpa using h)]
      congr 1
      · apply List.ext_getElem
        · simp
        · intro i h1 h2
          simp only [List.getElem_map, List.getElem_range', pt, List.getD_eq_getElem?_getD, List.flatten_cons,
            List.append_assoc, one_mul]
          rw [List.getElem?_append_right (by omega), Nat.add_sub_cancel_left, List.getElem?_append_left h2,
            List.getElem?_eq_getElem h2]
          rfl
      · rw [← ih]; simp [List.append_assoc]

theorem hole_nonempty : ∀ (n : ℕ) (holes : List (List Vec)), ∀ h ∈ holeIndexes n holes, h ≠ []
  | n, [], h, hm => by simp [holeIndexes] at hm
  | n, hole :: holes, h, hm => by
    unfold holeIndexes at hm
    split_ifs at hm with he
    · exact hole_nonempty n holes h hm
    · rcases List.mem_cons.mp hm with rfl | hm
      · simpa [List.range'_eq_nil_iff] using he
      · exact hole_nonempty _ holes h hm

theorem hole_lengths (n : ℕ) (holes : List (List Vec)) :
    ((holeIndexes n holes).map fun h => h.length + 2).sum =
      holes.flatten.length + 2 * (holes.filter fun h => decide (h ≠ [])).length := by
  induction holes generalizing n with
  | nil => rfl
  | cons hole holes ih =>
    unfold holeIndexes
    by_cases h : hole = []
    · subst h; simpa using ih n
    · rw [if_neg h, List.map_cons, List.sum_cons, ih, List.filter_cons_of_pos (by simpa using h)]
      simp; ring

theorem hole_bound (n : ℕ) (holes : List (List Vec)) :
    ∀ h ∈ holeIndexes n holes, ∀ i ∈ h, i < n + holes.flatten.length := by
  induction holes generalizing n with
  | nil => simp [holeIndexes]
  | cons hole holes ih =>
    intro h hm i hi
    unfold holeIndexes at hm
    split_ifs at hm with he
    · have := ih n h hm i hi
      subst he; simpa using this
    · simp only [List.flatten_cons, List.length_append]
      rcases List.mem_cons.mp hm with rfl | hm
      · rw [List.mem_range'_1] at hi; omega
      · have := ih _ h hm i hi; omega

theorem normal_length {vs : List Vec} {n : Vec} (h : Vec.fromSurfaceNormal vs = .ok n) : 3 ≤ vs.length := by
  unfold Vec.fromSurfaceNormal at h
  by_contra hl
  have h0 : Vec.newell vs = 0 := by
    rw [newell_eq]
    match vs, hl with
    | [], _ => ext <;> simp [vecArea2, cycPairs]
    | [a], _ => ext <;> simp [vecArea2, cycPairs, Vec.cross] <;> ring
    | [a, b], _ => ext <;> simp [vecArea2, cycPairs, Vec.cross] <;> ring
    | a :: b :: c :: l, hl => simp at hl
  rw [h0, Vec.normalized_zero] at h
  cases h

/-- What `faceEars` computes. -/
theorem faceEars_ok {edge : List Vec} {holes : List (List Vec)} {real upright : List Vec} {ears : List (Tri ℕ)}
    {poly rest : List ℕ} (h : faceEars edge holes = .ok (real, upright, ears, poly, rest)) :
    real = edge ++ holes.flatten ∧ 3 ≤ edge.length ∧ (∀ p ∈ upright, p.z = 0) ∧
    mergeHoles upright (List.range edge.length) (holeIndexes edge.length holes) = .ok poly ∧
    cutEars upright poly = .ok (ears, rest) := by
  unfold faceEars at h
  rcases hn : Vec.fromSurfaceNormal edge with e | n
  · rw [hn] at h; cases h
  rw [hn] at h
  dsimp only [bind, Except.bind] at h
  rcases hm : Mat.fromAlignment n ⟨0, 0, 1⟩ with e | m
  · rw [hm] at h; cases h
  rw [hm] at h
  dsimp only at h
  rcases hg : mergeHoles (List.map (fun p => (p.transformed m).xy) (edge ++ holes.flatten)) (List.range edge.length)
    (holeIndexes edge.length holes) with e | poly'
  · rw [hg] at h; cases h
  rw [hg] at h
  dsimp only at h
  rcases hc : cutEars (List.map (fun p => (p.transformed m).xy) (edge ++ holes.flatten)) poly' with e | ⟨ears', rest'⟩
  · rw [hc] at h; cases h
  rw [hc] at h
  simp only [pure, Except.pure, Except.ok.injEq, Prod.mk.injEq] at h
  obtain ⟨rfl, rfl, rfl, rfl, rfl⟩ := h
  refine ⟨rfl, normal_length hn, ?_, hg, hc⟩
  intro p hp
  obtain ⟨q, -, rfl⟩ := List.mem_map.mp hp
  rfl

theorem ears_distinct {points : List Vec} {poly : List ℕ} {ears : List (Tri ℕ)} {rest : List ℕ}
    (h : cutEars points poly = .ok (ears, rest)) : ∀ t ∈ ears, Distinct t := by
  intro t ht
  obtain ⟨-, -, -, h4, -⟩ := C37_ears points poly ears rest h
  obtain ⟨-, h1, h2, h3⟩ := h4 t ht
  exact ⟨fun e => h1 (by rw [e]; exact ⟨rfl, rfl⟩), fun e => h2 (by rw [e]; exact ⟨rfl, rfl⟩),
    fun e => h3 (by rw [e]; exact ⟨rfl, rfl⟩)⟩

/-- **C42** The triangles of a face, together with the part of the polygon that could not be cut into
ears, have the boundary of the outline and all holes. All their corners are points of the face. With V points
and H (not empty) holes there are at most V + 2 H - 2 triangles; in that case nothing is left over. -/
theorem C42_boundary (edge : List Vec) (holes : List (List Vec)) (out : List (Tri Vec))
    (h : Triangulates edge holes out) :
    ∃ rest : List Vec,
      SameChain (meshEdges out ++ cycPairs rest) (cycPairs edge ++ holes.flatMap cycPairs) ∧
      out.length + rest.length = edge.length + holes.flatten.length + 2 * (holes.filter (· ≠ [])).length ∧
      2 ≤ rest.length ∧
      ∀ t ∈ out, ∀ p ∈ [t.a, t.b, t.c], p ∈ edge ++ holes.flatten := by
  obtain ⟨real, upright, ears, poly, rest, tris, hf, hr, rfl⟩ := h
  obtain ⟨rfl, h3, hz, hg, hc⟩ := faceEars_ok hf
  have hne := hole_nonempty edge.length holes
  have b1 := C36_boundary upright _ _ poly hz hne hg
  obtain ⟨l1, m1, -⟩ := C36_corners upright _ _ poly hz hne hg
  have b2 := C37_boundary upright poly ears rest hc
  obtain ⟨l2, -, l3, m2, -⟩ := C37_ears upright poly ears rest hc
  obtain ⟨l4, -, m3, b3, -⟩ := C40_surface upright ears tris (ears_distinct hc) hr
  rw [hole_lengths, List.length_range] at l1
  refine ⟨rest.map (pt (edge ++ holes.flatten)), ?_, ?_, ?_, ?_⟩
  · rw [sameChain_iff]
    intro g hg
    have hga : Anti fun i j => g (pt (edge ++ holes.flatten) i) (pt (edge ++ holes.flatten) j) := hg.comap _
    rw [esum_append, meshEdges_map_tri, cycPairs_map, esum_map_tri, esum_map_tri, esum_congr hga b3, ← esum_append,
      esum_congr hga b2, esum_congr hga b1, esum_append, esum_append]
    congr 1
    · rw [← esum_map_tri (pt (edge ++ holes.flatten)) g, ← cycPairs_map, range_points]
    · have hp := hole_points edge holes []
      rw [List.append_nil] at hp
      have e1 : ∀ l : List (List ℕ), esum (fun i j => g (pt (edge ++ holes.flatten) i) (pt (edge ++ holes.flatten) j))
          (l.flatMap cycPairs) = esum g ((l.map (List.map (pt (edge ++ holes.flatten)))).flatMap cycPairs) := by
        intro l
        induction l with
        | nil => rfl
        | cons a l ih =>
          rw [List.flatMap_cons, esum_append, ih, List.map_cons, List.flatMap_cons, esum_append, cycPairs_map, esum_map_tri]
      have e2 : ∀ l : List (List Vec), esum g ((l.filter (fun h => decide (h ≠ []))).flatMap cycPairs) =
          esum g (l.flatMap cycPairs) := by
        intro l
        induction l with
        | nil => rfl
        | cons a l ih =>
          by_cases ha : a = []
          · subst ha; simpa [cycPairs] using ih
          · rw [List.filter_cons_of_pos (by simpa using ha), List.flatMap_cons, List.flatMap_cons, esum_append,
              esum_append, ih]
      rw [e1, hp, e2]
  · rw [List.length_map, List.length_map, l4, l2, l1]; ring
  · rw [List.length_map]; exact l3 (by omega)
  · intro t ht p hp
    obtain ⟨t', ht', rfl⟩ := List.mem_map.mp ht
    have hin : ∀ i ∈ poly, pt (edge ++ holes.flatten) i ∈ edge ++ holes.flatten := by
      intro i hi
      have hb : i < (edge ++ holes.flatten).length := by
        rw [List.length_append]
        rcases (m1 i).mp hi with h | ⟨h, hh, hi⟩
        · have := List.mem_range.mp h; omega
        · exact hole_bound _ _ h hh i hi
      unfold pt
      rw [List.getD_eq_getElem?_getD, List.getElem?_eq_getElem hb]
      exact List.getElem_mem hb
    have hc' : ∀ v ∈ [t'.a, t'.b, t'.c], v ∈ poly := by
      intro v hv
      obtain ⟨u, hu, hv⟩ := m3 t' ht' v hv
      obtain ⟨⟨q1, q2, q3⟩, -⟩ := m2 u hu
      simp only [List.mem_cons, List.not_mem_nil, or_false] at hv
      rcases hv with rfl | rfl | rfl <;> assumption
    simp only [List.mem_cons, List.not_mem_nil, or_false] at hp
    rcases hp with rfl | rfl | rfl
    · exact hin _ (hc' _ (by simp))
    · exact hin _ (hc' _ (by simp))
    · exact hin _ (hc' _ (by simp))

theorem cross_anti (w : Vec) : Anti fun p q : Vec => (p.cross q).dot w := by
  constructor <;> intros <;> simp only [Vec.cross, Vec.dot] <;> ring

theorem areaAlong_eq (w : Vec) (vs : List Vec) :
    areaAlong w vs = esum (fun p q : Vec => (p.cross q).dot w) (cycPairs vs) := rfl

theorem normal_eq (w : Vec) (t : Tri Vec) : (normalOf t).dot w = tsum (fun p q : Vec => (p.cross q).dot w) t := by
  simp only [normalOf, tsum, Vec.cross, Vec.dot, Vec.sub_x, Vec.sub_y, Vec.sub_z]; ring

/-- **C42** When all ears have been found, the triangles have the boundary of the outline and all holes, and,
seen from any direction, their areas add up to that of the outline and all holes. -/
theorem C42_complete (edge : List Vec) (holes : List (List Vec)) (out : List (Tri Vec))
    (h : Triangulates edge holes out)
    (hl : out.length = edge.length + holes.flatten.length + 2 * (holes.filter (· ≠ [])).length - 2) :
    SameChain (meshEdges out) (cycPairs edge ++ holes.flatMap cycPairs) ∧
    ∀ w, (out.map fun t => (normalOf t).dot w).sum = areaAlong w edge + (holes.map (areaAlong w)).sum := by
  obtain ⟨rest, h1, h2, h3, -⟩ := C42_boundary edge holes out h
  have hr : rest.length = 2 := by omega
  have hb : SameChain (meshEdges out) (cycPairs edge ++ holes.flatMap cycPairs) := by
    rw [sameChain_iff]
    intro g hg
    have := esum_congr hg h1
    rw [esum_append, esum_two hg hr, add_zero] at this
    exact this
  refine ⟨hb, fun w => ?_⟩
  have := esum_congr (cross_anti w) hb
  rw [esum_mesh, esum_append] at this
  rw [areaAlong_eq, ← show (out.map (tsum fun p q : Vec => (p.cross q).dot w)).sum = _ from
    congrArg List.sum (List.map_congr_left fun t _ => (normal_eq w t).symm), this]
  congr 1
  clear * -
  induction holes with
  | nil => rfl
  | cons a l ih => rw [List.flatMap_cons, esum_append, ih, List.map_cons, List.sum_cons, areaAlong_eq]

/-- **C42** Triangulating a face raises a ZeroDivisionError or a TypeError, or it returns: then flipping
ends, whatever the order, with a result. -/
theorem C42_total (edge : List Vec) (holes : List (List Vec)) :
    (∃ e, faceEars edge holes = .error e ∧ (e = .zeroDivision ∨ e = .typeError)) ∨
    (∃ out, Triangulates edge holes out) := by
  rcases h : faceEars edge holes with e | ⟨real, upright, ears, poly, rest⟩
  · left
    refine ⟨e, rfl, ?_⟩
    unfold faceEars at h
    rcases hn : Vec.fromSurfaceNormal edge with e | n
    · rw [hn] at h; cases h
      exact Or.inl (Vec.normalized_error _ |>.mp hn).2
    rw [hn] at h
    dsimp only [bind, Except.bind] at h
    rcases hm : Mat.fromAlignment n ⟨0, 0, 1⟩ with e | m
    · rw [hm] at h; cases h
      exact Or.inl ((C23_raises_iff _ _ _).mp hm).2
    rw [hm] at h
    dsimp only at h
    rcases hg : mergeHoles (List.map (fun p => (p.transformed m).xy) (edge ++ holes.flatten)) (List.range edge.length)
      (holeIndexes edge.length holes) with e | poly'
    · rw [hg] at h; cases h
      refine Or.inr (C36_raises _ _ _ _ ?_ hg)
      intro p hp
      obtain ⟨q, -, rfl⟩ := List.mem_map.mp hp
      rfl
    rw [hg] at h
    dsimp only at h
    rcases hc : cutEars (List.map (fun p => (p.transformed m).xy) (edge ++ holes.flatten)) poly' with e | ⟨ears', rest'⟩
    · rw [hc] at h; cases h
      exact Or.inl (C38_raises _ _ _ hc).1
    · rw [hc] at h; cases h
  · right
    obtain ⟨rfl, h3, hz, hg, hc⟩ := faceEars_ok h
    obtain ⟨-, s, h1, h2⟩ := C39_finishes upright ears (ears_distinct hc) _ .refl
    exact ⟨_, _, _, _, _, _, _, h, ⟨s, h1, h2, rfl⟩, rfl⟩

/-- A square is triangulated completely. -/
example : ∃ out, Triangulates [⟨0, 0, 0⟩, ⟨1, 0, 0⟩, ⟨1, 1, 0⟩, ⟨0, 1, 0⟩] [] out ∧ out.length = 2 := by
  have hn : Vec.fromSurfaceNormal [⟨0, 0, 0⟩, ⟨1, 0, 0⟩, ⟨1, 1, 0⟩, ⟨0, 1, 0⟩] = .ok ⟨0, 0, 1⟩ := by
    unfold Vec.fromSurfaceNormal
    apply UnitOf.normalized
    refine ⟨by norm_num [Vec.dot], 2, two_pos, ?_⟩
    rw [newell_eq]
    ext <;> simp [vecArea2, cycPairs, Vec.cross]
    norm_num
  obtain ⟨ears, rest, hc, ⟨out, hr⟩, hall⟩ := C62_convex_delaunay _ _ (by simp) square_convex
  refine ⟨out.map (Tri.map (pt [⟨0, 0, 0⟩, ⟨1, 0, 0⟩, ⟨1, 1, 0⟩, ⟨0, 1, 0⟩])),
    ⟨_, _, ears, [0, 1, 2, 3], rest, out, ?_, hr, rfl⟩, by rw [List.length_map, (hall out hr).1]; rfl⟩
  unfold faceEars
  rw [hn]
  dsimp only [bind, Except.bind]
  rw [align_up]
  dsimp only
  have hu : List.map (fun p : Vec => (p.transformed 1).xy) ([⟨0, 0, 0⟩, ⟨1, 0, 0⟩, ⟨1, 1, 0⟩, ⟨0, 1, 0⟩] ++ [].flatten) =
      [⟨0, 0, 0⟩, ⟨1, 0, 0⟩, ⟨1, 1, 0⟩, ⟨0, 1, 0⟩] := by
    simp [Vec.transformed, Vec.xy, Mat.one_def]
  rw [hu]
  have hm : mergeHoles [⟨0, 0, 0⟩, ⟨1, 0, 0⟩, ⟨1, 1, 0⟩, ⟨0, 1, 0⟩] (List.range 4) (holeIndexes 4 []) = .ok [0, 1, 2, 3] := by
    simp [mergeHoles, sortHoles, holeIndexes]; rfl
  simp only [List.length_cons, List.length_nil, zero_add, Nat.reduceAdd]
  rw [hm]
  dsimp only
  rw [hc]
  rfl

end Chrumm.Geo
