import Verif.Props.Strips
import Verif.Props.Bumper

/-! Strips between two images of the same edge. -/

namespace Chrumm.Geo
open Spec Classical

theorem pyDiv_val {a b c : ℝ} (h : pyDiv a b = .ok c) : b ≠ 0 ∧ c = a / b := by
  unfold pyDiv at h
  split_ifs at h with h0
  cases h
  exact ⟨h0, rfl⟩

theorem walk_ne_nil {k : Bool} {e : List Vec} (he : e ≠ []) : walk k e ≠ [] := by
  unfold walk
  cases k <;> simp [he]

theorem corner_eq {k : Bool} {e : List Vec} (he : e ≠ []) (i : ℕ) :
    ∃ h : min i ((walk k e).length - 1) < (walk k e).length, corner k e i = (walk k e)[min i ((walk k e).length - 1)] := by
  have : 0 < (walk k e).length := List.length_pos_of_ne_nil (walk_ne_nil he)
  have h : min i ((walk k e).length - 1) < (walk k e).length := by omega
  exact ⟨h, by unfold corner; rw [List.getD_eq_getElem?_getD, List.getElem?_eq_getElem h]; rfl⟩

theorem walk_map (k : Bool) (e : List Vec) (f : Vec → Vec) : walk k (e.map f) = (walk k e).map f := by
  unfold walk
  cases k <;> simp [List.map_take]

theorem corner_map {k : Bool} {e : List Vec} (he : e ≠ []) (f : Vec → Vec) (i : ℕ) :
    corner k (e.map f) i = f (corner k e i) := by
  obtain ⟨h1, e1⟩ := corner_eq (k := k) he i
  obtain ⟨h2, e2⟩ := corner_eq (k := k) (e := e.map f) (by simpa using he) i
  rw [e1, e2]
  simp only [walk_map, List.length_map, List.getElem_map]

theorem path_walk (k : Bool) (e : List Vec) (he : e ≠ []) : pathPairs (walk k e) = edgePairs k e := by
  cases k with
  | false => rfl
  | true =>
    obtain ⟨a, l, rfl⟩ := List.exists_cons_of_ne_nil he
    unfold edgePairs walk
    rw [if_pos rfl, if_pos rfl, cycPairs_cons]
    rfl

/-- Consecutive corners are a pair of the edge, or the same. -/
theorem corner_pair {k : Bool} {e : List Vec} (he : e ≠ []) (i : ℕ) :
    (corner k e i, corner k e (i + 1)) ∈ edgePairs k e ∨ corner k e i = corner k e (i + 1) := by
  obtain ⟨h1, e1⟩ := corner_eq (k := k) he i
  obtain ⟨h2, e2⟩ := corner_eq (k := k) he (i + 1)
  rcases Nat.lt_or_ge (i + 1) (walk k e).length with h | h
  · left
    rw [← path_walk k e he, e1, e2]
    have m1 : min i ((walk k e).length - 1) = i := by omega
    have m2 : min (i + 1) ((walk k e).length - 1) = i + 1 := by omega
    simp only [m1, m2]
    unfold pathPairs
    rw [List.mem_iff_getElem?]
    refine ⟨i, ?_⟩
    rw [List.getElem?_zip_eq_some]
    refine ⟨List.getElem?_eq_getElem (by omega), ?_⟩
    rw [List.getElem?_tail, List.getElem?_eq_getElem h]
  · right
    rw [e1, e2]
    congr 1
    omega

/-- The quads between two images of an edge. -/
theorem images_good {k : Bool} {e : List Vec} (he : e ≠ []) (f g : Vec → Vec)
    (h : ∀ s ∈ edgePairs k e, GoodQuad (f s.1) (f s.2) (g s.2) (g s.1)) (i : ℕ) :
    GoodQuad (corner k (e.map f) i) (corner k (e.map f) (i + 1)) (corner k (e.map g) (i + 1)) (corner k (e.map g) i) := by
  rw [corner_map he, corner_map he, corner_map he, corner_map he]
  have hp := corner_pair (k := k) he i
  generalize corner k e i = p at hp ⊢
  generalize corner k e (i + 1) = p' at hp ⊢
  rcases hp with hp | hp
  · exact h (p, p') hp
  · rw [hp]; exact goodQuad_still rfl rfl

/-- The quads from a point to an edge. -/
theorem point_good {k : Bool} {e : List Vec} (he : e ≠ []) (t : Vec)
    (h : ∀ s ∈ edgePairs k e, NoSliver s.2 s.1 t) (i : ℕ) :
    GoodQuad (corner k [t] i) (corner k [t] (i + 1)) (corner k e (i + 1)) (corner k e i) := by
  rw [corner_single, corner_single]
  refine goodQuad_ab rfl ?_
  have hp := corner_pair (k := k) he i
  generalize corner k e i = p at hp ⊢
  generalize corner k e (i + 1) = p' at hp ⊢
  rcases hp with hp | hp
  · exact h (p, p') hp
  · exact Or.inr (Or.inl hp.symm)

/-- The quads from an edge to a point. -/
theorem good_point {k : Bool} {e : List Vec} (he : e ≠ []) (t : Vec)
    (h : ∀ s ∈ edgePairs k e, NoSliver s.1 s.2 t) (i : ℕ) :
    GoodQuad (corner k e i) (corner k e (i + 1)) (corner k [t] (i + 1)) (corner k [t] i) := by
  rw [corner_single, corner_single]
  refine goodQuad_cd rfl ?_
  have hp := corner_pair (k := k) he i
  generalize corner k e i = p at hp ⊢
  generalize corner k e (i + 1) = p' at hp ⊢
  rcases hp with hp | hp
  · exact h (p, p') hp
  · exact Or.inr (Or.inl hp)

/-- A quad with two vertical sides. -/
theorem vertical_good {a b c d : Vec} (hbx : c.x = b.x) (hby : c.y = b.y) (hax : d.x = a.x) (hay : d.y = a.y)
    (h1 : c.z = b.z ∨ (2e-6 : ℝ) ^ 2 ≤ distSq2D a b * (c.z - b.z) ^ 2)
    (h2 : d.z = a.z ∨ (2e-6 : ℝ) ^ 2 ≤ distSq2D a b * (d.z - a.z) ^ 2) : GoodQuad a b c d := by
  have k1 : (2e-6 : ℝ) ^ 2 ≤ distSq2D a b * (c.z - b.z) ^ 2 → 1e-6 ≤ (Tri.mk a b c).area := by
    intro h
    refine area_of_sq (k := 2e-6) (by norm_num) (h.trans (le_of_eq ?_))
    simp only [distSq2D, Vec.magSquared, Vec.cross, Vec.sub_x, Vec.sub_y, Vec.sub_z, hbx, hby]
    ring
  have k2 : (2e-6 : ℝ) ^ 2 ≤ distSq2D a b * (d.z - a.z) ^ 2 → 1e-6 ≤ (Tri.mk a b d).area := by
    intro h
    refine area_of_sq (k := 2e-6) (by norm_num) (h.trans (le_of_eq ?_))
    simp only [distSq2D, Vec.magSquared, Vec.cross, Vec.sub_x, Vec.sub_y, Vec.sub_z, hax, hay]
    ring
  have k3 : (2e-6 : ℝ) ^ 2 ≤ distSq2D a b * (d.z - a.z) ^ 2 → 1e-6 ≤ (Tri.mk c d a).area := by
    intro h
    refine area_of_sq (k := 2e-6) (by norm_num) (h.trans (le_of_eq ?_))
    simp only [distSq2D, Vec.magSquared, Vec.cross, Vec.sub_x, Vec.sub_y, Vec.sub_z, hax, hay, hbx, hby]
    ring
  rcases h1 with h1 | h1
  · exact goodQuad_bc (Vec.ext hbx.symm hby.symm h1.symm) (h2.elim (fun h => Or.inr (Or.inr (Or.inr (Vec.ext hax hay h)))) fun h => Or.inl (k2 h))
  · rcases h2 with h2 | h2
    · exact goodQuad_da (Vec.ext hax.symm hay.symm h2.symm) (Or.inl (k1 h1))
    · exact goodQuad_four (k1 h1) (k3 h2) (k2 h2)

/-- A quad with two horizontal sides at different heights, in the same direction. -/
theorem horizontal_good {a b c d : Vec} (hab : b.z = a.z) (hcd : d.z = c.z)
    (h1 : (2e-6 : ℝ) ^ 2 ≤ distSq2D a b * (c.z - a.z) ^ 2)
    (h2 : (2e-6 : ℝ) ^ 2 ≤ distSq2D c d * (c.z - a.z) ^ 2) : GoodQuad a b c d := by
  refine goodQuad_four ?_ ?_ ?_
  · refine area_of_sq (k := 2e-6) (by norm_num) (h1.trans ?_)
    simp only [distSq2D, Vec.magSquared, Vec.cross, Vec.sub_x, Vec.sub_y, Vec.sub_z, hab]
    nlinarith [sq_nonneg ((b.x - a.x) * (c.y - a.y) - (b.y - a.y) * (c.x - a.x))]
  · refine area_of_sq (k := 2e-6) (by norm_num) (h2.trans ?_)
    simp only [distSq2D, Vec.magSquared, Vec.cross, Vec.sub_x, Vec.sub_y, Vec.sub_z, hcd]
    nlinarith [sq_nonneg ((d.x - c.x) * (a.y - c.y) - (d.y - c.y) * (a.x - c.x))]
  · refine area_of_sq (k := 2e-6) (by norm_num) (h1.trans ?_)
    simp only [distSq2D, Vec.magSquared, Vec.cross, Vec.sub_x, Vec.sub_y, Vec.sub_z, hab, hcd]
    nlinarith [sq_nonneg ((b.x - a.x) * (d.y - a.y) - (b.y - a.y) * (d.x - a.x))]

/-- A triangle with a large enough shadow in the plane. -/
theorem area_of_shadow {a b c : Vec} (h : 2e-6 ≤ |(b.x - a.x) * (c.y - a.y) - (b.y - a.y) * (c.x - a.x)|) :
    1e-6 ≤ (Tri.mk a b c).area := by
  refine area_of_sq (k := 2e-6) (by norm_num) ?_
  have := pow_le_pow_left₀ (by norm_num) h 2
  rw [sq_abs] at this
  simp only [Vec.magSquared, Vec.cross, Vec.sub_x, Vec.sub_y, Vec.sub_z]
  nlinarith [sq_nonneg ((b.y - a.y) * (c.z - a.z) - (b.z - a.z) * (c.y - a.y)),
    sq_nonneg ((b.z - a.z) * (c.x - a.x) - (b.x - a.x) * (c.z - a.z))]

/-- All corners of a pairwise mesh are points of the two edges. -/
theorem mesh_vertices {self other : List Vec} {k : Bool} {ts : List (Tri Vec)} (h : meshPairwise self other k = .ok ts)
    {t : Tri Vec} (ht : t ∈ ts) {v : Vec} (hv : v = t.a ∨ v = t.b ∨ v = t.c) : v ∈ self ∨ v ∈ other := by
  unfold meshPairwise at h
  dsimp only at h
  rcases hm : (List.range (max (other.length + k.toNat - 1) (self.length + k.toNat - 1))).mapM (fun i =>
      if self.length = 0 ∨ other.length = 0 then
      Except.error Exn.zeroDivision else quadTriangles (clampGet self (self.length + k.toNat - 1) i)
      (clampGet self (self.length + k.toNat - 1) (i + 1)) (clampGet other (other.length + k.toNat - 1) (i + 1))
      (clampGet other (other.length + k.toNat - 1) i)) with e | parts
  · rw [hm] at h; cases h
  · rw [hm] at h
    cases h
    obtain ⟨p, hp, htp⟩ := List.mem_flatten.mp ht
    have hf := mapM_ok hm
    have : ∀ (l : List ℕ) (ps : List (List (Tri Vec))), List.Forall₂ (fun i p =>
        (if self.length = 0 ∨ other.length = 0 then
          Except.error Exn.zeroDivision else quadTriangles (clampGet self (self.length + k.toNat - 1) i)
          (clampGet self (self.length + k.toNat - 1) (i + 1)) (clampGet other (other.length + k.toNat - 1) (i + 1))
          (clampGet other (other.length + k.toNat - 1) i)) = .ok p) l ps → p ∈ ps → ∃ i,
        (if self.length = 0 ∨ other.length = 0 then
          Except.error Exn.zeroDivision else quadTriangles (clampGet self (self.length + k.toNat - 1) i)
          (clampGet self (self.length + k.toNat - 1) (i + 1)) (clampGet other (other.length + k.toNat - 1) (i + 1))
          (clampGet other (other.length + k.toNat - 1) i)) = .ok p := by
      intro l ps h
      induction h with
      | nil => intro h; cases h
      | cons h1 _ ih =>
        intro hp
        rcases List.mem_cons.mp hp with rfl | hp
        · exact ⟨_, h1⟩
        · exact ih hp
    obtain ⟨i, hi⟩ := this _ _ hf hp
    split_ifs at hi with h0
    push Not at h0
    have hs : ∀ i, clampGet self (self.length + k.toNat - 1) i ∈ self := by
      intro i
      unfold clampGet
      rw [List.getD_eq_getElem?_getD, List.getElem?_eq_getElem (Nat.mod_lt _ (Nat.pos_of_ne_zero h0.1))]
      exact List.getElem_mem _
    have ho : ∀ i, clampGet other (other.length + k.toNat - 1) i ∈ other := by
      intro i
      unfold clampGet
      rw [List.getD_eq_getElem?_getD, List.getElem?_eq_getElem (Nat.mod_lt _ (Nat.pos_of_ne_zero h0.2))]
      exact List.getElem_mem _
    have ha := hs i
    have hb := hs (i + 1)
    have hc := ho (i + 1)
    have hd := ho i
    generalize clampGet self (self.length + k.toNat - 1) i = a at *
    generalize clampGet self (self.length + k.toNat - 1) (i + 1) = b at *
    generalize clampGet other (other.length + k.toNat - 1) (i + 1) = c at *
    generalize clampGet other (other.length + k.toNat - 1) i = d at *
    obtain ⟨bits, -, e⟩ := quad_cases a b c d
    rw [e] at hi
    cases hi
    have key : t = ⟨a, b, c⟩ ∨ t = ⟨c, d, a⟩ ∨ t = ⟨a, b, d⟩ ∨ t = ⟨d, b, c⟩ := by
      simp only [List.mem_append] at htp
      rcases htp with ((h | h) | h) | h <;> split_ifs at h <;> simp_all
    rcases key with rfl | rfl | rfl | rfl <;> rcases hv with rfl | rfl | rfl <;> simp [ha, hb, hc, hd]

end Chrumm.Geo
