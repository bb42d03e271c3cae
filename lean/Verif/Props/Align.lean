import Verif.Props.Vector

/-! C23: `Matrix.fromAlignment`; C60: its use for projecting faces. -/

namespace Chrumm.Geo
open Spec Classical

theorem Spec.UnitOf.normalized {u v : Vec} (h : UnitOf u v) : v.normalized = .ok u := by
  obtain ⟨h1, k, hk, rfl⟩ := h
  have hne : u * k ≠ 0 := by
    intro e
    have ex := congrArg Vec.x e
    have ey := congrArg Vec.y e
    have ez := congrArg Vec.z e
    simp [hk.ne'] at ex ey ez
    simp [Vec.dot, ex, ey, ez] at h1
  obtain ⟨n, e1, e2, e3, e4⟩ := Vec.normalized_ok _ hne
  rw [e1]
  have hm : (u * k).magnitude = k := by
    have : (u * k).magnitude = Real.sqrt (k * k) := by
      unfold Vec.magnitude
      congr 1
      simp only [Vec.mul_x, Vec.mul_y, Vec.mul_z]
      simp only [Vec.dot] at h1
      linear_combination k * k * h1
    rw [this, Real.sqrt_mul_self hk.le]
  rw [hm] at e2
  congr 1
  have ex := congrArg Vec.x e2
  have ey := congrArg Vec.y e2
  have ez := congrArg Vec.z e2
  simp only [Vec.mul_x, Vec.mul_y, Vec.mul_z] at ex ey ez
  ext
  · exact (mul_right_cancel₀ hk.ne' ex).symm
  · exact (mul_right_cancel₀ hk.ne' ey).symm
  · exact (mul_right_cancel₀ hk.ne' ez).symm

theorem unitOf_exists {v : Vec} (h : v ≠ 0) : ∃ u, UnitOf u v := by
  obtain ⟨n, e1, e2, e3, e4⟩ := Vec.normalized_ok _ h
  exact ⟨n, e3, _, e4, e2⟩

theorem near_iff (u v : Vec) : Near u v ↔ u.isClose v := by
  have e : (1e-6 : ℝ) = 1 / 1000000 := by norm_num
  simp only [Near, Vec.isClose, isZero, e]

private theorem dot_ne {s t : Vec} (hs : s.dot s = 1) (ht : t.dot t = 1) (h : ¬ s.isClose (-t)) :
    1 + s.dot t ≠ 0 := by
  intro e
  apply h
  simp only [Vec.dot] at hs ht e
  have hx : s.x + t.x = 0 := by nlinarith [sq_nonneg (s.x + t.x), sq_nonneg (s.y + t.y), sq_nonneg (s.z + t.z)]
  have hy : s.y + t.y = 0 := by nlinarith [sq_nonneg (s.x + t.x), sq_nonneg (s.y + t.y), sq_nonneg (s.z + t.z)]
  have hz : s.z + t.z = 0 := by nlinarith [sq_nonneg (s.x + t.x), sq_nonneg (s.y + t.y), sq_nonneg (s.z + t.z)]
  simp only [Vec.isClose, isZero, Vec.neg_x, Vec.neg_y, Vec.neg_z, sub_neg_eq_add, hx, hy, hz]
  norm_num

/-- The matrix of the general case. -/
noncomputable def alignMat (s t : Vec) : Mat :=
  let c := s.cross t
  let skew : Mat := ⟨0, c.z, -c.y, 0, -c.z, 0, c.x, 0, c.y, -c.x, 0, 0, 0, 0, 0, 0⟩
  1 + skew + skew * skew * (1 / (1 + s.dot t))

theorem alignMat_apply (s t v : Vec) : v.transformed (alignMat s t) =
    v + (s.cross t).cross v + (s.cross t).cross ((s.cross t).cross v) * (1 / (1 + s.dot t)) := by
  generalize hk : 1 / (1 + s.dot t) = k
  unfold alignMat
  dsimp only
  rw [hk]
  generalize s.cross t = c
  ext <;> simp [Vec.transformed, Mat.add_def, Mat.smul_def, Mat.mul_def, Mat.one_def, Vec.cross] <;> ring

theorem fromAlignment_eq {s t a b : Vec} (ha : UnitOf a s) (hb : UnitOf b t) :
    Mat.fromAlignment s t = if a.isClose b then .ok 1 else if a.isClose (-b) then .ok (Mat.mirroredX 1)
      else .ok (alignMat a b) := by
  unfold Mat.fromAlignment
  rw [ha.normalized, hb.normalized]
  simp only [bind, Except.bind, pure, Except.pure]
  by_cases h1 : a.isClose b
  · simp [h1]
  · by_cases h2 : a.isClose (-b)
    · simp [h1, h2]
    · rw [if_neg h1, if_neg h2, if_neg h1, if_neg h2, if_neg (dot_ne ha.1 hb.1 h2)]
      rfl

theorem alignMat_maps {s t : Vec} (hs : s.dot s = 1) (ht : t.dot t = 1) (h : 1 + s.dot t ≠ 0) :
    s.transformed (alignMat s t) = t := by
  rw [alignMat_apply]
  have hk : (1 / (1 + s.dot t)) * (1 + s.dot t) = 1 := by field_simp
  generalize 1 / (1 + s.dot t) = k at hk ⊢
  simp only [Vec.dot] at hs ht hk
  ext <;> simp only [Vec.cross, Vec.add_x, Vec.add_y, Vec.add_z, Vec.mul_x, Vec.mul_y, Vec.mul_z]
  · linear_combination (t.x - s.x * k * (t.x*t.x + t.y*t.y + t.z*t.z)) * hs - s.x * k * ht +
      s.x * (s.x*t.x + s.y*t.y + s.z*t.z - 1) * hk
  · linear_combination (t.y - s.y * k * (t.x*t.x + t.y*t.y + t.z*t.z)) * hs - s.y * k * ht +
      s.y * (s.x*t.x + s.y*t.y + s.z*t.z - 1) * hk
  · linear_combination (t.z - s.z * k * (t.x*t.x + t.y*t.y + t.z*t.z)) * hs - s.z * k * ht +
      s.z * (s.x*t.x + s.y*t.y + s.z*t.z - 1) * hk

theorem alignMat_rigid {s t : Vec} (hs : s.dot s = 1) (ht : t.dot t = 1)
    (h : 1 + s.dot t ≠ 0) : Rigid fun v => v.transformed (alignMat s t) := by
  have hk : (1 / (1 + s.dot t)) * (1 + s.dot t) = 1 := by field_simp
  have hC : (s.cross t).dot (s.cross t) = 1 - s.dot t * s.dot t := by
    simp only [Vec.dot, Vec.cross] at *
    linear_combination (t.x*t.x + t.y*t.y + t.z*t.z) * hs + ht
  have ap := alignMat_apply s t
  generalize 1 / (1 + s.dot t) = k at hk ap
  generalize s.dot t = d at hk hC
  generalize s.cross t = c at hC ap
  have E : 1 + k * k * (c.dot c) - 2 * k = 0 := by
    linear_combination k * k * hC + (k * (1 - d) - 1) * hk
  clear hC hk
  simp only [Vec.dot] at E
  refine ⟨fun p q => ?_, fun o p q r => ?_⟩
  · simp only [ap, distSq, Vec.cross, Vec.add_x, Vec.add_y, Vec.add_z, Vec.mul_x, Vec.mul_y, Vec.mul_z]
    linear_combination ((c.y * (p.z - q.z) - c.z * (p.y - q.y)) ^ 2 +
      (c.z * (p.x - q.x) - c.x * (p.z - q.z)) ^ 2 + (c.x * (p.y - q.y) - c.y * (p.x - q.x)) ^ 2) * E
  · simp only [ap, orient, Vec.cross, Vec.add_x, Vec.add_y, Vec.add_z, Vec.mul_x, Vec.mul_y, Vec.mul_z]
    linear_combination ((p.x - o.x) * ((q.y - o.y) * (r.z - o.z) - (q.z - o.z) * (r.y - o.y)) -
        (p.y - o.y) * ((q.x - o.x) * (r.z - o.z) - (q.z - o.z) * (r.x - o.x)) +
        (p.z - o.z) * ((q.x - o.x) * (r.y - o.y) - (q.y - o.y) * (r.x - o.x))) *
        (c.x * c.x + c.y * c.y + c.z * c.z) * E

private theorem rigid_id : Rigid fun v => v.transformed (1 : Mat) := by
  have : (fun v : Vec => v.transformed (1 : Mat)) = id := by
    funext v; exact (C21_monoid 1 1 1 v).2.2.2
  rw [this]; exact ⟨fun _ _ => rfl, fun _ _ _ _ => rfl⟩

/-- What `fromAlignment` promises for a pair of directions: a rotation about the origin that maps
the unit vector of the source direction to the unit vector of the target direction (up to 1e-6 in
each coordinate). -/
def Aligns (s t : Vec) : Prop :=
  ∃ m, Mat.fromAlignment s t = .ok m ∧ (Rigid fun v => v.transformed m) ∧
    (0 : Vec).transformed m = 0 ∧ ∀ a b, UnitOf a s → UnitOf b t → Near (a.transformed m) b

theorem Spec.UnitOf.unique {a b v : Vec} (ha : UnitOf a v) (hb : UnitOf b v) : a = b := by
  have := ha.normalized.symm.trans hb.normalized
  exact Except.ok.inj this

/-- **C23**, the part that holds: for all nonzero vectors whose directions are not (within 1e-6)
opposite. When the directions are not already within 1e-6 of each other the alignment is exact.
Missing: opposite directions, see `C23_antiparallel_violated`. -/
theorem C23_aligns_partial (s t : Vec) (hs : s ≠ 0) (ht : t ≠ 0)
    (hn : ∀ a b, UnitOf a s → UnitOf b t → ¬ Near a (-b)) :
    Aligns s t ∧ ∀ a b, UnitOf a s → UnitOf b t → ¬ Near a b →
      ∀ m, Mat.fromAlignment s t = .ok m → a.transformed m = b := by
  obtain ⟨a, ha⟩ := unitOf_exists hs
  obtain ⟨b, hb⟩ := unitOf_exists ht
  have hab := hn a b ha hb
  rw [near_iff] at hab
  have e := fromAlignment_eq ha hb
  have hd := dot_ne ha.1 hb.1 hab
  refine ⟨?_, ?_⟩
  · by_cases h1 : a.isClose b
    · rw [if_pos h1] at e
      refine ⟨1, e, rigid_id, (C21_monoid 1 1 1 0).2.2.2, ?_⟩
      intro a' b' ha' hb'
      rw [ha'.unique ha, hb'.unique hb, (C21_monoid 1 1 1 a).2.2.2]
      exact (near_iff _ _).mpr h1
    · rw [if_neg h1, if_neg hab] at e
      refine ⟨_, e, alignMat_rigid ha.1 hb.1 hd, ?_, ?_⟩
      · rw [alignMat_apply]; ext <;> simp [Vec.cross]
      · intro a' b' ha' hb'
        rw [ha'.unique ha, hb'.unique hb, alignMat_maps ha.1 hb.1 hd]
        norm_num [Near]
  · intro a' b' ha' hb' hne m hm
    rw [ha'.unique ha, hb'.unique hb] at *
    rw [near_iff] at hne
    rw [if_neg hne, if_neg hab, hm] at e
    rw [Except.ok.inj e]
    exact alignMat_maps ha.1 hb.1 hd

/-- **C23** raises exactly for a zero vector. -/
theorem C23_raises_iff (s t : Vec) (e : Exn) :
    Mat.fromAlignment s t = .error e ↔ (s = 0 ∨ t = 0) ∧ e = .zeroDivision := by
  by_cases hs : s = 0
  · subst hs; simp [Mat.fromAlignment, Vec.normalized_zero, bind, Except.bind, eq_comm]
  · obtain ⟨a, ha⟩ := unitOf_exists hs
    by_cases ht : t = 0
    · subst ht
      simp [Mat.fromAlignment, ha.normalized, Vec.normalized_zero, bind, Except.bind, eq_comm]
    · obtain ⟨b, hb⟩ := unitOf_exists ht
      rw [fromAlignment_eq ha hb]
      simp only [hs, ht, or_self, false_and, iff_false]
      split
      · simp
      · split <;> simp

private theorem unit_down : UnitOf ⟨0, 0, -1⟩ ⟨0, 0, -1⟩ :=
  ⟨by norm_num [Vec.dot], 1, one_pos, by ext <;> simp⟩
private theorem unit_up : UnitOf ⟨0, 0, 1⟩ ⟨0, 0, 1⟩ :=
  ⟨by norm_num [Vec.dot], 1, one_pos, by ext <;> simp⟩

theorem align_up : Mat.fromAlignment ⟨0, 0, 1⟩ ⟨0, 0, 1⟩ = .ok 1 := by
  rw [fromAlignment_eq unit_up unit_up, if_pos]
  simp [Vec.isClose, isZero]

private theorem align_down : Mat.fromAlignment ⟨0, 0, -1⟩ ⟨0, 0, 1⟩ = .ok (Mat.mirroredX 1) := by
  rw [fromAlignment_eq unit_down unit_up, if_neg, if_pos]
  · simp [Vec.isClose, isZero]
  · simp only [Vec.isClose, isZero, sub_self]
    norm_num

/-- **C23** is violated for opposite directions: aligning (0, 0, -1) to (0, 0, 1), the case of every
downward facing face, returns a mirror image that leaves (0, 0, -1) where it is. -/
theorem C23_antiparallel_violated :
    ∃ m, Mat.fromAlignment ⟨0, 0, -1⟩ ⟨0, 0, 1⟩ = .ok m ∧
      (⟨0, 0, -1⟩ : Vec).transformed m = ⟨0, 0, -1⟩ ∧
      (∀ o p q r, orient (o.transformed m) (p.transformed m) (q.transformed m) (r.transformed m) =
        - orient o p q r) := by
  refine ⟨_, align_down, ?_, ?_⟩
  · ext <;> simp [Vec.transformed, Mat.mirroredX, Mat.mul_def, Mat.one_def]
  · intro o p q r
    simp only [orient, Vec.transformed, Mat.mirroredX, Mat.mul_def, Mat.one_def]
    ring

theorem C23_not_always : ¬ ∀ s t : Vec, s ≠ 0 → t ≠ 0 → Aligns s t := by
  intro h
  obtain ⟨m, h1, -, -, h4⟩ := h ⟨0, 0, -1⟩ ⟨0, 0, 1⟩
    (fun e => by have := congrArg Vec.z e; simp at this)
    (fun e => by have := congrArg Vec.z e; simp at this)
  obtain ⟨m', k1, k2, -⟩ := C23_antiparallel_violated
  rw [h1] at k1
  cases k1
  have := (h4 _ _ unit_down unit_up).2.2
  rw [k2] at this
  norm_num at this

/-- A case of `C23_aligns_partial`: x to y. -/
example : ∀ a b, UnitOf a ⟨2, 0, 0⟩ → UnitOf b ⟨0, 3, 0⟩ → ¬ Near a (-b) := by
  intro a b ha hb h
  have ea : a = ⟨1, 0, 0⟩ := ha.unique ⟨by norm_num [Vec.dot], 2, two_pos, by ext <;> simp⟩
  have eb : b = ⟨0, 1, 0⟩ := hb.unique ⟨by norm_num [Vec.dot], 3, by norm_num, by ext <;> simp⟩
  subst ea eb
  have := h.1
  norm_num at this

/-! ### C60: the projection used by `Face.triangulate` -/

theorem upright_cross {n : Vec} {m : Mat} (hn : n.dot n = 1)
    (h : Mat.fromAlignment n ⟨0, 0, 1⟩ = .ok m) :
    ∃ w : Vec, (∀ p q : Vec, (p.transformed m).x * (q.transformed m).y -
      (q.transformed m).x * (p.transformed m).y = (p.cross q).dot w) ∧ 1 / 2 ≤ n.dot w ∧
      ∀ p q : Vec, distSq (p.transformed m) (q.transformed m) = distSq p q := by
  have un : UnitOf n n := ⟨hn, 1, one_pos, by ext <;> simp⟩
  rw [fromAlignment_eq un unit_up] at h
  split at h
  · rename_i hc
    cases h
    refine ⟨⟨0, 0, 1⟩, fun p q => ?_, ?_, fun p q => ?_⟩
    · simp [Vec.transformed, Mat.one_def, Vec.dot, Vec.cross]; ring
    · have := hc.2.2
      simp only [isZero] at this
      have := (abs_lt.mp this).1
      simp only [Vec.dot]
      linarith
    · simp [Vec.transformed, Mat.one_def]
  · split at h
    · rename_i hc
      cases h
      refine ⟨⟨0, 0, -1⟩, fun p q => ?_, ?_, fun p q => ?_⟩
      · simp [Vec.transformed, Mat.mirroredX, Mat.mul_def, Mat.one_def, Vec.dot, Vec.cross]; ring
      · have := hc.2.2
        simp only [isZero, Vec.neg_z] at this
        have := (abs_lt.mp this).2
        simp only [Vec.dot]
        linarith
      · simp only [distSq, Vec.transformed, Mat.mirroredX, Mat.mul_def, Mat.one_def]; ring
    · rename_i h1 h2
      cases h
      have hd := dot_ne hn (by norm_num [Vec.dot]) h2
      refine ⟨n, fun p q => ?_, by rw [hn]; norm_num, (alignMat_rigid hn (by norm_num [Vec.dot]) hd).1⟩
      have hk : (1 / (1 + n.z)) * (1 + n.z) = 1 := by
        have : 1 + n.z ≠ 0 := by simpa [Vec.dot] using hd
        field_simp
      rw [alignMat_apply, alignMat_apply]
      have e : n.dot ⟨0, 0, 1⟩ = n.z := by simp [Vec.dot]
      rw [e]
      generalize 1 / (1 + n.z) = k at hk ⊢
      simp only [Vec.dot] at hn
      simp only [Vec.cross, Vec.dot, Vec.add_x, Vec.add_y, Vec.mul_x, Vec.mul_y]
      linear_combination (p.x * q.y - p.y * q.x) * (-k * hn - (1 - n.z) * hk)

/-- The sum of cross products of consecutive corners: twice the vector area of the polygon. -/
def vecArea2 (vs : List Vec) : Vec :=
  ⟨((cycPairs vs).map fun (p, q) => (p.cross q).x).sum, ((cycPairs vs).map fun (p, q) => (p.cross q).y).sum,
    ((cycPairs vs).map fun (p, q) => (p.cross q).z).sum⟩

private theorem sum_sub_map {α : Type} (l : List α) (f g : α → ℝ) :
    (l.map fun a => f a - g a).sum = (l.map f).sum - (l.map g).sum := by
  induction l with
  | nil => simp
  | cons a l ih => simp [ih]; ring

private theorem sum_add_map {α : Type} (l : List α) (f g : α → ℝ) :
    (l.map fun a => f a + g a).sum = (l.map f).sum + (l.map g).sum := by
  induction l with
  | nil => simp
  | cons a l ih => simp [ih]; ring

/-- Telescoping around a closed polygon. -/
theorem cyc_telescope {α : Type} (vs : List α) (g : α → ℝ) :
    ((cycPairs vs).map fun (p, q) => g p - g q).sum = 0 := by
  have e1 : (cycPairs vs).map Prod.fst = vs := by
    unfold cycPairs; rw [List.map_fst_zip]; simp
  have e2 : (cycPairs vs).map Prod.snd = vs.rotate 1 := by
    unfold cycPairs; rw [List.map_snd_zip]; simp
  have h := sum_sub_map (cycPairs vs) (fun pq => g pq.1) (fun pq => g pq.2)
  have h1 : ((cycPairs vs).map fun pq => g pq.1) = vs.map g := by
    conv_rhs => rw [← e1]
    rw [List.map_map]; rfl
  have h2 : ((cycPairs vs).map fun pq => g pq.2) = (vs.rotate 1).map g := by
    conv_rhs => rw [← e2]
    rw [List.map_map]; rfl
  have h3 : ((vs.rotate 1).map g).sum = (vs.map g).sum :=
    List.Perm.sum_eq ((List.rotate_perm vs 1).map g)
  show ((cycPairs vs).map fun pq => g pq.1 - g pq.2).sum = 0
  rw [h, h1, h2, h3, sub_self]

/-- The loop `for i in range(len(vectors))` over consecutive corners. -/
theorem forCyc_eq {α β : Type} (vs : List α) (f : β → α → α → β) (b : β) :
    forCyc vs f b = (cycPairs vs).foldl (fun n pq => f n pq.1 pq.2) b := by
  unfold forCyc
  have e : cycPairs vs = (List.range vs.length).filterMap fun i =>
      match vs[i]?, vs[(i + 1) % vs.length]? with
      | some p, some q => some (p, q)
      | _, _ => none := by
    have hl : (cycPairs vs).length = vs.length := by simp [cycPairs]
    have hs : ∀ i (h : i < vs.length), (match vs[i]?, vs[(i + 1) % vs.length]? with
        | some p, some q => some (p, q)
        | _, _ => none) = some (cycPairs vs)[i] := by
      intro i h
      have h2 : (i + 1) % vs.length < vs.length := Nat.mod_lt _ (by omega)
      rw [List.getElem?_eq_getElem h, List.getElem?_eq_getElem h2]
      simp [cycPairs, List.getElem_rotate]
    have : (List.range vs.length).filterMap (fun i =>
        match vs[i]?, vs[(i + 1) % vs.length]? with
        | some p, some q => some (p, q)
        | _, _ => none) = (List.range vs.length).filterMap fun i => (cycPairs vs)[i]? := by
      refine List.filterMap_congr fun i hi => ?_
      rw [hs i (List.mem_range.mp hi), List.getElem?_eq_getElem]
    rw [this, ← hl]
    generalize cycPairs vs = l
    symm
    induction l using List.reverseRecOn with
    | nil => rfl
    | append_singleton l a ih =>
      rw [List.length_append, List.length_singleton, List.range_succ, List.filterMap_append]
      congr 1
      · refine Eq.trans (List.filterMap_congr fun i hi => ?_) ih
        rw [List.getElem?_append_left (List.mem_range.mp hi)]
      · simp
  rw [e, List.foldl_filterMap]
  congr 1
  funext n i
  split <;> simp_all

private theorem foldl_add_vec {α : Type} (l : List α) (f : α → Vec) (b : Vec) :
    l.foldl (fun n a => n + f a) b =
      ⟨b.x + (l.map fun a => (f a).x).sum, b.y + (l.map fun a => (f a).y).sum,
        b.z + (l.map fun a => (f a).z).sum⟩ := by
  induction l generalizing b with
  | nil => simp
  | cons a l ih => rw [List.foldl_cons, ih]; ext <;> simp <;> ring

/-- Newell's sum is twice the vector area. -/
theorem newell_eq (vs : List Vec) : Vec.newell vs = vecArea2 vs := by
  unfold Vec.newell
  rw [forCyc_eq]
  rw [foldl_add_vec]
  have tx := cyc_telescope vs fun p => p.y * p.z
  have ty := cyc_telescope vs fun p => p.z * p.x
  have tz := cyc_telescope vs fun p => p.x * p.y
  ext <;> simp only [Vec.zero_x, Vec.zero_y, Vec.zero_z, zero_add, vecArea2]
  · rw [← sub_eq_zero, ← sum_sub_map, ← tx]
    congr 2; funext pq; simp only [Vec.cross]; ring
  · rw [← sub_eq_zero, ← sum_sub_map, ← ty]
    congr 2; funext pq; simp only [Vec.cross]; ring
  · rw [← sub_eq_zero, ← sum_sub_map, ← tz]
    congr 2; funext pq; simp only [Vec.cross]; ring

theorem cycPairs_map {α β : Type} (f : α → β) (vs : List α) :
    cycPairs (vs.map f) = (cycPairs vs).map fun (p, q) => (f p, f q) := by
  unfold cycPairs
  rw [← List.map_rotate, List.zip_map]
  rfl

/-- **C60** Whatever the orientation of a face in space (also facing straight down, where
`fromAlignment` returns a mirror image): if its outline has a normal, then the outline projected for
triangulation is counter-clockwise, i.e. has positive area. -/
theorem C60_projection_ccw (vs : List Vec) (n : Vec) (m : Mat)
    (hn : Vec.fromSurfaceNormal vs = .ok n) (hm : Mat.fromAlignment n ⟨0, 0, 1⟩ = .ok m) :
    0 < area2 (vs.map fun p => (p.transformed m).xy) := by
  unfold Vec.fromSurfaceNormal at hn
  by_cases h0 : Vec.newell vs = 0
  · rw [h0, Vec.normalized_zero] at hn; cases hn
  obtain ⟨n', e1, e2, e3, e4⟩ := Vec.normalized_ok _ h0
  rw [e1] at hn
  obtain rfl : n' = n := Except.ok.inj hn
  obtain ⟨w, hw, hpos', -⟩ := upright_cross e3 hm
  have hpos : 0 < n'.dot w := by linarith
  have : area2 (vs.map fun p => (p.transformed m).xy) = (Vec.newell vs).dot w := by
    rw [newell_eq]
    unfold area2
    rw [cycPairs_map, List.map_map]
    have : ∀ pq : Vec × Vec, ((fun (p, q) => p.x * q.y - q.x * p.y : Vec × Vec → ℝ) ∘
        fun (p, q) => ((p.transformed m).xy, (q.transformed m).xy)) pq =
        (pq.1.cross pq.2).x * w.x + (pq.1.cross pq.2).y * w.y + (pq.1.cross pq.2).z * w.z := by
      intro pq; exact hw pq.1 pq.2
    rw [funext this, sum_add_map, sum_add_map, List.sum_map_mul_right, List.sum_map_mul_right,
      List.sum_map_mul_right]
    rfl
  rw [this, e2]
  have : (n' * (Vec.newell vs).magnitude).dot w = (Vec.newell vs).magnitude * n'.dot w := by
    simp only [Vec.dot, Vec.mul_x, Vec.mul_y, Vec.mul_z]; ring
  rw [this]
  exact mul_pos e4 hpos

/-- A unit square facing down. -/
example : ∃ n m, Vec.fromSurfaceNormal [⟨0,0,0⟩, ⟨0,1,0⟩, ⟨1,1,0⟩, ⟨1,0,0⟩] = .ok n ∧
    Mat.fromAlignment n ⟨0, 0, 1⟩ = .ok m := by
  have : Vec.fromSurfaceNormal [⟨0,0,0⟩, ⟨0,1,0⟩, ⟨1,1,0⟩, ⟨1,0,0⟩] = .ok ⟨0, 0, -1⟩ := by
    unfold Vec.fromSurfaceNormal
    apply UnitOf.normalized
    refine ⟨by norm_num [Vec.dot], 2, two_pos, ?_⟩
    rw [newell_eq]
    ext <;> simp [vecArea2, cycPairs, Vec.cross]
    norm_num
  exact ⟨_, _, this, align_down⟩

end Chrumm.Geo
