import Verif.Geo.Move
import Verif.Props.Flat2

/-! C63, C64, C65: offset segments, moved lines and planes, measures of triangles. -/

namespace Chrumm.Geo
open Spec

private theorem bind_ok {α β : Type} {x : Py α} {f : α → Py β} {b : β} (h : (x >>= f) = .ok b) :
    ∃ a, x = .ok a ∧ f a = .ok b := by
  cases x with
  | error e => cases h
  | ok a => exact ⟨a, rfl, h⟩

private theorem bind_error {α β : Type} {x : Py α} {f : α → Py β} {e : Exn} (h : (x >>= f) = .error e) :
    x = .error e ∨ ∃ a, x = .ok a ∧ f a = .error e := by
  cases x with
  | error e' => exact .inl (by cases h; rfl)
  | ok a => exact .inr ⟨a, rfl, h⟩

/-! ### C63 -/

/-- C63. The offset segment is the segment, moved at right angles by the distance, to the right side when seen from
its start, or to the left side for negative distances. -/
theorem C63_offset (s r : Segment) (d : ℝ) (h : s.offset2D d = .ok r) :
    (r.b.x - r.a.x = s.b.x - s.a.x ∧ r.b.y - r.a.y = s.b.y - s.a.y) ∧ r.a.z = 0 ∧ r.b.z = 0 ∧
    (r.a.x - s.a.x) * (s.b.x - s.a.x) + (r.a.y - s.a.y) * (s.b.y - s.a.y) = 0 ∧
    distSq2D r.a s.a = d ^ 2 ∧
    (0 < d → (s.b.x - s.a.x) * (r.a.y - s.a.y) - (s.b.y - s.a.y) * (r.a.x - s.a.x) < 0) ∧
    (d < 0 → 0 < (s.b.x - s.a.x) * (r.a.y - s.a.y) - (s.b.y - s.a.y) * (r.a.x - s.a.x)) := by
  unfold Segment.offset2D at h
  obtain ⟨o, ho, h⟩ := bind_ok h
  cases h
  obtain ⟨hm, h1, h2, h3, h4⟩ := normalized2D_ok ho
  generalize hM : (s.a - s.b).ortho2D.magnitude2D = M at hm h1 h2
  simp only [Vec.ortho2D, Vec.sub_x, Vec.sub_y] at h1 h2
  have e1 : s.b.y - s.a.y = o.x * M := by linarith
  have e2 : s.b.x - s.a.x = -(o.y * M) := by linarith
  simp only [Vec.xy, Vec.add_x, Vec.add_y, Vec.add_z, Vec.mul_x, Vec.mul_y, Vec.mul_z, h3, distSq2D]
  rw [e1, e2]
  refine ⟨⟨by linarith, by linarith⟩, by simp, by simp, by ring, ?_, ?_, ?_⟩
  · linear_combination d ^ 2 * h4
  · intro hd
    have : -(o.y * M) * (s.a.y + o.y * d - s.a.y) - o.x * M * (s.a.x + o.x * d - s.a.x) = -(M * d) := by
      linear_combination (-(M * d)) * h4
    rw [this]
    have := mul_pos hm hd
    linarith
  · intro hd
    have : -(o.y * M) * (s.a.y + o.y * d - s.a.y) - o.x * M * (s.a.x + o.x * d - s.a.x) = -(M * d) := by
      linear_combination (-(M * d)) * h4
    rw [this]
    have := mul_neg_of_pos_of_neg hm hd
    linarith

/-- C63. It raises exactly when the end points coincide in the plane. -/
theorem C63_raises_iff (s : Segment) (d : ℝ) (e : Exn) :
    s.offset2D d = .error e ↔ (s.a.x = s.b.x ∧ s.a.y = s.b.y) ∧ e = .zeroDivision := by
  unfold Segment.offset2D Vec.normalized2D
  have hm0 : (s.a - s.b).ortho2D.magnitude2D = 0 ↔ s.a.x = s.b.x ∧ s.a.y = s.b.y := by
    unfold Vec.magnitude2D
    rw [Real.sqrt_eq_zero (by nlinarith [mul_self_nonneg (s.a - s.b).ortho2D.x, mul_self_nonneg (s.a - s.b).ortho2D.y])]
    simp only [Vec.ortho2D, Vec.sub_x, Vec.sub_y]
    constructor
    · intro h
      constructor <;> nlinarith [sq_nonneg (s.a.x - s.b.x), sq_nonneg (s.a.y - s.b.y)]
    · rintro ⟨h1, h2⟩; rw [h1, h2]; ring
  by_cases h : s.a.x = s.b.x ∧ s.a.y = s.b.y
  · rw [if_pos (hm0.mpr h)]
    simp [h, bind, Except.bind, eq_comm]
  · rw [if_neg (fun h' => h (hm0.mp h'))]
    simp [h, bind, Except.bind, pure, Except.pure]

example : ∃ r, Segment.offset2D ⟨⟨0, 0, 5⟩, ⟨2, 0, 7⟩⟩ 1 = .ok r ∧ r.a.y < 0 := by
  rcases h : Segment.offset2D ⟨⟨0, 0, 5⟩, ⟨2, 0, 7⟩⟩ 1 with e | r
  · rw [C63_raises_iff] at h
    norm_num at h
  · refine ⟨r, rfl, ?_⟩
    have := (C63_offset _ r 1 h).2.2.2.2.2.1 one_pos
    norm_num at this
    linarith

/-! ### C64 -/

/-- The linear part of a transformation. -/
private def lin (m : Mat) (v : Vec) : Vec :=
  ⟨v.x*m.m0 + v.y*m.m4 + v.z*m.m8, v.x*m.m1 + v.y*m.m5 + v.z*m.m9, v.x*m.m2 + v.y*m.m6 + v.z*m.m10⟩

private theorem transformedNormal_eq (v : Vec) (m : Mat) : v.transformedNormal m = (lin m v).normalized := rfl

private theorem lin_sub (m : Mat) (p q : Vec) : lin m (p - q) = p.transformed m - q.transformed m := by
  ext <;> simp [lin, Vec.transformed] <;> ring

private theorem unit_self {u : Vec} (h : u.dot u = 1) : u.normalized = .ok u :=
  Spec.UnitOf.normalized ⟨h, 1, one_pos, by ext <;> simp⟩

/-- C64. The points of a transformed line are exactly the transformed points of the line, in the same order. -/
theorem C64_line (l l' : Line) (m : Mat) (h : l.transformed m = .ok l') :
    (∃ k : ℝ, 0 < k ∧ ∀ t : ℝ, (l.pos + l.dir * t).transformed m = l'.pos + l'.dir * (t * k)) ∧
    (∀ x, OnLine l'.pos l'.dir x ↔ ∃ p, OnLine l.pos l.dir p ∧ x = p.transformed m) ∧ l'.dir.dot l'.dir = 1 := by
  unfold Line.transformed Line.make at h
  obtain ⟨d, hd, h⟩ := bind_ok h
  rw [transformedNormal_eq] at hd
  obtain ⟨hu, k, hk, he⟩ := normalized_unit hd
  obtain ⟨d', hd', h⟩ := bind_ok h
  rw [unit_self hu] at hd'
  cases hd'
  cases h
  have hx : ∀ t : ℝ, (l.pos + l.dir * t).transformed m = l.pos.transformed m + d * (t * k) := by
    intro t
    have e1 := congrArg Vec.x he
    have e2 := congrArg Vec.y he
    have e3 := congrArg Vec.z he
    simp only [lin, Vec.mul_x, Vec.mul_y, Vec.mul_z] at e1 e2 e3
    ext
    · simp only [Vec.transformed, Vec.add_x, Vec.add_y, Vec.add_z, Vec.mul_x, Vec.mul_y, Vec.mul_z]
      linear_combination t * e1
    · simp only [Vec.transformed, Vec.add_x, Vec.add_y, Vec.add_z, Vec.mul_x, Vec.mul_y, Vec.mul_z]
      linear_combination t * e2
    · simp only [Vec.transformed, Vec.add_x, Vec.add_y, Vec.add_z, Vec.mul_x, Vec.mul_y, Vec.mul_z]
      linear_combination t * e3
  refine ⟨⟨k, hk, hx⟩, fun x => ⟨?_, ?_⟩, hu⟩
  · rintro ⟨t, rfl⟩
    refine ⟨_, ⟨t / k, rfl⟩, ?_⟩
    rw [hx, div_mul_cancel₀ _ hk.ne']
  · rintro ⟨p, ⟨t, rfl⟩, rfl⟩
    exact ⟨t * k, hx t⟩

/-- C64. It raises exactly when the transformation maps the whole line to one point. -/
theorem C64_line_raises_iff (l : Line) (m : Mat) (e : Exn) :
    l.transformed m = .error e ↔
      (∀ p, OnLine l.pos l.dir p → p.transformed m = l.pos.transformed m) ∧ e = .zeroDivision := by
  have hz : lin m l.dir = 0 ↔ ∀ p, OnLine l.pos l.dir p → p.transformed m = l.pos.transformed m := by
    constructor
    · rintro h p ⟨t, rfl⟩
      have e1 := congrArg Vec.x h
      have e2 := congrArg Vec.y h
      have e3 := congrArg Vec.z h
      simp only [lin, Vec.zero_x, Vec.zero_y, Vec.zero_z] at e1 e2 e3
      ext
      · simp only [Vec.transformed, Vec.add_x, Vec.add_y, Vec.add_z, Vec.mul_x, Vec.mul_y, Vec.mul_z]
        linear_combination t * e1
      · simp only [Vec.transformed, Vec.add_x, Vec.add_y, Vec.add_z, Vec.mul_x, Vec.mul_y, Vec.mul_z]
        linear_combination t * e2
      · simp only [Vec.transformed, Vec.add_x, Vec.add_y, Vec.add_z, Vec.mul_x, Vec.mul_y, Vec.mul_z]
        linear_combination t * e3
    · intro h
      have := h (l.pos + l.dir * 1) ⟨1, rfl⟩
      have e1 := congrArg Vec.x this
      have e2 := congrArg Vec.y this
      have e3 := congrArg Vec.z this
      simp only [Vec.transformed, Vec.add_x, Vec.add_y, Vec.add_z, Vec.mul_x, Vec.mul_y, Vec.mul_z] at e1 e2 e3
      ext <;> simp only [lin, Vec.zero_x, Vec.zero_y, Vec.zero_z] <;> linarith
  rw [← hz]
  unfold Line.transformed Line.make
  rw [transformedNormal_eq]
  constructor
  · intro h
    rcases bind_error h with h | ⟨d, hd, h⟩
    · exact (Vec.normalized_error _).mp h
    · rw [unit_self (normalized_unit hd).1] at h
      cases h
  · rintro ⟨h, rfl⟩
    rw [h, Vec.normalized_zero]
    rfl

private theorem distSq_lin (m : Mat) (u : Vec) (h : Rigid fun v => v.transformed m) :
    (lin m u).dot (lin m u) = u.dot u := by
  have := h.1 u 0
  have e : ∀ p q : Vec, distSq p q = (p - q).dot (p - q) := by
    intro p q; simp [distSq, Vec.dot]; ring
  rw [e, e, ← lin_sub] at this
  have h0 : u - 0 = u := by ext <;> simp
  rwa [h0] at this

private theorem dot_lin (m : Mat) (u v : Vec) (h : Rigid fun v => v.transformed m) :
    (lin m u).dot (lin m v) = u.dot v := by
  have h1 := distSq_lin m (u + v) h
  have h2 := distSq_lin m u h
  have h3 := distSq_lin m v h
  have hl : lin m (u + v) = lin m u + lin m v := by ext <;> simp [lin] <;> ring
  rw [hl] at h1
  simp only [Vec.dot, Vec.add_x, Vec.add_y, Vec.add_z] at h1 h2 h3 ⊢
  linarith

/-- C64. Moving a plane rigidly keeps the signed distances of all points that are moved with it, and is always
possible. -/
theorem C64_plane (p : Plane) (m : Mat) (hn : p.normal.dot p.normal = 1) (hm : Rigid fun v => v.transformed m) :
    ∃ p', p.transformed m = .ok p' ∧ p'.normal.dot p'.normal = 1 ∧
      ∀ v : Vec, p'.distance (v.transformed m) = p.distance v := by
  have hu : (lin m p.normal).dot (lin m p.normal) = 1 := by rw [distSq_lin m _ hm, hn]
  refine ⟨⟨p.pos.transformed m, lin m p.normal⟩, ?_, hu, ?_⟩
  · unfold Plane.transformed Plane.make
    rw [transformedNormal_eq, unit_self hu]
    show (lin m p.normal).normalized >>= _ = _
    rw [unit_self hu]
    rfl
  · intro v
    unfold Plane.distance
    dsimp only
    rw [← lin_sub, dot_lin m _ _ hm]

/-- C64. The same for translations of lines and planes. -/
theorem C64_translated (p : Plane) (l : Line) (w : Vec) (hn : p.normal.dot p.normal = 1) (hl : l.dir.dot l.dir = 1) :
    (∃ p', p.translated w = .ok p' ∧ ∀ v : Vec, p'.distance (v + w) = p.distance v) ∧
    ∃ l', l.translated w = .ok l' ∧ ∀ x, OnLine l.pos l.dir x ↔ OnLine l'.pos l'.dir (x + w) := by
  constructor
  · refine ⟨⟨p.pos + w, p.normal⟩, ?_, fun v => ?_⟩
    · unfold Plane.translated Plane.make
      rw [unit_self hn]; rfl
    · simp only [Plane.distance, Vec.dot, Vec.sub_x, Vec.sub_y, Vec.sub_z, Vec.add_x, Vec.add_y, Vec.add_z]
      ring
  · refine ⟨⟨l.pos + w, l.dir⟩, ?_, fun x => ?_⟩
    · unfold Line.translated Line.make
      rw [unit_self hl]; rfl
    · constructor
      · rintro ⟨t, rfl⟩
        exact ⟨t, by ext <;> simp <;> ring⟩
      · rintro ⟨t, ht⟩
        refine ⟨t, ?_⟩
        have e1 := congrArg Vec.x ht
        have e2 := congrArg Vec.y ht
        have e3 := congrArg Vec.z ht
        ext <;> simp at e1 e2 e3 ⊢ <;> linarith

/-- All matrices of C22 are rigid; so a plane can be turned. -/
example : ∃ p', Plane.transformed ⟨⟨0, 0, 3⟩, ⟨0, 0, 1⟩⟩ (rotated 1 .X 2 none) = .ok p' ∧
    p'.distance ((⟨1, 2, 7⟩ : Vec).transformed (rotated 1 .X 2 none)) = 4 := by
  obtain ⟨p', h1, -, h2⟩ := C64_plane ⟨⟨0, 0, 3⟩, ⟨0, 0, 1⟩⟩ _ (by norm_num [Vec.dot]) (C22_rigid .X 2 none)
  refine ⟨p', h1, ?_⟩
  rw [h2]
  norm_num [Plane.distance, Vec.dot]

/-! ### C65 -/

private theorem cross_dot_cross (u n : Vec) (h : u.dot n = 0) :
    (u.cross n).dot (u.cross n) = u.magSquared * n.magSquared := by
  simp only [Vec.dot, Vec.cross, Vec.magSquared] at h ⊢
  linear_combination (-(u.x * n.x + u.y * n.y + u.z * n.z)) * h

private theorem comb_perp (p q : Vec) (A B : ℝ) : (q * A - p * B).dot (p.cross q) = 0 := by
  simp only [Vec.dot, Vec.cross, Vec.sub_x, Vec.sub_y, Vec.sub_z, Vec.mul_x, Vec.mul_y, Vec.mul_z]
  ring

private theorem comb_sq (p q : Vec) (A B : ℝ) (hA : p.magSquared = A) (hB : q.magSquared = B) :
    (q * A - p * B).magSquared = A * B * (p - q).magSquared := by
  simp only [Vec.magSquared, Vec.sub_x, Vec.sub_y, Vec.sub_z, Vec.mul_x, Vec.mul_y, Vec.mul_z] at hA hB ⊢
  linear_combination (B ^ 2 - A * B) * hA + (A ^ 2 - A * B) * hB

/-- C65. The circumradius of a triangle that is not (nearly) degenerate is the distance of its corners from a point in
its plane. -/
theorem C65_circumradius (t : Tri Vec) (h : t.valid) :
    ∃ o : Vec, (o - t.a).dot (normalOf t) = 0 ∧ 0 < t.circumradius ∧
      distSq o t.a = t.circumradius ^ 2 ∧ distSq o t.b = t.circumradius ^ 2 ∧ distSq o t.c = t.circumradius ^ 2 := by
  obtain ⟨a, b, c⟩ := t
  have hcross : (b - a).cross (c - a) = (a - c).cross (b - c) := by ext <;> simp [Vec.cross] <;> ring
  unfold Tri.valid Tri.area isZero at h
  unfold Tri.circumradius isZero
  dsimp only at h ⊢
  rw [hcross] at h
  have hab : a - c - (b - c) = a - b := by ext <;> simp
  rw [hab]
  have hmag := ((a - c).cross (b - c)).magnitude_nonneg
  have hsq := ((a - c).cross (b - c)).magnitude_sq
  have hA := (a - c).magnitude_sq
  have hB := (b - c).magnitude_sq
  have hC := (a - b).magnitude_sq
  have hA0 := (a - c).magnitude_nonneg
  have hB0 := (b - c).magnitude_nonneg
  have hC0 := (a - b).magnitude_nonneg
  set N := ((a - c).cross (b - c)).magnitude with hN
  rw [abs_of_nonneg (by linarith)] at h
  have hNpos : 0 < N := by norm_num at h; linarith
  rw [abs_of_nonneg (by linarith), if_neg (by norm_num at h ⊢; linarith)]
  set A := (a - c).magSquared with hAd
  set B := (b - c).magSquared with hBd
  let n := (a - c).cross (b - c)
  let X : Vec := ((b - c) * A - (a - c) * B).cross n
  have hXX : X.dot X = A * B * (a - b).magSquared * (N * N) := by
    have := cross_dot_cross ((b - c) * A - (a - c) * B) n (comb_perp _ _ _ _)
    rw [comb_sq (a - c) (b - c) A B rfl rfl, hab] at this
    rw [this, hsq]
  have hXa : X.dot (a - c) = A * (N * N) := by
    rw [hsq]
    simp only [X, n, hAd, hBd, Vec.dot, Vec.cross, Vec.magSquared, Vec.sub_x, Vec.sub_y, Vec.sub_z, Vec.mul_x, Vec.mul_y,
      Vec.mul_z]
    ring
  have hXb : X.dot (b - c) = B * (N * N) := by
    rw [hsq]
    simp only [X, n, hAd, hBd, Vec.dot, Vec.cross, Vec.magSquared, Vec.sub_x, Vec.sub_y, Vec.sub_z, Vec.mul_x, Vec.mul_y,
      Vec.mul_z]
    ring
  have hXn : X.dot n = 0 := by
    simp only [X, Vec.dot, Vec.cross]
    ring
  clear_value X
  have hr : ((a - c).magnitude * (b - c).magnitude * (a - b).magnitude / (2 * N)) ^ 2 =
      A * B * (a - b).magSquared / (4 * (N * N)) := by
    rw [div_pow, ← hA, ← hB, ← hC]
    congr 1 <;> ring
  have ha0 : ∀ p q : Vec, distSq p q = (p - q).dot (p - q) := by
    intro p q; simp [distSq, Vec.dot]; ring
  have hdist : ∀ p : Vec, distSq (c + X * (1 / (2 * (N * N)))) p =
      X.dot X / (4 * (N * N) ^ 2) - X.dot (p - c) / (N * N) + (p - c).dot (p - c) := by
    intro p
    rw [ha0]
    simp only [Vec.dot, Vec.sub_x, Vec.sub_y, Vec.sub_z, Vec.add_x, Vec.add_y, Vec.add_z, Vec.mul_x, Vec.mul_y, Vec.mul_z]
    have : N ≠ 0 := hNpos.ne'
    field_simp
    ring
  have hms : ∀ p : Vec, p.dot p = p.magSquared := fun p => rfl
  refine ⟨c + X * (1 / (2 * (N * N))), ?_, ?_, ?_, ?_, ?_⟩
  · unfold normalOf
    dsimp only
    rw [hcross]
    have e : ∀ k : ℝ, (c + X * k - a).dot n = k * X.dot n - (a - c).dot n := by
      intro k
      simp only [Vec.dot, Vec.sub_x, Vec.sub_y, Vec.sub_z, Vec.add_x, Vec.add_y, Vec.add_z, Vec.mul_x, Vec.mul_y, Vec.mul_z]
      ring
    rw [show (a - c).cross (b - c) = n from rfl, e, hXn]
    simp only [n, Vec.dot, Vec.cross]
    ring
  · have hp : ∀ v : Vec, 0 ≤ v.magnitude → v ≠ 0 → 0 < v.magnitude := fun v h0 h1 =>
      lt_of_le_of_ne h0 fun h => h1 (v.magnitude_eq_zero.mp h.symm)
    have hne : n ≠ 0 := fun h => hNpos.ne' (((a - c).cross (b - c)).magnitude_eq_zero.mpr h)
    have h1 := hp _ hA0 fun h => hne (by simp only [n, h]; ext <;> simp [Vec.cross])
    have h2 := hp _ hB0 fun h => hne (by simp only [n, h]; ext <;> simp [Vec.cross])
    have h3 := hp _ hC0 fun h => hne (by
      have : b - c = a - c := by
        have e1 := congrArg Vec.x h
        have e2 := congrArg Vec.y h
        have e3 := congrArg Vec.z h
        ext <;> simp at e1 e2 e3 ⊢ <;> linarith
      simp only [n, this]; ext <;> simp [Vec.cross] <;> ring)
    positivity
  · rw [hdist, hr, hXX, hXa, hms]
    have : N ≠ 0 := hNpos.ne'
    field_simp
    ring
  · rw [hdist, hr, hXX, hXb, hms]
    have : N ≠ 0 := hNpos.ne'
    field_simp
    ring
  · rw [hdist, hr, hXX]
    have : c - c = 0 := by ext <;> simp
    rw [this]
    have : N ≠ 0 := hNpos.ne'
    simp only [Vec.dot, Vec.zero_x, Vec.zero_y, Vec.zero_z]
    field_simp
    ring

/-- C65. The area is half the base times the height: for every point `f` on the line through `a` and `b` that is the
foot of the height. -/
theorem C65_area (t : Tri Vec) (f : Vec) (hf : OnLine t.a (t.b - t.a) f) (hh : (t.c - f).dot (t.b - t.a) = 0) :
    t.area = Real.sqrt (distSq t.a t.b) * Real.sqrt (distSq t.c f) / 2 := by
  obtain ⟨a, b, c⟩ := t
  obtain ⟨k, rfl⟩ := hf
  unfold Tri.area
  rw [← Real.sqrt_mul (by unfold distSq; positivity)]
  unfold Vec.magnitude
  congr 2
  simp only [Vec.dot, Vec.sub_x, Vec.sub_y, Vec.sub_z, Vec.add_x, Vec.add_y, Vec.add_z, Vec.mul_x, Vec.mul_y, Vec.mul_z] at hh
  simp only [Vec.magSquared, Vec.dot, Vec.cross, distSq, Vec.sub_x, Vec.sub_y, Vec.sub_z, Vec.add_x, Vec.add_y, Vec.add_z, Vec.mul_x, Vec.mul_y, Vec.mul_z]
  linear_combination (-((c.x - (a.x + (b.x - a.x) * k)) * (b.x - a.x) + (c.y - (a.y + (b.y - a.y) * k)) * (b.y - a.y) +
    (c.z - (a.z + (b.z - a.z) * k)) * (b.z - a.z))) * hh

/-- The right-angled triangle with sides 3, 4, 5. -/
example : Tri.area ⟨⟨0, 0, 0⟩, ⟨3, 0, 0⟩, ⟨0, 4, 0⟩⟩ = 6 ∧ Tri.valid ⟨⟨0, 0, 0⟩, ⟨3, 0, 0⟩, ⟨0, 4, 0⟩⟩ := by
  have : Tri.area ⟨⟨0, 0, 0⟩, ⟨3, 0, 0⟩, ⟨0, 4, 0⟩⟩ = 6 := by
    rw [C65_area _ ⟨0, 0, 0⟩ ⟨0, by ext <;> simp⟩ (by simp [Vec.dot])]
    norm_num [distSq]
    rw [show (9 : ℝ) = 3 ^ 2 by norm_num, show (16 : ℝ) = 4 ^ 2 by norm_num, Real.sqrt_sq (by norm_num),
      Real.sqrt_sq (by norm_num)]
    norm_num
  refine ⟨this, ?_⟩
  unfold Tri.valid isZero
  rw [this]
  norm_num

end Chrumm.Geo
