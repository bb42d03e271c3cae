import Verif.Part.Body
import Verif.Spec.Chamfer
import Verif.Props.Flat2
import Verif.Props.Orderly
import Verif.Props.HexGrid

/-! C92: the chamfers of the body. -/

namespace Chrumm.Part
open Geo Geo.Spec Spec

theorem inward_eq {n a b d q : Vec} {k s : ℝ} (hn : n.dot n = 1) (hd : d.dot d = 1) (hp : d.dot n = 0) (hk : 0 < k)
    (h : b - a = d * k + n * s) : inward n a b q = (n.cross d).dot (q - b) := by
  have e : n.cross (b - a) = n.cross d * k := by
    rw [h]
    ext <;> simp only [Vec.cross, Vec.add_x, Vec.add_y, Vec.add_z, Vec.mul_x, Vec.mul_y, Vec.mul_z] <;> ring
  have hu : (n.cross d).dot (n.cross d) = 1 := by
    simp only [Vec.cross, Vec.dot] at *
    linear_combination (d.x ^ 2 + d.y ^ 2 + d.z ^ 2) * hn + hd - (d.x * n.x + d.y * n.y + d.z * n.z) * hp
  have e2 : (n.cross d * k).dot (n.cross d * k) = k ^ 2 := by
    have : (n.cross d * k).dot (n.cross d * k) = k ^ 2 * (n.cross d).dot (n.cross d) := by
      simp only [Vec.dot, Vec.mul_x, Vec.mul_y, Vec.mul_z]
      ring
    rw [this, hu, mul_one]
  unfold inward
  rw [e, e2, Real.sqrt_sq hk.le, div_eq_iff hk.ne']
  simp only [Vec.dot, Vec.mul_x, Vec.mul_y, Vec.mul_z]
  ring

theorem cross_unit {n d : Vec} (hn : n.dot n = 1) (hd : d.dot d = 1) (hp : d.dot n = 0) :
    (n.cross d).dot (n.cross d) = 1 := by
  simp only [Vec.cross, Vec.dot] at *
  linear_combination (d.x ^ 2 + d.y ^ 2 + d.z ^ 2) * hn + hd - (d.x * n.x + d.y * n.y + d.z * n.z) * hp

/-- The projection of a point to a plane through `b`. -/
theorem project_normal {n b v r : Vec} (hn : n.dot n = 1) (h : (⟨b, n⟩ : Plane).projectNormal v = .ok r) :
    r = v + n * n.dot (b - v) := by
  obtain ⟨r', h', hr⟩ := C27_project_normal b n v _ (plane_ok hn)
  rw [h] at h'
  cases h'
  refine ((hr _).mp ⟨?_, _, rfl⟩).symm
  simp only [OnPlane, Vec.dot, Vec.add_x, Vec.add_y, Vec.add_z, Vec.sub_x, Vec.sub_y, Vec.sub_z, Vec.mul_x, Vec.mul_y,
    Vec.mul_z] at *
  linear_combination (n.x * (b.x - v.x) + n.y * (b.y - v.y) + n.z * (b.z - v.z)) * hn

/-- **C92** The point of a chamfer is the corner moved inside by the size of the chamfer. -/
theorem C92_point {a b c n q : Vec} {size : ℝ} (hn : n.dot n = 1) (h : chamferPoint a b c n size = .ok q) :
    Inset n size a b c q := by
  unfold chamferPoint at h
  rw [plane_ok hn] at h
  obtain ⟨_, ⟨⟩, h⟩ := bind_ok h
  obtain ⟨pa, h1, h⟩ := bind_ok h
  obtain ⟨ab, h2, h⟩ := bind_ok h
  obtain ⟨pc, h3, h⟩ := bind_ok h
  obtain ⟨bc, h4, h⟩ := bind_ok h
  obtain ⟨o1, h5, h⟩ := bind_ok h
  obtain ⟨l1, h6, h⟩ := bind_ok h
  obtain ⟨o2, h7, h⟩ := bind_ok h
  obtain ⟨l2, h8, h⟩ := bind_ok h
  obtain ⟨p1, d1⟩ := ab
  obtain ⟨p2, d2⟩ := bc
  obtain ⟨e1, u1⟩ := line_make h2
  obtain ⟨e2, u2⟩ := line_make h4
  dsimp only at e1 e2 u1 u2 h5 h6 h7 h8
  subst e1 e2
  have a1 := project_normal hn h1
  have a2 := project_normal hn h3
  obtain ⟨i1, k1, hk1, v1⟩ := u1
  obtain ⟨i2, k2, hk2, v2⟩ := u2
  have s1 : p2 - a = d1 * k1 + n * n.dot (p2 - a) := by
    rw [← v1, a1]
    ext <;> simp only [Vec.add_x, Vec.add_y, Vec.add_z, Vec.sub_x, Vec.sub_y, Vec.sub_z, Vec.mul_x, Vec.mul_y, Vec.mul_z] <;> ring
  have s2 : c - p2 = d2 * k2 + n * n.dot (c - p2) := by
    rw [← v2, a2]
    ext <;> simp [Vec.dot] <;> ring
  have n1 : d1.dot n = 0 := by
    have : d1.dot n * k1 = 0 := by
      have e := congrArg (fun v : Vec => v.dot n) s1
      simp only [Vec.dot, Vec.add_x, Vec.add_y, Vec.add_z, Vec.sub_x, Vec.sub_y, Vec.sub_z, Vec.mul_x, Vec.mul_y, Vec.mul_z] at *
      linear_combination -(n.x * (p2.x - a.x) + n.y * (p2.y - a.y) + n.z * (p2.z - a.z)) * hn - e
    exact (mul_eq_zero.mp this).resolve_right hk1.ne'
  have n2 : d2.dot n = 0 := by
    have : d2.dot n * k2 = 0 := by
      have e := congrArg (fun v : Vec => v.dot n) s2
      simp only [Vec.dot, Vec.add_x, Vec.add_y, Vec.add_z, Vec.sub_x, Vec.sub_y, Vec.sub_z, Vec.mul_x, Vec.mul_y, Vec.mul_z] at *
      linear_combination -(n.x * (c.x - p2.x) + n.y * (c.y - p2.y) + n.z * (c.z - p2.z)) * hn - e
    exact (mul_eq_zero.mp this).resolve_right hk2.ne'
  have c1 := cross_unit hn i1 n1
  have c2 := cross_unit hn i2 n2
  rw [normalized_self c1] at h5
  rw [normalized_self c2] at h7
  cases h5
  cases h7
  unfold Line.translated at h6 h8
  dsimp only at h6 h8
  have i1' := i1
  have i2' := i2
  have q1 := inward_eq (q := q) hn i1 n1 hk1 s1
  have q2 : inward n p2 c q = (n.cross d2).dot (q - p2) := by
    rw [inward_eq (q := q) hn i2 n2 hk2 s2]
    have e : (n.cross d2).dot (c - p2) = 0 := by
      rw [s2]
      simp only [Vec.dot, Vec.cross, Vec.add_x, Vec.add_y, Vec.add_z, Vec.mul_x, Vec.mul_y, Vec.mul_z]
      ring
    simp only [Vec.dot, Vec.sub_x, Vec.sub_y, Vec.sub_z] at e ⊢
    linear_combination -e
  rw [line_self i1] at h6
  rw [line_self i2] at h8
  cases h6
  cases h8
  have x12 : (n.cross d1).dot (n.cross d2) = d1.dot d2 := by
    simp only [Vec.cross, Vec.dot] at *
    linear_combination (d1.x * d2.x + d1.y * d2.y + d1.z * d2.z) * hn - (d1.x * n.x + d1.y * n.y + d1.z * n.z) * n2
  have w1 : n.cross (p2 - a) = n.cross d1 * k1 := by
    rw [s1]
    ext <;> simp only [Vec.cross, Vec.add_x, Vec.add_y, Vec.add_z, Vec.mul_x, Vec.mul_y, Vec.mul_z] <;> ring
  have w2 : n.cross (c - p2) = n.cross d2 * k2 := by
    rw [s2]
    ext <;> simp only [Vec.cross, Vec.add_x, Vec.add_y, Vec.add_z, Vec.mul_x, Vec.mul_y, Vec.mul_z] <;> ring
  have scale : ∀ (u w : Vec) (s t : ℝ), (u * s).dot (w * t) = s * t * u.dot w := fun u w s t => by
    simp only [Vec.dot, Vec.mul_x, Vec.mul_y, Vec.mul_z]
    ring
  have hsharp : Sharp n a p2 c ↔ 1 / 1000000 ≤ 1 - d1.dot d2 ^ 2 := by
    unfold Sharp
    rw [w1, w2, scale, scale, scale, c1, c2, x12]
    have : 0 < (k1 * k2) ^ 2 := by positivity
    rw [show 1 / 1000000 * (k1 * k1 * 1 * (k2 * k2 * 1)) = (k1 * k2) ^ 2 * (1 / 1000000) by ring,
      show k1 * k1 * 1 * (k2 * k2 * 1) - (k1 * k2 * d1.dot d2) ^ 2 = (k1 * k2) ^ 2 * (1 - d1.dot d2 ^ 2) by ring]
    exact mul_le_mul_iff_right₀ this
  have hstraight : 0 ≤ (n.cross (p2 - a)).dot (n.cross (c - p2)) ↔ 0 ≤ d1.dot d2 := by
    rw [w1, w2, scale, x12]
    have : 0 < k1 * k2 := by positivity
    constructor
    · intro h
      by_contra hlt
      push Not at hlt
      nlinarith
    · exact fun h => mul_nonneg this.le h
  have hle : d1.dot d2 ^ 2 ≤ 1 := by
    have e : (d1 - d2 * d1.dot d2).dot (d1 - d2 * d1.dot d2) = 1 - d1.dot d2 ^ 2 := by
      simp only [Vec.dot, Vec.sub_x, Vec.sub_y, Vec.sub_z, Vec.mul_x, Vec.mul_y, Vec.mul_z] at i1' i2' ⊢
      linear_combination i1' + (d1.x * d2.x + d1.y * d2.y + d1.z * d2.z) ^ 2 * i2'
    have : 0 ≤ (d1 - d2 * d1.dot d2).dot (d1 - d2 * d1.dot d2) := by
      unfold Vec.dot
      nlinarith [sq_nonneg (d1 - d2 * d1.dot d2).x, sq_nonneg (d1 - d2 * d1.dot d2).y, sq_nonneg (d1 - d2 * d1.dot d2).z]
    linarith
  have hi := intersect_eq (l := ⟨p2 + n.cross d1 * size, d1⟩) (m := ⟨p2 + n.cross d2 * size, d2⟩) i1' i2'
  dsimp only at hi
  have hcomm : d2.dot d1 = d1.dot d2 := by
    simp only [Vec.dot]
    ring
  by_cases hz : isZero (1 - d2.dot d1 ^ 2)
  · rw [if_pos hz] at hi
    rw [hi] at h
    cases h
    rw [hcomm] at hz
    have hz' : 1 - d1.dot d2 ^ 2 < 1 / 1000000 := lt_of_abs_lt hz
    have r1 : (n.cross d1).dot (p2 + n.cross d1 * size - p2) = size := by
      have : (n.cross d1).dot (p2 + n.cross d1 * size - p2) = size * (n.cross d1).dot (n.cross d1) := by
        simp only [Vec.dot, Vec.sub_x, Vec.sub_y, Vec.sub_z, Vec.add_x, Vec.add_y, Vec.add_z, Vec.mul_x, Vec.mul_y, Vec.mul_z]
        ring
      rw [this, c1, mul_one]
    have r2 : (n.cross d2).dot (p2 + n.cross d1 * size - p2) = size * d1.dot d2 := by
      rw [← x12]
      simp only [Vec.dot, Vec.sub_x, Vec.sub_y, Vec.sub_z, Vec.add_x, Vec.add_y, Vec.add_z, Vec.mul_x, Vec.mul_y, Vec.mul_z]
      ring
    refine ⟨?_, q1.trans r1, fun hs => ?_, fun hs => ?_⟩
    · simp only [Vec.dot, Vec.cross, Vec.sub_x, Vec.sub_y, Vec.sub_z, Vec.add_x, Vec.add_y, Vec.add_z, Vec.mul_x, Vec.mul_y,
        Vec.mul_z]
      ring
    · exact absurd (hsharp.mp hs) (not_le.mpr hz')
    · have h0 := hstraight.mp hs
      rw [q2.trans r2, show size * d1.dot d2 - size = size * (d1.dot d2 - 1) by ring, abs_mul, div_eq_mul_inv]
      refine mul_le_mul_of_nonneg_left ?_ (abs_nonneg _)
      rw [abs_le]
      constructor <;> nlinarith
  · rw [if_neg hz] at hi
    rw [hi] at h
    have hq := Except.ok.inj h
    rw [hcomm] at hz
    have hpos : 1 / 1000000 ≤ 1 - d1.dot d2 ^ 2 := by
      have := not_lt.mp hz
      rwa [abs_of_nonneg (by linarith)] at this
    obtain ⟨e, he⟩ : ∃ e, e = (n.cross d1).dot d2 := ⟨_, rfl⟩
    have gram : e ^ 2 = 1 - d1.dot d2 ^ 2 := by
      have : e ^ 2 = n.dot n * (d1.dot d1 * d2.dot d2 - d1.dot d2 ^ 2) - d1.dot n * (d1.dot n * d2.dot d2 - d1.dot d2 * d2.dot n) +
          d2.dot n * (d1.dot n * d1.dot d2 - d1.dot d1 * d2.dot n) := by
        rw [he]
        simp only [Vec.dot, Vec.cross]
        ring
      rw [this, hn, i1', i2', n1, n2]
      ring
    have t1 : (p2 + n.cross d1 * size - (p2 + n.cross d2 * size)).dot d1 = size * e := by
      rw [he]
      simp only [Vec.dot, Vec.cross, Vec.sub_x, Vec.sub_y, Vec.sub_z, Vec.add_x, Vec.add_y, Vec.add_z, Vec.mul_x, Vec.mul_y,
        Vec.mul_z]
      ring
    have t2 : (p2 + n.cross d1 * size - (p2 + n.cross d2 * size)).dot d2 = size * e := by
      rw [he]
      simp only [Vec.dot, Vec.cross, Vec.sub_x, Vec.sub_y, Vec.sub_z, Vec.add_x, Vec.add_y, Vec.add_z, Vec.mul_x, Vec.mul_y,
        Vec.mul_z]
      ring
    rw [t1, t2, hcomm] at hq
    obtain ⟨A, hA⟩ : ∃ A, A = (size * e * d1.dot d2 - size * e) / (1 - d1.dot d2 ^ 2) := ⟨_, rfl⟩
    rw [← hA] at hq
    have hne : (1 - d1.dot d2 ^ 2) ≠ 0 := by linarith
    have hAe : A * e = size * (d1.dot d2 - 1) := by
      rw [hA, ← gram] at *
      have : e ≠ 0 := by
        rintro rfl
        simp at hne
      field_simp
    have r0 : ∀ u : Vec, u.dot (q - p2) =
        (size * u.dot (n.cross d1) + A * u.dot d1 + size * u.dot (n.cross d2) + (size * e + A * d1.dot d2) * u.dot d2) / 2 := by
      intro u
      rw [← hq]
      simp only [Vec.dot, Vec.sub_x, Vec.sub_y, Vec.sub_z, Vec.add_x, Vec.add_y, Vec.add_z, Vec.mul_x, Vec.mul_y, Vec.mul_z]
      ring
    have z11 : (n.cross d1).dot d1 = 0 := by simp only [Vec.dot, Vec.cross]; ring
    have z22 : (n.cross d2).dot d2 = 0 := by simp only [Vec.dot, Vec.cross]; ring
    have z21 : (n.cross d2).dot d1 = -e := by rw [he]; simp only [Vec.dot, Vec.cross]; ring
    have x21 : (n.cross d2).dot (n.cross d1) = d1.dot d2 := by rw [← x12]; simp only [Vec.dot]; ring
    have zn1 : n.dot (n.cross d1) = 0 := by simp only [Vec.dot, Vec.cross]; ring
    have zn2 : n.dot (n.cross d2) = 0 := by simp only [Vec.dot, Vec.cross]; ring
    have n1' : n.dot d1 = 0 := by rw [← n1]; simp only [Vec.dot]; ring
    have n2' : n.dot d2 = 0 := by rw [← n2]; simp only [Vec.dot]; ring
    have r1 : (n.cross d1).dot (q - p2) = size := by
      rw [r0, c1, z11, x12, ← he]
      linear_combination (d1.dot d2 / 2) * hAe + size / 2 * gram
    have r2 : (n.cross d2).dot (q - p2) = size := by
      rw [r0, x21, z21, c2, z22]
      linear_combination (-1 / 2) * hAe
    refine ⟨?_, q1.trans r1, fun _ => q2.trans r2, fun _ => ?_⟩
    · have := r0 n
      rw [zn1, zn2, n1', n2'] at this
      simp only [Vec.dot] at this ⊢
      linarith
    · rw [q2.trans r2, sub_self, abs_zero]
      positivity

/-- Two lines of a plane that are not parallel meet. -/
theorem planar_meet {n p1 d1 p2 d2 : Vec} (hn : n.dot n = 1) (h1 : d1.dot n = 0) (h2 : d2.dot n = 0) (hp : (p2 - p1).dot n = 0)
    (hd : d1.dot (n.cross d2) ≠ 0) : ∃ x, OnLine p1 d1 x ∧ OnLine p2 d2 x := by
  refine ⟨p1 + d1 * ((p2 - p1).dot (n.cross d2) / d1.dot (n.cross d2)), ⟨_, rfl⟩,
    ⟨(p2 - p1).dot (n.cross d1) / d1.dot (n.cross d2), ?_⟩⟩
  obtain ⟨w, hw⟩ : ∃ w, w = p2 - p1 := ⟨_, rfl⟩
  rw [← hw] at hp
  have t0 : w.dot (d1.cross d2) = 0 := by
    have id : w.dot (d1.cross d2) * n.dot n = w.dot n * n.dot (d1.cross d2) + d1.dot n * w.dot (n.cross d2) +
        d2.dot n * w.dot (d1.cross n) := by
      simp only [Vec.dot, Vec.cross]
      ring
    rw [hn, hp, h1, h2] at id
    linarith
  have id : w * d1.dot (n.cross d2) = d1 * w.dot (n.cross d2) - d2 * w.dot (n.cross d1) - n * w.dot (d1.cross d2) := by
    ext <;> simp only [Vec.dot, Vec.cross, Vec.sub_x, Vec.sub_y, Vec.sub_z, Vec.mul_x, Vec.mul_y, Vec.mul_z] <;> ring
  rw [t0] at id
  have hp2 : p2 = p1 + w := by
    rw [hw]
    ext <;> simp
  rw [hp2, show p1 + w - p1 = w by ext <;> simp]
  generalize d1.dot (n.cross d2) = E at *
  generalize w.dot (n.cross d2) = F at *
  generalize w.dot (n.cross d1) = G at *
  have ex := congrArg Vec.x id
  have ey := congrArg Vec.y id
  have ez := congrArg Vec.z id
  simp only [Vec.sub_x, Vec.sub_y, Vec.sub_z, Vec.mul_x, Vec.mul_y, Vec.mul_z] at ex ey ez
  ext <;> simp only [Vec.add_x, Vec.add_y, Vec.add_z, Vec.mul_x, Vec.mul_y, Vec.mul_z] <;> field_simp <;> linarith

/-- The end of a chamfer is in every plane that contains both edges, seen from where the chamfer starts. -/
theorem parallel_flat {a b c prev q n : Vec} (h : parallelChamfer a b c prev = .ok q) (hab : (b - a).dot n = 0)
    (hbc : (c - b).dot n = 0) (hp : (prev - b).dot n = 0) : (q - b).dot n = 0 := by
  unfold parallelChamfer at h
  obtain ⟨l, h1, h⟩ := bind_ok h
  obtain ⟨m, h2, h⟩ := bind_ok h
  obtain ⟨A, B, ⟨s, hA⟩, ⟨t, hB⟩, hq, -⟩ := C25_midpoint _ _ _ _ l m q h1 h2 h
  rw [hq, hA, hB]
  simp only [Vec.dot, Vec.sub_x, Vec.sub_y, Vec.sub_z, Vec.add_x, Vec.add_y, Vec.add_z, Vec.mul_x, Vec.mul_y, Vec.mul_z] at *
  linear_combination (s / 2) * hab + (t / 2) * hbc + 1 / 2 * hp

/-- **C92** A chamfer ends on the next edge, and leads there in parallel to its own edge, if both edges and the point where
the chamfer starts are in one plane. -/
theorem C92_parallel {a b c prev q n : Vec} (hn : n.dot n = 1) (h : parallelChamfer a b c prev = .ok q)
    (hab : (b - a).dot n = 0) (hbc : (c - b).dot n = 0) (hp : (prev - b).dot n = 0) :
    OnLine prev (b - a) q ∧ OnLine b (c - b) q := by
  unfold parallelChamfer at h
  obtain ⟨l, h1, h⟩ := bind_ok h
  obtain ⟨m, h2, h⟩ := bind_ok h
  have hne : (b - a).dot (n.cross (c - b)) ≠ 0 := by
    intro h0
    have := (C25_raises_iff _ _ _ _ l m h1 h2 .zeroDivision).mpr ⟨fun u v hu hv => ?_, rfl⟩
    · rw [h] at this
      cases this
    · obtain ⟨iu, k, hk, eu⟩ := hu
      obtain ⟨iv, t, ht, ev⟩ := hv
      have n1 : u.dot n = 0 := by
        rw [eu] at hab
        have : u.dot n * k = 0 := by
          rw [← hab]
          simp only [Vec.dot, Vec.mul_x, Vec.mul_y, Vec.mul_z]
          ring
        exact (mul_eq_zero.mp this).resolve_right hk.ne'
      have n2 : v.dot n = 0 := by
        rw [ev] at hbc
        have : v.dot n * t = 0 := by
          rw [← hbc]
          simp only [Vec.dot, Vec.mul_x, Vec.mul_y, Vec.mul_z]
          ring
        exact (mul_eq_zero.mp this).resolve_right ht.ne'
      have e0 : u.dot (n.cross v) = 0 := by
        rw [eu, ev] at h0
        have : u.dot (n.cross v) * (k * t) = 0 := by
          rw [← h0]
          simp only [Vec.dot, Vec.cross, Vec.mul_x, Vec.mul_y, Vec.mul_z]
          ring
        exact (mul_eq_zero.mp this).resolve_right (by positivity)
      have gram : (u.cross v).dot (u.cross v) * n.dot n = u.dot (n.cross v) ^ 2 + u.dot n * (u.dot n * v.dot v - u.dot v * v.dot n) -
          v.dot n * (u.dot n * u.dot v - u.dot u * v.dot n) := by
        simp only [Vec.dot, Vec.cross]
        ring
      rw [hn, e0, n1, n2] at gram
      norm_num at gram
      rw [gram]
      norm_num
  obtain ⟨x, x1, x2⟩ := planar_meet hn hab hbc (p1 := prev) (p2 := b) (by
    simp only [Vec.dot, Vec.sub_x, Vec.sub_y, Vec.sub_z] at hp ⊢
    linarith) hne
  rw [C25_common_point _ _ _ _ l m q x h1 h2 h x1 x2]
  exact ⟨x1, x2⟩

/-- **C92** The same for all points of a rim. -/
theorem C92_rim {prev next n : Vec} {size : ℝ} (hn : n.dot n = 1) {corner rim : List Vec}
    (h : cornerChamfer prev corner next n size = .ok rim) : InsetBy n size (prev :: corner ++ [next]) rim := by
  induction corner generalizing prev rim with
  | nil =>
    cases h
    exact ⟨rfl, fun i a b c q _ _ _ hq => by simp at hq⟩
  | cons b rest ih =>
    unfold cornerChamfer at h
    obtain ⟨p, h1, h⟩ := bind_ok h
    obtain ⟨ps, h2, h⟩ := bind_ok h
    cases h
    obtain ⟨l, r⟩ := ih h2
    refine ⟨by simpa using l, fun i a b' c q ha hb hc hq => ?_⟩
    cases i with
    | succ i => exact r i a b' c q ha hb hc hq
    | zero =>
      simp only [List.cons_append, List.getElem?_cons_zero, Option.some.injEq] at ha hq
      simp only [List.cons_append, zero_add, List.getElem?_cons_succ, List.getElem?_cons_zero, Option.some.injEq] at hb
      subst ha hq hb
      have hc' : rest.headD next = c := by
        cases rest <;> simpa using hc
      rw [hc'] at h1
      exact C92_point hn h1

theorem line_succeeds (p : Vec) {d : Vec} (h : d ≠ 0) : ∃ u, Line.make p d = .ok ⟨p, u⟩ ∧ UnitOf u d := by
  have : ∃ l, Line.make p d = .ok l := by
    unfold Line.make Vec.normalized Vec.div
    rw [if_neg (magnitude_ne_zero h)]
    exact ⟨_, rfl⟩
  obtain ⟨⟨q, u⟩, h⟩ := this
  obtain ⟨rfl, hu⟩ := line_make h
  exact ⟨u, h, hu⟩

theorem project_succeeds {n b v : Vec} (hn : n.dot n = 1) :
    (⟨b, n⟩ : Plane).projectNormal v = .ok (v + n * n.dot (b - v)) := by
  have : ∃ r, (⟨b, n⟩ : Plane).projectNormal v = .ok r := by
    unfold Plane.projectNormal
    dsimp only
    rw [line_self hn]
    unfold Plane.intersectLine pyDiv
    dsimp only [bind, Except.bind]
    rw [hn, if_neg (by unfold isZero; norm_num), if_neg one_ne_zero]
    exact ⟨_, rfl⟩
  obtain ⟨r, h⟩ := this
  rw [h, project_normal hn h]

/-- **C92** There is such a point unless the neighbours of the corner are directly above or below it. -/
theorem C92_succeeds {a b c n : Vec} (size : ℝ) (hn : n.dot n = 1) (h1 : n.cross (b - a) ≠ 0) (h2 : n.cross (c - b) ≠ 0) :
    ∃ q, chamferPoint a b c n size = .ok q := by
  have ne1 : b - (a + n * n.dot (b - a)) ≠ 0 := by
    intro e
    apply h1
    have e : b - a = n * n.dot (b - a) := by
      ext
      · have := congrArg Vec.x e; simp only [Vec.sub_x, Vec.add_x, Vec.zero_x] at *; linarith
      · have := congrArg Vec.y e; simp only [Vec.sub_y, Vec.add_y, Vec.zero_y] at *; linarith
      · have := congrArg Vec.z e; simp only [Vec.sub_z, Vec.add_z, Vec.zero_z] at *; linarith
    rw [e]
    ext <;> simp only [Vec.cross, Vec.mul_x, Vec.mul_y, Vec.mul_z, Vec.zero_x, Vec.zero_y, Vec.zero_z] <;> ring
  have ne2 : c + n * n.dot (b - c) - b ≠ 0 := by
    intro e
    apply h2
    have e : c - b = n * -n.dot (b - c) := by
      ext
      · have := congrArg Vec.x e; simp only [Vec.sub_x, Vec.add_x, Vec.zero_x, Vec.mul_x] at *; linarith
      · have := congrArg Vec.y e; simp only [Vec.sub_y, Vec.add_y, Vec.zero_y, Vec.mul_y] at *; linarith
      · have := congrArg Vec.z e; simp only [Vec.sub_z, Vec.add_z, Vec.zero_z, Vec.mul_z] at *; linarith
    rw [e]
    ext <;> simp only [Vec.cross, Vec.mul_x, Vec.mul_y, Vec.mul_z, Vec.zero_x, Vec.zero_y, Vec.zero_z] <;> ring
  obtain ⟨d1, l1, u1, k1, hk1, e1⟩ := line_succeeds b ne1
  obtain ⟨d2, l2, u2, k2, hk2, e2⟩ := line_succeeds b ne2
  have n1 : d1.dot n = 0 := by
    have : d1.dot n * k1 = 0 := by
      have e := congrArg (fun v : Vec => v.dot n) e1
      simp only [Vec.dot, Vec.add_x, Vec.add_y, Vec.add_z, Vec.sub_x, Vec.sub_y, Vec.sub_z, Vec.mul_x, Vec.mul_y, Vec.mul_z] at *
      linear_combination -(n.x * (b.x - a.x) + n.y * (b.y - a.y) + n.z * (b.z - a.z)) * hn - e
    exact (mul_eq_zero.mp this).resolve_right hk1.ne'
  have n2 : d2.dot n = 0 := by
    have : d2.dot n * k2 = 0 := by
      have e := congrArg (fun v : Vec => v.dot n) e2
      simp only [Vec.dot, Vec.add_x, Vec.add_y, Vec.add_z, Vec.sub_x, Vec.sub_y, Vec.sub_z, Vec.mul_x, Vec.mul_y, Vec.mul_z] at *
      linear_combination (n.x * (b.x - c.x) + n.y * (b.y - c.y) + n.z * (b.z - c.z)) * hn - e
    exact (mul_eq_zero.mp this).resolve_right hk2.ne'
  have f1 : Line.translated ⟨b, d1⟩ (n.cross d1 * size) = .ok ⟨b + n.cross d1 * size, d1⟩ := line_self u1
  have f2 : Line.translated ⟨b, d2⟩ (n.cross d2 * size) = .ok ⟨b + n.cross d2 * size, d2⟩ := line_self u2
  have hi := intersect_eq (l := ⟨b + n.cross d1 * size, d1⟩) (m := ⟨b + n.cross d2 * size, d2⟩) u1 u2
  dsimp only at hi
  unfold chamferPoint
  refine bind_ex (plane_ok hn) (bind_ex (project_succeeds hn) (bind_ex l1 (bind_ex (project_succeeds hn) (bind_ex l2
    (bind_ex (normalized_self (cross_unit hn u1 n1)) (bind_ex f1 (bind_ex (normalized_self (cross_unit hn u2 n2)) (bind_ex f2 ?_))))))))
  rw [hi]
  split_ifs
  · exact ⟨_, rfl⟩
  · exact ⟨_, rfl⟩

theorem cornerChamfer_succeeds {prev next n : Vec} (size : ℝ) (hn : n.dot n = 1) {corner : List Vec}
    (h : (prev :: corner ++ [next]).IsChain fun a b => n.cross (b - a) ≠ 0) :
    ∃ rim, cornerChamfer prev corner next n size = .ok rim := by
  induction corner generalizing prev with
  | nil => exact ⟨_, rfl⟩
  | cons b rest ih =>
    have h' : (b :: rest ++ [next]).IsChain fun a b => n.cross (b - a) ≠ 0 := by
      simp only [List.cons_append, List.isChain_cons_cons] at h ⊢
      exact h.2
    obtain ⟨ps, hps⟩ := ih h'
    have h2 : n.cross (rest.headD next - b) ≠ 0 := by
      cases rest with
      | nil => simpa using h'
      | cons c rest =>
        simp only [List.cons_append, List.isChain_cons_cons] at h'
        exact h'.1
    have h1 : n.cross (b - prev) ≠ 0 := by
      simp only [List.cons_append, List.isChain_cons_cons] at h
      exact h.1
    obtain ⟨q, hq⟩ := C92_succeeds size hn h1 h2
    unfold cornerChamfer
    exact bind_ex hq (bind_ex hps ⟨_, rfl⟩)

/-- A corner of the ground. -/
example : ∃ q, chamferPoint ⟨0, 10, 0⟩ 0 ⟨20, 0, 5⟩ ⟨0, 0, 1⟩ (1 / 2) = .ok q ∧
    Inset ⟨0, 0, 1⟩ (1 / 2) ⟨0, 10, 0⟩ 0 ⟨20, 0, 5⟩ q ∧ Sharp ⟨0, 0, 1⟩ ⟨0, 10, 0⟩ 0 ⟨20, 0, 5⟩ := by
  have hn : (⟨0, 0, 1⟩ : Vec).dot ⟨0, 0, 1⟩ = 1 := by norm_num [Vec.dot]
  obtain ⟨q, hq⟩ := C92_succeeds (a := ⟨0, 10, 0⟩) (b := 0) (c := ⟨20, 0, 5⟩) (1 / 2) hn
    (fun e => by have := congrArg Vec.x e; norm_num [Vec.cross] at this)
    (fun e => by have := congrArg Vec.y e; norm_num [Vec.cross] at this)
  refine ⟨q, hq, C92_point hn hq, ?_⟩
  norm_num [Sharp, Vec.cross, Vec.dot]

end Chrumm.Part
