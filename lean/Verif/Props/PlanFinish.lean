import Verif.Props.PlanSucceeds

/-! What is needed to finish a plan. -/

namespace Chrumm.Part
open Geo Geo.Spec Spec

/-! ### Finishing a plan -/

/-- The directions of the planes of an untilted keyboard with level thumb and pinky keys, where only the front wall is slanted, by an
angle `φ`. -/
structure Straight (a φ : ℝ) (t : TentPlanes) (s : SidePlanes) (w : WallPlanes) : Prop where
  tu : t.Unit
  su : s.Unit
  wu : w.Unit
  alnumIT : t.alnumIT.normal = ⟨Real.sin a, 0, Real.cos a⟩
  alnumOT : t.alnumOT.normal = ⟨Real.sin a, 0, Real.cos a⟩
  pivotIB : t.pivotIB.normal = ⟨Real.cos (a / 2), 0, -Real.sin (a / 2)⟩
  pivotOB : t.pivotOB.normal = ⟨Real.cos (a / 2), 0, -Real.sin (a / 2)⟩
  thumbIT : t.thumbIT.normal = ⟨0, 0, 1⟩
  thumbOT : t.thumbOT.normal = ⟨0, 0, 1⟩
  pivotIF : t.pivotIF.normal = ⟨1, 0, 0⟩
  pivotOF : t.pivotOF.normal = ⟨1, 0, 0⟩
  pinkyIT : t.pinkyIT.normal = ⟨0, 0, 1⟩
  pinkyOT : t.pinkyOT.normal = ⟨0, 0, 1⟩
  alnumIL : s.alnumIL.normal = ⟨1, 0, 0⟩
  alnumOL : s.alnumOL.normal = ⟨1, 0, 0⟩
  alnumIF : s.alnumIF.normal = ⟨0, 1, 0⟩
  alnumOF : s.alnumOF.normal = ⟨0, 1, 0⟩
  pinkyIR : s.pinkyIR.normal = ⟨-1, 0, 0⟩
  pinkyOR : s.pinkyOR.normal = ⟨-1, 0, 0⟩
  alnumIB : w.alnumIB.normal = ⟨0, -1, 0⟩
  alnumOB : w.alnumOB.normal = ⟨0, -1, 0⟩
  pinkyIF : w.pinkyIF.normal = ⟨-Real.sin φ, Real.cos φ, 0⟩
  pinkyOF : w.pinkyOF.normal = ⟨-Real.sin φ, Real.cos φ, 0⟩

theorem Straight.shift {a φ : ℝ} {t t' : TentPlanes} {s s' : SidePlanes} {w w' : WallPlanes} (h : Straight a φ t s w) {d : Vec}
    (ht : TentPlanes.Rel (CarriedBy (shift d)) t t') (hs : SidePlanes.Rel (CarriedBy (Part.shift d)) s s')
    (hw : WallPlanes.Rel (CarriedBy (Part.shift d)) w w') : Straight a φ t' s' w' := by
  have tu := ht.unit h.tu
  have su := hs.unit h.su
  have wu := hw.unit h.wu
  obtain ⟨t1, t2, t3, t4, t5, t6, t7, t8, t9, t10⟩ := ht
  obtain ⟨s1, s2, s3, s4, s5, s6⟩ := hs
  obtain ⟨w1, w2, w3, w4⟩ := hw
  obtain ⟨u1, u2, u3, u4, u5, u6, u7, u8, u9, u10⟩ := h.tu
  obtain ⟨v1, v2, v3, v4, v5, v6⟩ := h.su
  obtain ⟨x1, x2, x3, x4⟩ := h.wu
  exact ⟨tu, su, wu, (shift_normal u1 t1).trans h.alnumIT, (shift_normal u2 t2).trans h.alnumOT,
    (shift_normal u3 t3).trans h.pivotIB, (shift_normal u4 t4).trans h.pivotOB,
    (shift_normal u5 t5).trans h.thumbIT, (shift_normal u6 t6).trans h.thumbOT,
    (shift_normal u7 t7).trans h.pivotIF, (shift_normal u8 t8).trans h.pivotOF,
    (shift_normal u9 t9).trans h.pinkyIT, (shift_normal u10 t10).trans h.pinkyOT,
    (shift_normal v1 s1).trans h.alnumIL, (shift_normal v2 s2).trans h.alnumOL,
    (shift_normal v3 s3).trans h.alnumIF, (shift_normal v4 s4).trans h.alnumOF,
    (shift_normal v5 s5).trans h.pinkyIR, (shift_normal v6 s6).trans h.pinkyOR,
    (shift_normal x1 w1).trans h.alnumIB, (shift_normal x2 w2).trans h.alnumOB,
    (shift_normal x3 w3).trans h.pinkyIF, (shift_normal x4 w4).trans h.pinkyOF⟩

/-- The tent is neither flat nor upright. -/
def Steep (a : ℝ) : Prop := 1e-6 ≤ |Real.sin a| ∧ 1e-6 ≤ |Real.cos a| ∧ 1e-6 ≤ |Real.cos (a / 2)|

/-- The front wall is not too slanted. -/
structure Slant (φ : ℝ) : Prop where
  cos : 1 / 2 ≤ Real.cos φ
  half : 1 / 2 ≤ Real.cos (φ / 2)

theorem referencePoints_succeeds {a φ : ℝ} {t : TentPlanes} {s : SidePlanes} {w : WallPlanes} (h : Straight a φ t s w) (ha : Steep a)
    (hφ : Slant φ) {th : Plane} (hth : th.normal = ⟨Real.cos (φ / 2), Real.sin (φ / 2), 0⟩) (r : Vec × Vec) : ∃ p, referencePoints r t s w th = .ok p := by
  obtain ⟨h1, h2, h3⟩ := ha
  have one : (1e-6 : ℝ) ≤ |1| := by norm_num
  have e0 : Real.sin a = 2 * Real.sin (a / 2) * Real.cos (a / 2) := by rw [← Real.sin_two_mul]; congr 1; ring
  have e1 : Real.cos a = 2 * Real.cos (a / 2) ^ 2 - 1 := by rw [← Real.cos_two_mul]; congr 1; ring
  have e2 := Real.sin_sq_add_cos_sq (a / 2)
  have d0 : Real.sin φ = 2 * Real.sin (φ / 2) * Real.cos (φ / 2) := by rw [← Real.sin_two_mul]; congr 1; ring
  have d1 : Real.cos φ = 2 * Real.cos (φ / 2) ^ 2 - 1 := by rw [← Real.cos_two_mul]; congr 1; ring
  have d2 := Real.sin_sq_add_cos_sq (φ / 2)
  have k1 : (1e-6 : ℝ) ≤ |Real.cos φ| := le_trans (by norm_num) (hφ.cos.trans (le_abs_self _))
  have k2 : (1e-6 : ℝ) ≤ |Real.cos (φ / 2)| := le_trans (by norm_num) (hφ.half.trans (le_abs_self _))
  have key : ∀ p q r : Plane, ∀ x : ℝ, q.normal.dot (r.normal.cross p.normal) = x → 1e-6 ≤ |x| → ∃ v, p.intersectPlanes q r = .ok v :=
    fun p q r x hx hh => meets hx hh
  obtain ⟨p1, g1⟩ := key s.alnumIL s.alnumIF t.alnumIT (Real.cos a) (by rw [h.alnumIL, h.alnumIF, h.alnumIT]; simp [Vec.dot, Vec.cross]) h2
  obtain ⟨p2, g2⟩ := key s.alnumIL w.alnumIB t.alnumIT (-Real.cos a) (by rw [h.alnumIL, h.alnumIB, h.alnumIT]; simp [Vec.dot, Vec.cross]) (by rwa [abs_neg])
  obtain ⟨p3, g3⟩ := key t.thumbIT s.alnumIF t.alnumIT (-Real.sin a) (by rw [h.thumbIT, h.alnumIF, h.alnumIT]; simp [Vec.dot, Vec.cross]) (by rwa [abs_neg])
  obtain ⟨p4, g4⟩ := key t.pivotIB w.alnumIB t.alnumIT (-Real.cos (a / 2)) (by
    rw [h.pivotIB, h.alnumIB, h.alnumIT, e0, e1]; simp [Vec.dot, Vec.cross]
    linear_combination (-2 * Real.cos (a / 2)) * e2) (by rwa [abs_neg])
  obtain ⟨p5, g5⟩ := key s.pinkyIR w.pinkyIF t.pinkyIT (-Real.cos φ) (by rw [h.pinkyIR, h.pinkyIF, h.pinkyIT]; simp [Vec.dot, Vec.cross]) (by rwa [abs_neg])
  obtain ⟨p6, g6⟩ := key s.pinkyIR w.alnumIB t.pinkyIT 1 (by rw [h.pinkyIR, h.alnumIB, h.pinkyIT]; simp [Vec.dot, Vec.cross]) one
  obtain ⟨p7, g7⟩ := key th w.pinkyIF t.thumbIT (Real.cos (φ / 2)) (by
    rw [hth, h.pinkyIF, h.thumbIT, d0, d1]; simp [Vec.dot, Vec.cross]
    linear_combination (2 * Real.cos (φ / 2)) * d2) k2
  obtain ⟨p8, g8⟩ := key s.alnumIL s.alnumIF t.thumbIT 1 (by rw [h.alnumIL, h.alnumIF, h.thumbIT]; simp [Vec.dot, Vec.cross]) one
  obtain ⟨p9, g9⟩ := key t.pivotIF w.pinkyIF t.thumbIT (Real.cos φ) (by rw [h.pivotIF, h.pinkyIF, h.thumbIT]; simp [Vec.dot, Vec.cross]) k1
  obtain ⟨q1, f1⟩ := key s.alnumOL s.alnumOF t.alnumOT (Real.cos a) (by rw [h.alnumOL, h.alnumOF, h.alnumOT]; simp [Vec.dot, Vec.cross]) h2
  obtain ⟨q2, f2⟩ := key s.alnumOL w.alnumOB t.alnumOT (-Real.cos a) (by rw [h.alnumOL, h.alnumOB, h.alnumOT]; simp [Vec.dot, Vec.cross]) (by rwa [abs_neg])
  obtain ⟨q3, f3⟩ := key t.thumbOT s.alnumOF t.alnumOT (-Real.sin a) (by rw [h.thumbOT, h.alnumOF, h.alnumOT]; simp [Vec.dot, Vec.cross]) (by rwa [abs_neg])
  obtain ⟨q4, f4⟩ := key t.pivotOB w.alnumOB t.alnumOT (-Real.cos (a / 2)) (by
    rw [h.pivotOB, h.alnumOB, h.alnumOT, e0, e1]; simp [Vec.dot, Vec.cross]
    linear_combination (-2 * Real.cos (a / 2)) * e2) (by rwa [abs_neg])
  obtain ⟨q5, f5⟩ := key s.pinkyOR w.pinkyOF t.pinkyOT (-Real.cos φ) (by rw [h.pinkyOR, h.pinkyOF, h.pinkyOT]; simp [Vec.dot, Vec.cross]) (by rwa [abs_neg])
  obtain ⟨q6, f6⟩ := key s.pinkyOR w.alnumOB t.pinkyOT 1 (by rw [h.pinkyOR, h.alnumOB, h.pinkyOT]; simp [Vec.dot, Vec.cross]) one
  obtain ⟨q7, f7⟩ := key th w.pinkyOF t.thumbOT (Real.cos (φ / 2)) (by
    rw [hth, h.pinkyOF, h.thumbOT, d0, d1]; simp [Vec.dot, Vec.cross]
    linear_combination (2 * Real.cos (φ / 2)) * d2) k2
  obtain ⟨q8, f8⟩ := key s.alnumOL s.alnumOF t.thumbOT 1 (by rw [h.alnumOL, h.alnumOF, h.thumbOT]; simp [Vec.dot, Vec.cross]) one
  obtain ⟨q9, f9⟩ := key t.pivotOF w.pinkyOF t.thumbOT (Real.cos φ) (by rw [h.pivotOF, h.pinkyOF, h.thumbOT]; simp [Vec.dot, Vec.cross]) k1
  unfold referencePoints
  rw [g1, g2, g3, g4, g5, g6, g7, g8, g9, f1, f2, f3, f4, f5, f6, f7, f8, f9]
  exact ⟨_, rfl⟩

theorem thumbCorner_succeeds {l : Layout} {lineF : Line} (hF : Planar lineF) {φ : ℝ} (hφ : Slant φ) (hd : lineF.dir = ⟨Real.cos φ, Real.sin φ, 0⟩)
    (hL : l.thumb (some .left) ≠ []) (hR : l.thumb (some .right) ≠ []) (hu : ∀ s, ∀ k ∈ l.thumb s, Upright k ∧ Full k) :
    ∃ x0 th, thumbCorner l lineF = .ok (⟨⟨x0, 0, 0⟩, ⟨0, 1, 0⟩⟩, th) ∧ th.normal = ⟨Real.cos (φ / 2), Real.sin (φ / 2), 0⟩ ∧
      (∃ k ∈ l.thumb, ∃ p ∈ k.bounds, x0 = p.x) ∧ (∀ k ∈ l.thumb, ∀ p ∈ k.bounds, x0 ≤ p.x) ∧ th.pos.x = x0 ∧
      left lineF.pos (lineF.pos + lineF.dir) th.pos = 0 := by
  obtain ⟨kL, rL, eL⟩ := List.exists_cons_of_ne_nil hL
  obtain ⟨kR, rR, eR⟩ := List.exists_cons_of_ne_nil hR
  have uL := (hu _ kL (by rw [eL]; simp)).1
  have uR := (hu _ kR (by rw [eR]; simp)).1
  unfold thumbCorner
  rw [eL, eR]
  rw [show pyIndex (kL :: rL) 0 = .ok kL from pyIndex_zero.mpr rfl, show pyIndex (kR :: rR) 0 = .ok kR from pyIndex_zero.mpr rfl]
  dsimp only [bind, Except.bind]
  rw [uL.normal]
  dsimp only
  rw [uR.normal]
  dsimp only
  have e1 : Line.make 0 ((⟨0, 1, 0⟩ : Vec).xy + (⟨0, 1, 0⟩ : Vec).xy) = .ok ⟨0, ⟨0, 1, 0⟩⟩ := by
    unfold Line.make
    rw [UnitOf.normalized (u := ⟨0, 1, 0⟩) ⟨by simp [Vec.dot], 2, by norm_num, by ext <;> simp [Vec.xy]; norm_num⟩]
    rfl
  rw [e1]
  dsimp only
  have e2 : ∀ ps : List Vec, ps.mapM (Line.distance2D ⟨0, ⟨0, 1, 0⟩⟩) = .ok (ps.map Vec.x) := fun ps => by
    rw [mapM_ok_map _ Vec.x]
    intro v _
    rw [distance2D_unit (by simp)]
    simp [left]
  rw [e2]
  dsimp only
  have hT : l.thumb ≠ [] := by
    rw [thumbs_eq]
    rw [thumbs_eq] at hL
    unfold thumbs at hL ⊢
    simp [selected] at hL ⊢
    intro _; exact hL
  obtain ⟨x, hx⟩ := pyMin_succeeds (bounds_ne hT (fun k hk => (hu _ k hk).2) Vec.x).1
  rw [hx]
  dsimp only
  have e3 : Line.translated ⟨0, ⟨0, 1, 0⟩⟩ ((⟨0, 1, 0⟩ : Vec).ortho2D * (-x)) = .ok ⟨⟨x, 0, 0⟩, ⟨0, 1, 0⟩⟩ := by
    rw [translated_unit (by simp [Vec.dot])]
    congr 2
    ext <;> simp [Vec.ortho2D]
  rw [e3]
  dsimp only
  obtain ⟨q, hq⟩ := planar_meets hF (m := ⟨⟨x, 0, 0⟩, ⟨0, 1, 0⟩⟩) ⟨rfl, rfl, by simp⟩ (by
    rw [hd]
    simp only [mul_one, mul_zero, sub_zero]
    nlinarith [hφ.cos])
  rw [hq]
  dsimp only
  have d0 : Real.sin φ = 2 * Real.sin (φ / 2) * Real.cos (φ / 2) := by rw [← Real.sin_two_mul]; congr 1; ring
  have d1 : Real.cos φ = 2 * Real.cos (φ / 2) ^ 2 - 1 := by rw [← Real.cos_two_mul]; congr 1; ring
  have d2 := Real.sin_sq_add_cos_sq (φ / 2)
  have e4 : Plane.make q (lineF.dir + ⟨1, 0, 0⟩) = .ok ⟨q, ⟨Real.cos (φ / 2), Real.sin (φ / 2), 0⟩⟩ := by
    unfold Plane.make
    rw [UnitOf.normalized (u := ⟨Real.cos (φ / 2), Real.sin (φ / 2), 0⟩) ⟨by simp only [Vec.dot]; linarith, 2 * Real.cos (φ / 2), by linarith [hφ.half], by
      rw [hd, d0, d1]; ext <;> simp <;> ring⟩]
    rfl
  rw [e4]
  obtain ⟨on1, on2⟩ := planar_intersect hF (m := ⟨⟨x, 0, 0⟩, ⟨0, 1, 0⟩⟩) ⟨rfl, rfl, by simp⟩ hq
  have on2 := (planar_online (l := ⟨⟨x, 0, 0⟩, ⟨0, 1, 0⟩⟩) ⟨rfl, rfl, by simp⟩ on2).2
  have on1 := (planar_online hF on1).2
  simp only [left, Vec.add_x, Vec.add_y] at on2
  refine ⟨x, _, rfl, rfl, ?_, fun k hk p hp => (pyMin_ok hx).2 _ (List.mem_map.mpr ⟨p, List.mem_flatMap.mpr ⟨k, hk, hp⟩, rfl⟩), by
    show q.x = x
    linarith, on1⟩
  obtain ⟨p, hp, e⟩ := List.mem_map.mp (pyMin_ok hx).1
  obtain ⟨k, hk, hp⟩ := List.mem_flatMap.mp hp
  exact ⟨k, hk, p, hp, e.symm⟩

theorem sweep_none {ps : List Vec} {line : Line} (h : ∀ p ∈ ps, ∃ d, line.distance2D p = .ok d ∧ d ≤ 0) :
    sweep ps line = .ok line := by
  induction ps with
  | nil => rfl
  | cons p ps ih =>
    obtain ⟨d, hd, h0⟩ := h p (by simp)
    unfold sweep
    rw [hd]
    dsimp only [bind, Except.bind]
    rw [if_neg (not_lt.mpr h0)]
    exact ih fun q hq => h q (by simp [hq])

theorem make_planar {p v : Vec} (hp : p.z = 0) (hv : v.z = 0) (h : v.x ≠ 0) : ∃ l, Line.make p v = .ok l ∧ l.pos = p ∧ Planar l ∧
    ∃ c : ℝ, 0 < c ∧ v.x = l.dir.x * c ∧ v.y = l.dir.y * c := by
  have hpos : 0 < v.x * v.x + v.y * v.y + v.z * v.z := by
    rw [hv]
    have := mul_self_pos.mpr h
    nlinarith [mul_self_nonneg v.y]
  have hm : v.magnitude ≠ 0 := by
    unfold Vec.magnitude
    exact (Real.sqrt_pos.mpr hpos).ne'
  have hl : ∃ l, Line.make p v = .ok l := by
    unfold Line.make Vec.normalized Vec.div
    rw [if_neg hm]
    exact ⟨_, rfl⟩
  obtain ⟨l, hl⟩ := hl
  obtain ⟨e, hu, c, hc, hv'⟩ := line_make hl
  refine ⟨l, hl, e, ⟨by rw [e]; exact hp, ?_, ?_⟩, c, hc, by rw [hv']; simp, by rw [hv']; simp⟩
  · have := congrArg Vec.z hv'
    simp only [Vec.mul_z] at this
    rw [hv] at this
    rcases mul_eq_zero.mp this.symm with h | h
    · exact h
    · exact absurd h hc.ne'
  · have := congrArg Vec.z hv'
    simp only [Vec.mul_z] at this
    rw [hv] at this
    have hz : l.dir.z = 0 := by
      rcases mul_eq_zero.mp this.symm with h | h
      · exact h
      · exact absurd h hc.ne'
    simp only [Vec.dot, hz] at hu
    nlinarith

open Classical in
/-- The ridge of a straight keyboard whose thumb keys are to the right of the alnum keys. -/
theorem ridge_succeeds {a φ : ℝ} {body : BodyCfg} {l : Layout} {t : TentPlanes} {s : SidePlanes} {w : WallPlanes}
    (h : Straight a φ t s w) (hφ : Slant φ) {th : Plane} (hth : th.normal = ⟨Real.cos (φ / 2), Real.sin (φ / 2), 0⟩)
    (ht : body.relRidgeTaper = 1 / 2) {x0 : ℝ}
    (hs : ∀ v, s.alnumIL.distance v = s.alnumOL.distance v)
    {xL yO yF : ℝ} (eL : ∀ v, s.alnumOL.distance v = v.x - xL) (eO : ∀ v, s.alnumOF.distance v = v.y - yO)
    (eT : ∀ v, th.distance v = Real.cos (φ / 2) * (v.x - x0) + Real.sin (φ / 2) * (v.y - yF))
    (eF : ∀ v, w.pinkyIF.distance v = -Real.sin φ * (v.x - x0) + Real.cos φ * (v.y - yF)) (hxL : 1 ≤ xL) (hx0 : xL ≤ x0)
    (hy : yF ≤ yO) (hxy : yO - yF ≤ xL)
    (hk : ∀ k ∈ l.thumb, ∀ p ∈ k.bounds, xL ≤ p.x ∧ p.y ≤ yO) :
    ∃ r, ridge body l t s w th ⟨⟨x0, 0, 0⟩, ⟨0, 1, 0⟩⟩ = .ok r ∧ r.2.x = xL / 2 ∧ r.2.y = (yO + yF) / 2 := by
  have one : (1e-6 : ℝ) ≤ |1| := by norm_num
  have d0 : Real.sin φ = 2 * Real.sin (φ / 2) * Real.cos (φ / 2) := by rw [← Real.sin_two_mul]; congr 1; ring
  have d1' : Real.cos φ = 2 * Real.cos (φ / 2) ^ 2 - 1 := by rw [← Real.cos_two_mul]; congr 1; ring
  have d2' := Real.sin_sq_add_cos_sq (φ / 2)
  obtain ⟨-, -, -, -, ut1, ut2, -⟩ := h.tu
  obtain ⟨us1, us2, us3, us4, -⟩ := h.su
  obtain ⟨-, -, uw3, -⟩ := h.wu
  obtain ⟨p1, g1⟩ := meets (a := s.alnumOL) (b := s.alnumOF) (c := t.thumbOT) (x := 1)
    (by rw [h.alnumOL, h.alnumOF, h.thumbOT]; simp [Vec.dot, Vec.cross]) one
  obtain ⟨p2, g2⟩ := meets (a := th) (b := w.pinkyIF) (c := t.thumbIT) (x := Real.cos (φ / 2))
    (by
      rw [hth, h.pinkyIF, h.thumbIT, d0, d1']; simp [Vec.dot, Vec.cross]
      linear_combination (2 * Real.cos (φ / 2)) * d2') (le_trans (by norm_num) (hφ.half.trans (le_abs_self _)))
  obtain ⟨p3, g3⟩ := meets (a := s.alnumIL) (b := s.alnumIF) (c := t.thumbIT) (x := 1)
    (by rw [h.alnumIL, h.alnumIF, h.thumbIT]; simp [Vec.dot, Vec.cross]) one
  obtain ⟨d1, d2, -⟩ := (intersect_on us2 us4 ut2 g1 _).mpr rfl
  obtain ⟨d3', d3, -⟩ := (intersect_on (by unfold UnitPlane; rw [hth]; simp only [Vec.dot]; linarith) uw3 ut1 g2 _).mpr rfl
  obtain ⟨d4, -, -⟩ := (intersect_on us1 us3 ut1 g3 _).mpr rfl
  rw [eL] at d1
  rw [eO] at d2
  rw [eF] at d3
  rw [eT] at d3'
  rw [hs, eL] at d4
  have x1 : p1.x = xL := by linarith
  have y1 : p1.y = yO := by linarith
  have y2 : p2.y = yF := by
    rw [d0, d1'] at d3
    linear_combination (2 * Real.sin (φ / 2)) * d3' + d3 - 2 * (p2.y - yF) * d2'
  have x3 : p3.x = xL := by linarith
  unfold ridge
  rw [g1, g2, g3]
  dsimp only [bind, Except.bind]
  rw [ht]
  have em : (⟨p1.xy.x, p2.xy.y, 0⟩ : Vec) + ((⟨0, p1.xy.y, 0⟩ : Vec) - ⟨p1.xy.x, p2.xy.y, 0⟩) * (1 / 2 : ℝ) =
      ⟨xL / 2, (yO + yF) / 2, 0⟩ := by
    ext <;> simp [Vec.xy, x1, y1, y2] <;> ring
  rw [em]
  have ev : (⟨xL / 2, (yO + yF) / 2, 0⟩ : Vec) - p1.xy = ⟨-xL / 2, (yF - yO) / 2, 0⟩ := by
    ext <;> simp [Vec.xy, x1, y1] <;> ring
  rw [ev]
  obtain ⟨m, hm, mp, pm, c, hc, ex, ey⟩ := make_planar (p := p1.xy) (v := ⟨-xL / 2, (yF - yO) / 2, 0⟩) rfl rfl
    (by show -xL / 2 ≠ 0; linarith)
  dsimp only at ex ey
  rw [hm]
  dsimp only
  have dx : m.dir.x < 0 := by
    by_contra hn
    have := mul_nonneg (not_lt.mp hn) hc.le
    linarith
  have dy : m.dir.y ≤ 0 := by
    by_contra hn
    have := mul_pos (not_le.mp hn) hc
    linarith
  rw [sweep_none (line := m) (by
    intro p hp
    obtain ⟨k, hkm, hp⟩ := List.mem_flatMap.mp hp
    obtain ⟨hp1, hp2⟩ := hk k hkm p hp
    refine ⟨_, distance2D_unit pm.2.2 p, ?_⟩
    rw [mp]
    simp only [left, Vec.add_x, Vec.add_y, Vec.xy, x1, y1]
    nlinarith [mul_nonneg (neg_nonneg.mpr dx.le) (sub_nonneg.mpr hp2), mul_nonneg (neg_nonneg.mpr dy) (sub_nonneg.mpr hp1)])]
  dsimp only
  have hx2 : (1 : ℝ) / 2 ≤ m.dir.x ^ 2 := by
    have h1 := pm.2.2
    have h2 : m.dir.y ^ 2 ≤ m.dir.x ^ 2 := by
      rw [sq_le_sq, abs_of_nonpos dy, abs_of_neg dx]
      by_contra hn
      have := mul_lt_mul_of_pos_right (not_le.mp hn) hc
      linarith
    linarith
  have pT : Planar ⟨⟨x0, 0, 0⟩, ⟨0, 1, 0⟩⟩ := ⟨rfl, rfl, by simp⟩
  obtain ⟨q, hq⟩ := planar_meets pm (m := ⟨⟨x0, 0, 0⟩, ⟨0, 1, 0⟩⟩) pT (by
    simp only [mul_one, mul_zero, sub_zero]
    norm_num at hx2 ⊢
    linarith)
  rw [hq]
  dsimp only
  have qx : q.x = x0 := by
    obtain ⟨-, hon⟩ := planar_intersect pm pT hq
    have := (planar_online pT hon).2
    simp only [left, Vec.add_x, Vec.add_y] at this
    linarith
  rw [if_pos (show (⟨xL / 2, (yO + yF) / 2, 0⟩ : Vec).lt q by
    unfold Vec.lt
    dsimp only
    rw [qx, if_pos (by intro e; linarith)]
    linarith)]
  have hz : ¬ isZero t.thumbOT.normal.z := by
    rw [h.thumbOT]
    unfold isZero
    norm_num
  have : ∃ r, t.thumbOT.projectZ ⟨xL / 2, (yO + yF) / 2, 0⟩ = .ok r := by
    unfold Plane.projectZ pyDiv
    rw [if_neg hz, if_neg (ne_of_not_isZero hz)]
    exact ⟨_, rfl⟩
  obtain ⟨r, hr⟩ := this
  obtain ⟨-, rx, ry⟩ := projectZ_on hr
  dsimp only at rx ry
  rw [hr]
  dsimp only
  rw [if_neg]
  · exact ⟨_, rfl, rx, ry⟩
  · rw [not_or, not_lt, not_lt]
    simp only [Vec.add_x, Vec.sub_x, x3, x1, sub_self, add_zero, rx]
    constructor <;> linarith

theorem finalZ_succeeds (cfg : PlanCfg) (p : Plan) (h2 : TwoGroups p.layout) (ht : p.tent.Unit) (hs : p.sides.Unit)
    (hw : p.walls.Unit) (hth : UnitPlane p.thumbL) (hk : keys p.layout (some p.side) ≠ []) (hf : ∀ s, ∀ k ∈ keys p.layout s, Full k)
    (hl : keys p.layout none ≠ []) (ha : ∀ s, ∀ k ∈ keys p.layout s, Mat.Affine k.matrix) :
    ∃ H0, ∀ H ≥ H0, ∃ q, finalZ { cfg with body := { cfg.body with minRoofHeight := H } } p = .ok q := by
  obtain ⟨z, hz⟩ := pyMin_succeeds (l := (keys p.layout none).map fun k => k.position.z) (by simpa using hl)
  obtain ⟨zb, hzb⟩ := pyMin_succeeds (l := p.points.toList.map Vec.z) (by simp [Points.toList])
  obtain ⟨zp, hzp⟩ := pyMin_succeeds (bounds_ne hk (hf _) Vec.z).2.2
  refine ⟨max (z - zb + cfg.floor.lipHeight + cfg.body.innerChamfer)
    (z - zp - cfg.floor.outerHeight + cfg.floor.innerHeight + cfg.switch.floorMargin), fun H hH => ?_⟩
  have hH1 := (le_max_left _ _).trans hH
  have hH2 := (le_max_right _ _).trans hH
  unfold finalZ
  rw [allKeys_ok h2]
  dsimp only [bind, Except.bind]
  unfold keys at hz
  rw [hz]
  dsimp only
  obtain ⟨t1, e1⟩ := TentPlanes.mapM_succeeds ht fun q hq => translated_succeeds ⟨0, 0, H - z⟩ q hq
  obtain ⟨s1, e2⟩ := SidePlanes.mapM_succeeds hs fun q hq => translated_succeeds ⟨0, 0, H - z⟩ q hq
  obtain ⟨w1, e3⟩ := WallPlanes.mapM_succeeds hw fun q hq => translated_succeeds ⟨0, 0, H - z⟩ q hq
  obtain ⟨th1, e4⟩ := translated_succeeds ⟨0, 0, H - z⟩ p.thumbL hth
  rw [e1]
  dsimp only
  rw [e2]
  dsimp only
  rw [e3]
  dsimp only
  rw [e4]
  dsimp only
  obtain ⟨b, hb⟩ := pyMin_succeeds (l := ((p.points.map (· + (⟨0, 0, H - z⟩ : Vec))).toList).map Vec.z) (by simp [Points.toList])
  have hb0 : zb + (H - z) ≤ b := by
    obtain ⟨v, hv, e⟩ := List.mem_map.mp (pyMin_ok hb).1
    have : v ∈ p.points.toList.map (· + (⟨0, 0, H - z⟩ : Vec)) := hv
    obtain ⟨v', hv', rfl⟩ := List.mem_map.mp this
    have := (pyMin_ok hzb).2 v'.z (List.mem_map.mpr ⟨v', hv', rfl⟩)
    simp at e
    linarith
  rw [hb]
  dsimp only
  rw [translate_fun, mapAll_eq, allKeys_ok (h2.moved _ _ _)]
  dsimp only
  rw [show fingers (p.layout.moved (shift ⟨0, 0, H - z⟩) (shift ⟨0, 0, H - z⟩) (shift ⟨0, 0, H - z⟩)) 0 (some p.side) ++
    fingers (p.layout.moved (shift ⟨0, 0, H - z⟩) (shift ⟨0, 0, H - z⟩) (shift ⟨0, 0, H - z⟩)) 1 (some p.side) ++
    thumbs (p.layout.moved (shift ⟨0, 0, H - z⟩) (shift ⟨0, 0, H - z⟩) (shift ⟨0, 0, H - z⟩)) (some p.side) =
    (keys p.layout (some p.side)).map (·.transform (shift ⟨0, 0, H - z⟩)) from keys_moved _ _ _]
  obtain ⟨c, hc⟩ := pyMin_succeeds (l := (((keys p.layout (some p.side)).map (·.transform (shift ⟨0, 0, H - z⟩))).flatMap Key.boundsI).map Vec.z)
    (bounds_ne (by simpa using hk) (by
      intro k hk
      obtain ⟨k', hk', rfl⟩ := List.mem_map.mp hk
      exact (hf _ k' hk').transform _) Vec.z).2.2
  have hc0 : zp + (H - z) ≤ c := by
    obtain ⟨v, hv, e⟩ := List.mem_map.mp (pyMin_ok hc).1
    obtain ⟨k, hkm, hv⟩ := List.mem_flatMap.mp hv
    obtain ⟨k', hk', rfl⟩ := List.mem_map.mp hkm
    rw [Key.boundsI_transform (ha _ k' hk')] at hv
    obtain ⟨v', hv', rfl⟩ := List.mem_map.mp hv
    rw [shift_apply] at e
    have := (pyMin_ok hzp).2 v'.z (List.mem_map.mpr ⟨v', List.mem_flatMap.mpr ⟨k', hk', hv'⟩, rfl⟩)
    simp at e
    linarith
  rw [hc]
  dsimp only
  rw [if_neg (by linarith), if_neg (by linarith)]
  exact ⟨_, rfl⟩

theorem finalDeltaX_succeeds {a φ : ℝ} {body : BodyCfg} {l : Layout} {t : TentPlanes} {s : SidePlanes} {w : WallPlanes}
    (h : Straight a φ t s w) (ha : Steep a) (h2 : TwoGroups l) (hl : keys l none ≠ []) (hf : ∀ k ∈ keys l none, Full k) :
    ∃ d, finalDeltaX body l t s w = .ok d := by
  obtain ⟨-, hc, -⟩ := ha
  obtain ⟨p1, g1⟩ := meets (a := s.alnumIL) (b := w.alnumIB) (c := t.alnumIT) (x := -Real.cos a)
    (by rw [h.alnumIL, h.alnumIB, h.alnumIT]; simp [Vec.dot, Vec.cross]) (by rwa [abs_neg])
  obtain ⟨p2, g2⟩ := meets (a := s.alnumOL) (b := w.alnumOB) (c := t.alnumOT) (x := -Real.cos a)
    (by rw [h.alnumOL, h.alnumOB, h.alnumOT]; simp [Vec.dot, Vec.cross]) (by rwa [abs_neg])
  obtain ⟨z, hz⟩ := pyMin_succeeds (bounds_ne hl hf Vec.x).1
  unfold finalDeltaX
  rw [g1, g2, allKeys_ok h2]
  dsimp only [bind, Except.bind]
  unfold keys at hz
  rw [hz]
  exact ⟨_, rfl⟩


end Chrumm.Part
