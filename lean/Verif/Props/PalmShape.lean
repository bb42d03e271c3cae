import Verif.Props.PalmFit
import Verif.Props.HexGrid
import Verif.Props.PlanSucceeds

/-! C88: the dimensions of the palm rest. -/

namespace Chrumm.Part
open Geo Geo.Spec Spec Classical

/-- The points of an arc are at angles of the span. -/
theorem arc_mem {q : Quality} {radius start span : ℝ} {center : Vec} {pts : List Vec} (hr : 1 / 1000000 ≤ radius) (hq : 0 < q.maxChordAngle)
    (hs : |span| < tau - 1 / 1000000) (h : arc2D q radius start span center = .ok pts) :
    ∀ p ∈ pts, ∃ t : ℝ, 0 ≤ t ∧ t ≤ 1 ∧ p = circlePoint center radius (start + t * span) := by
  obtain ⟨d⟩ := arc2D_data hr hq h
  have hS : clampSpan span = span := clampSpan_eq (by linarith)
  have hnR : (0 : ℝ) < d.n := by exact_mod_cast d.n_pos
  intro p hp
  rw [d.pts_eq] at hp
  obtain ⟨i, hi, rfl⟩ := List.mem_map.mp hp
  rw [List.mem_range] at hi
  have hi' : i ≤ d.n := by split_ifs at hi <;> omega
  have hiR : (i : ℝ) ≤ d.n := by exact_mod_cast hi'
  refine ⟨i / d.n, by positivity, (div_le_one hnR).mpr hiR, ?_⟩
  rw [hS]
  congr 1
  ring

/-- An arc that turns less than half around, from right to left: its ends, and the range of its points. -/
theorem arc_leftwards {q : Quality} {r s w : ℝ} {pts : List Vec} (hr : r = 0 ∨ 1 / 1000000 ≤ r) (hq : 0 < q.maxChordAngle) (hs : 0 ≤ s)
    (hw : 0 ≤ w) (hsw : s + w ≤ Real.pi) (h : arc2D q r s w 0 = .ok pts) :
    pts ≠ [] ∧ pts.headD 0 = circlePoint 0 r s ∧ pts.getLastD 0 = circlePoint 0 r (s + w) ∧
      ∀ p ∈ pts, r * Real.cos (s + w) ≤ p.x ∧ p.x ≤ r * Real.cos s := by
  rcases hr with rfl | hr
  · unfold arc2D at h
    rw [if_pos (by norm_num)] at h
    obtain rfl := Except.ok.inj h
    refine ⟨by simp, ?_, ?_, ?_⟩
    · simp [circlePoint]
      rfl
    · simp [circlePoint]
      rfl
    · simp
  · have hpi := Real.pi_gt_three
    have hsp : |w| < tau - 1 / 1000000 := by
      unfold tau
      rw [abs_of_nonneg hw]
      linarith
    obtain ⟨h1, h2⟩ := C53_ends hr hq h
    obtain ⟨h2, h3⟩ := h2 hsp
    have ne : pts ≠ [] := by
      rintro rfl
      simp at h2
    refine ⟨ne, ?_, ?_, ?_⟩
    · rw [headD_eq ne]
      rw [List.head?_eq_some_head ne] at h1
      exact Option.some.inj h1
    · rw [getLastD_eq ne]
      rw [List.getLast?_eq_some_getLast ne] at h3
      exact Option.some.inj h3
    · intro p hp
      obtain ⟨t, t0, t1, rfl⟩ := arc_mem hr hq hsp h p hp
      have htw : t * w ≤ w := by nlinarith
      have htw0 : 0 ≤ t * w := mul_nonneg t0 hw
      have c1 : Real.cos (s + w) ≤ Real.cos (s + t * w) := Real.cos_le_cos_of_nonneg_of_le_pi (by linarith) hsw (by linarith)
      have c2 : Real.cos (s + t * w) ≤ Real.cos s := Real.cos_le_cos_of_nonneg_of_le_pi hs (by linarith) (by linarith)
      have r0 : 0 ≤ r := by linarith
      simp only [circlePoint]
      constructor
      · have := mul_le_mul_of_nonneg_left c1 r0
        simpa using this
      · have := mul_le_mul_of_nonneg_left c2 r0
        simpa using this

/-- What leads from `x` to the left to `y`. -/
structure Leftwards (e : List Vec) (x y : ℝ) : Prop where
  ne : e ≠ []
  first : (e.headD 0).x = x
  last : (e.getLastD 0).x = y
  range : ∀ p ∈ e, y ≤ p.x ∧ p.x ≤ x

theorem roofArc_ok {q : Quality} {cfg : PalmCfg} {a e w : ℝ} {arc : List Vec} (h : roofArc q cfg a e w = .ok arc) (hq : 0 < q.maxChordAngle)
    (ha : 0 ≤ a) (ha' : a ≤ Real.pi / 2) (he : e = Real.pi / 2 - a / 2 + cfg.tiltAngle) (ht : |cfg.tiltAngle| < Real.pi / 4)
    (hw : 1 / 1000000 ≤ w) : ∃ x, Leftwards arc x (x - w) := by
  have hpi := Real.pi_pos
  obtain ⟨t1, t2⟩ := abs_lt.mp ht
  have hc : 0 < Real.cos cfg.tiltAngle := Real.cos_pos_of_mem_Ioo ⟨by linarith, by linarith⟩
  unfold roofArc at h
  obtain ⟨chord, h1, h2⟩ := bind_ok h
  obtain ⟨-, rfl⟩ := pyDiv_val h1
  split_ifs at h2 with h0
  · obtain ⟨R, h3, h4⟩ := bind_ok h2
    obtain ⟨arc0, h5, h6⟩ := bind_ok h4
    obtain rfl := Except.ok.inj h6
    obtain ⟨-, rfl⟩ := pyDiv_val h3
    have hs : 0 < Real.sin (a / 2) := Real.sin_pos_of_pos_of_lt_pi (by linarith) (by linarith)
    have hs1 : Real.sin (a / 2) ≤ 1 := Real.sin_le_one _
    have hc1 : Real.cos cfg.tiltAngle ≤ 1 := Real.cos_le_one _
    set R := w / Real.cos cfg.tiltAngle / (2 * Real.sin (a / 2)) with hR
    have hR2 : R * 2 * Real.sin (a / 2) * Real.cos cfg.tiltAngle = w := by
      rw [hR]
      field_simp
    have hRpos : 0 < R := by positivity
    have hRw : w ≤ R * 2 := by
      have : Real.sin (a / 2) * Real.cos cfg.tiltAngle ≤ 1 := by nlinarith
      have : R * 2 * (Real.sin (a / 2) * Real.cos cfg.tiltAngle) ≤ R * 2 * 1 := mul_le_mul_of_nonneg_left this (by linarith)
      linarith
    obtain ⟨n, f, l, r⟩ := arc_leftwards (.inr (by linarith)) hq (by linarith) ha (by linarith) h5
    have key : Real.cos e - Real.cos (e + a) = 2 * Real.sin (a / 2) * Real.cos cfg.tiltAngle := by
      have e1 : e = (Real.pi / 2 + cfg.tiltAngle) - a / 2 := by linarith
      have e2 : e + a = (Real.pi / 2 + cfg.tiltAngle) + a / 2 := by linarith
      rw [e2, e1, Real.cos_sub, Real.cos_add (Real.pi / 2 + cfg.tiltAngle), add_comm (Real.pi / 2), Real.sin_add_pi_div_two,
        Real.cos_add_pi_div_two]
      ring
    refine ⟨R * Real.cos e, ?_, ?_, ?_, ?_⟩
    · simpa [edgeScaled] using n
    · unfold edgeScaled
      rw [headD_map _ n, f]
      simp [circlePoint]
      ring
    · unfold edgeScaled
      rw [getLastD_map _ n, l]
      simp [circlePoint]
      linear_combination (-R) * key - hR2
    · intro p hp
      obtain ⟨p0, hp0, rfl⟩ := List.mem_map.mp hp
      obtain ⟨r1, r2⟩ := r p0 hp0
      have e3 : R * Real.cos e - w = R * Real.cos (e + a) := by linear_combination R * key + hR2
      rw [e3]
      simp only [Vec.add_x, Vec.mul_x, Vec.sub_x, Vec.zero_x, sub_zero, add_zero]
      constructor <;> linarith
  · obtain rfl := Except.ok.inj h2
    refine ⟨0, by simp, rfl, ?_, ?_⟩
    · simp
    · intro p hp
      simp only [List.mem_cons, List.not_mem_nil, or_false] at hp
      rcases hp with rfl | rfl
      · simp; linarith
      · simp; linarith

theorem Leftwards.translated {e : List Vec} {x y : ℝ} (h : Leftwards e x y) (v : Vec) : Leftwards (edgeTranslated e v) (x + v.x) (y + v.x) := by
  obtain ⟨n, f, l, r⟩ := h
  unfold edgeTranslated
  refine ⟨by simpa using n, ?_, ?_, ?_⟩
  · rw [headD_map _ n, Vec.add_x, f]
  · rw [getLastD_map _ n, Vec.add_x, l]
  · intro p hp
    obtain ⟨p0, hp0, rfl⟩ := List.mem_map.mp hp
    obtain ⟨r1, r2⟩ := r p0 hp0
    rw [Vec.add_x]
    constructor <;> linarith

/-- The next part of the sketch is moved to its end, without its first point. -/
theorem Leftwards.join {e f : List Vec} {x y z x' : ℝ} (he : Leftwards e x y) (hf : Leftwards f x' (x' + z - y)) (hyx : y ≤ x) (hz : z ≤ y) {v : Vec}
    (hv : v.x = y - x') : Leftwards (e ++ edgeTranslated (f.drop 1) v) x z := by
  obtain ⟨n, fi, la, r⟩ := he
  obtain ⟨n', fi', la', r'⟩ := hf
  match f, n' with
  | a :: f, _ =>
    have ea : a.x = x' := fi'
    refine ⟨by simp [n], ?_, ?_, ?_⟩
    · rw [headD_append n, fi]
    · match f with
      | [] =>
        have : x' = x' + z - y := by rw [← ea]; rw [getLastD_one, ea] at la'; rw [ea]; exact la'
        simp only [List.drop_one, List.tail_cons, edgeTranslated, List.map_nil, List.append_nil]
        rw [la]; linarith
      | b :: f =>
        rw [getLastD_append (by simp [edgeTranslated])]
        unfold edgeTranslated
        rw [List.drop_one, List.tail_cons, getLastD_map _ (List.cons_ne_nil _ _), Vec.add_x]
        rw [getLastD_cons _ (List.cons_ne_nil _ _)] at la'
        rw [la', hv]; ring
    · intro p hp
      rcases List.mem_append.mp hp with hp | hp
      · obtain ⟨r1, r2⟩ := r p hp
        exact ⟨by linarith, r2⟩
      · unfold edgeTranslated at hp
        obtain ⟨p0, hp0, rfl⟩ := List.mem_map.mp hp
        obtain ⟨r1, r2⟩ := r' p0 (List.mem_of_mem_drop hp0)
        rw [Vec.add_x, hv]
        constructor <;> linarith

/-- The profile of the roof is exactly as deep as configured. -/
theorem sketch_ok {q : Quality} {cfg : PalmCfg} {inset : ℝ} {sketch : List Vec} (h : spineSketch q cfg inset = .ok sketch)
    (hq : 0 < q.maxChordAngle) (hf : cfg.roofFillet ≤ inset ∨ 1 / 1000000 ≤ cfg.roofFillet - inset) (ht : |cfg.tiltAngle| < Real.pi / 4)
    (hd : 4 * max 0 (cfg.roofFillet - inset) + 2 * inset + 1 / 1000000 ≤ cfg.depth) :
    Leftwards sketch (-(cfg.bodyMargin + inset)) (-(cfg.bodyMargin + cfg.depth - inset)) := by
  have hpi := Real.pi_pos
  unfold spineSketch at h
  dsimp only at h
  obtain ⟨⟨r, a, eB, arcB, arcF⟩, h1, h2⟩ := bind_ok h
  obtain ⟨b0, i1, h3⟩ := bind_ok h2
  obtain ⟨b1, i2, h4⟩ := bind_ok h3
  obtain ⟨f0, i3, h5⟩ := bind_ok h4
  obtain ⟨f1, i4, h6⟩ := bind_ok h5
  obtain ⟨arc, h7, h8⟩ := bind_ok h6
  obtain ⟨s1, i5, h9⟩ := bind_ok h8
  obtain ⟨a0, i6, h10⟩ := bind_ok h9
  obtain ⟨s2, i7, h11⟩ := bind_ok h10
  obtain rfl := Except.ok.inj h11
  unfold roofEnds at h1
  dsimp only at h1
  dsimp only at i1 i2 i3 i4 i5 i6 i7 h7
  obtain ⟨arcB', k1, h12⟩ := bind_ok h1
  obtain ⟨arcF', k2, h13⟩ := bind_ok h12
  have e := Except.ok.inj h13
  simp only [Prod.mk.injEq] at e
  obtain ⟨e1, e2, e3, e4, e5⟩ := e
  rw [e4] at k1
  rw [e5] at k2
  clear e4 e5
  rw [e1] at hd k1 k2
  rw [e2] at k1 k2 e3
  have hr : r = 0 ∨ 1 / 1000000 ≤ r := by
    rw [← e1]
    rcases hf with hf | hf
    · left; exact max_eq_left (by linarith)
    · right; exact hf.trans (le_max_right _ _)
  have hr0 : 0 ≤ r := by rcases hr with h | h <;> linarith
  have ha0 : 0 ≤ a := by rw [← e2]; unfold tau; exact mul_nonneg (by linarith) (le_max_left _ _)
  have ha1 : a ≤ Real.pi / 2 := by
    rw [← e2]; unfold tau
    have : max 0 (min cfg.relRoofRoundness 1) ≤ 1 := max_le (by norm_num) (min_le_right _ _)
    nlinarith
  rw [e3] at k1
  unfold tau at e3 k2
  obtain ⟨t1, t2⟩ := abs_lt.mp ht
  clear h h1 h2 h3 h4 h5 h6 h8 h9 h10 h11 h12 h13 e1 e2
  obtain ⟨nB, fB, lB, rB⟩ := arc_leftwards hr hq le_rfl (by linarith) (by linarith) k1
  obtain ⟨nF, fF, lF, rF⟩ := arc_leftwards hr hq (by linarith) (by linarith) (by linarith) k2
  obtain ⟨-, rfl⟩ := index_zero i1
  obtain ⟨-, rfl⟩ := index_last i2
  obtain ⟨-, rfl⟩ := index_zero i3
  obtain ⟨-, rfl⟩ := index_last i4
  have bx0 : (arcB.headD 0).x = r := by rw [fB]; simp [circlePoint]
  have bx1 : (arcB.getLastD 0).x = r * Real.cos eB := by rw [lB]; simp [circlePoint]
  have fx1 : (arcF.getLastD 0).x = -r := by
    rw [lF]; simp [circlePoint]
  have LB : Leftwards arcB r (r * Real.cos eB) := ⟨nB, bx0, bx1, fun p hp => by
    have := rB p hp
    simp only [zero_add, Real.cos_zero, mul_one] at this
    exact this⟩
  have fxr : (arcF.headD 0).x ≤ r := by
    rw [fF]
    simp only [circlePoint, Vec.zero_x, zero_add]
    nlinarith [Real.cos_le_one (Real.pi - (2 * Real.pi / 4 - a / 2 - cfg.tiltAngle))]
  have fxl : -r ≤ (arcF.headD 0).x := by
    have := rF (arcF.headD 0) (by rw [headD_eq nF]; exact List.head_mem nF)
    have e : r * Real.cos (Real.pi - (2 * Real.pi / 4 - a / 2 - cfg.tiltAngle) + (2 * Real.pi / 4 - a / 2 - cfg.tiltAngle)) = -r := by
      rw [sub_add_cancel, Real.cos_pi]; ring
    linarith [this.1]
  have LF : Leftwards arcF (arcF.headD 0).x (-r) := ⟨nF, rfl, fx1, fun p hp => by
    have := rF p hp
    have e : r * Real.cos (Real.pi - (2 * Real.pi / 4 - a / 2 - cfg.tiltAngle) + (2 * Real.pi / 4 - a / 2 - cfg.tiltAngle)) = -r := by
      rw [sub_add_cancel, Real.cos_pi]; ring
    refine ⟨by linarith [this.1], ?_⟩
    rw [fF]
    simp only [circlePoint, Vec.zero_x, zero_add]
    exact this.2⟩
  have bxl : -r ≤ r * Real.cos eB := by nlinarith [Real.neg_one_le_cos eB]
  have bxr : r * Real.cos eB ≤ r := by nlinarith [Real.cos_le_one eB]
  rw [bx0, bx1, fx1] at h7
  generalize arcF.headD 0 = f0 at *
  obtain ⟨x0, LA⟩ := roofArc_ok h7 hq ha0 ha1 (by linarith) ht (by linarith)
  obtain ⟨-, rfl⟩ := index_last i5
  obtain ⟨-, rfl⟩ := index_zero i6
  have L1 := LB.translated (-(⟨cfg.bodyMargin + r + inset, r + inset, 0⟩ : Vec))
  generalize edgeTranslated arcB _ = sk at *
  obtain ⟨-, rfl⟩ := index_last i7
  simp only [Vec.neg_x] at L1
  have L2 := L1.join (z := r * Real.cos eB + -(cfg.bodyMargin + r + inset) - (cfg.depth - 2 * inset - (r - r * Real.cos eB) - (f0.x - -r)))
    (f := arc) (x' := x0) (v := sk.getLastD 0 - arc.headD 0) (by convert LA using 1; ring) (by linarith) (by linarith)
    (by rw [Vec.sub_x, LA.first, L1.last])
  generalize sk ++ edgeTranslated (arc.drop 1) (sk.getLastD 0 - arc.headD 0) = sk2 at *
  have L3 := L2.join (z := -(cfg.bodyMargin + cfg.depth - inset)) (f := arcF) (x' := f0.x) (v := sk2.getLastD 0 - f0)
    (by convert LF using 1; ring) (by linarith) (by linarith) (by rw [Vec.sub_x, L2.last])
  convert L3 using 1
  ring

/-- A line of the roof: a point of the profile, turned by the tent angle. -/
noncomputable def spineLine (a : ℝ) (p : Vec) : Line := ⟨⟨p.y * Real.sin a, p.x, p.y * Real.cos a⟩, ⟨Real.cos a, 0, -Real.sin a⟩⟩

theorem spineLine_eq (a : ℝ) (p : Vec) :
    (do let line ← Line.make ⟨0, p.x, p.y⟩ ⟨1, 0, 0⟩
        line.transformed ((1 : Mat).rotatedY a)) = .ok (spineLine a p) := by
  have e1 : Line.make ⟨0, p.x, p.y⟩ ⟨1, 0, 0⟩ = .ok ⟨⟨0, p.x, p.y⟩, ⟨1, 0, 0⟩⟩ := by
    unfold Line.make
    rw [normalized_self (by simp [Vec.dot])]
    rfl
  have hu : (⟨Real.cos a, 0, -Real.sin a⟩ : Vec).dot ⟨Real.cos a, 0, -Real.sin a⟩ = 1 := by
    simp only [Vec.dot]
    nlinarith [Real.sin_sq_add_cos_sq a]
  have e2 : (⟨1, 0, 0⟩ : Vec).transformedNormal ((1 : Mat).rotatedY a) = .ok ⟨Real.cos a, 0, -Real.sin a⟩ := by
    rw [← normalized_self hu]
    unfold Vec.transformedNormal
    congr 1
    ext <;> simp [Mat.rotatedY, Mat.rotateBy, Mat.one_def, Mat.mul_def]
  have e3 : (⟨0, p.x, p.y⟩ : Vec).transformed ((1 : Mat).rotatedY a) = ⟨p.y * Real.sin a, p.x, p.y * Real.cos a⟩ := by
    ext <;> simp [Vec.transformed, Mat.rotatedY, Mat.rotateBy, Mat.one_def, Mat.mul_def]
  rw [e1]
  show Line.transformed _ _ = _
  unfold Line.transformed
  rw [e2]
  show Line.make _ _ = _
  unfold Line.make
  rw [normalized_self hu, e3]
  rfl

theorem roofSpine_ok {q : Quality} {cfg : PalmCfg} {inset : ℝ} {lines : List Line} (h : roofSpine q cfg inset = .ok lines) :
    ∃ sketch, spineSketch q cfg inset = .ok sketch ∧ lines = sketch.map (spineLine cfg.tentAngle) := by
  unfold roofSpine at h
  obtain ⟨sketch, h1, h2⟩ := bind_ok h
  refine ⟨sketch, h1, ?_⟩
  dsimp only at h2
  exact mapM_ok_eq h2 fun p _ l hl => Except.ok.inj (hl.symm.trans (spineLine_eq _ p))

theorem intersectLine_ok {pl : Plane} {l : Line} {v : Vec} (h : pl.intersectLine l = .ok v) :
    OnPlane pl.pos pl.normal v ∧ ∃ k : ℝ, v = l.pos + l.dir * k := by
  unfold Plane.intersectLine at h
  dsimp only at h
  split_ifs at h
  obtain ⟨k, hk, h1⟩ := bind_ok h
  obtain ⟨hd, rfl⟩ := pyDiv_val hk
  obtain rfl := Except.ok.inj h1
  refine ⟨?_, _, rfl⟩
  generalize hK : pl.normal.dot (pl.pos - l.pos) / pl.normal.dot l.dir = K
  rw [div_eq_iff hd] at hK
  simp only [OnPlane, Vec.dot, Vec.sub_x, Vec.sub_y, Vec.sub_z, Vec.add_x, Vec.add_y, Vec.add_z, Vec.mul_x, Vec.mul_y, Vec.mul_z] at hK ⊢
  linear_combination -hK

theorem edgeOnLines_mem {pl : Plane} {ls : List Line} {e : List Vec} (h : edgeOnLines pl ls = .ok e) :
    ∀ v ∈ e, OnPlane pl.pos pl.normal v ∧ ∃ l ∈ ls, ∃ k : ℝ, v = l.pos + l.dir * k := by
  unfold edgeOnLines at h
  intro v hv
  obtain ⟨l, hl, h1⟩ := forall₂_of_right (mapM_ok h) hv
  obtain ⟨h2, h3⟩ := intersectLine_ok h1
  exact ⟨h2, l, hl, h3⟩

theorem edgeOnLines_y {pl : Plane} {a : ℝ} {sketch e : List Vec} (h : edgeOnLines pl (sketch.map (spineLine a)) = .ok e) :
    e.map Vec.y = sketch.map Vec.x := by
  unfold edgeOnLines at h
  have h1 := mapM_ok h
  clear h
  induction sketch generalizing e with
  | nil => cases h1; rfl
  | cons p sk ih =>
    cases h1 with
    | cons h2 h3 =>
      obtain ⟨-, k, rfl⟩ := intersectLine_ok h2
      rw [List.map_cons, List.map_cons, ih h3]
      simp [spineLine]

/-- An edge that leads from `y = a` to `y = b`, towards the front. -/
structure Frontwards (e : List Vec) (a b : ℝ) : Prop where
  ne : e ≠ []
  first : (e.headD 0).y = a
  last : (e.getLastD 0).y = b
  range : ∀ p ∈ e, b ≤ p.y ∧ p.y ≤ a

theorem Leftwards.frontwards {e f : List Vec} {a b : ℝ} (h : Leftwards e a b) (he : f.map Vec.y = e.map Vec.x) : Frontwards f a b := by
  obtain ⟨n, fi, la, r⟩ := h
  have nf : f ≠ [] := by
    rintro rfl
    simp at he
    exact n he
  refine ⟨nf, ?_, ?_, ?_⟩
  · rw [← fi]
    match e, f, n, nf with
    | p :: e, q :: f, _, _ => exact (List.cons.inj he).1
  · rw [← la, getLastD_eq nf, getLastD_eq n]
    have h1 : (f.map Vec.y).getLast (by simpa) = (e.map Vec.x).getLast (by simpa) := by congr 1
    simpa using h1
  · intro p hp
    have h1 : p.y ∈ e.map Vec.x := he ▸ List.mem_map_of_mem hp
    obtain ⟨p0, h2, h3⟩ := List.mem_map.mp h1
    rw [← h3]
    exact r p0 h2

theorem filletLines_dir {q : Quality} {r s : ℝ} {c : Vec} {ls : List Line} (h : filletLines q r s c = .ok ls) : ∀ l ∈ ls, l.dir = ⟨1, 0, 0⟩ := by
  unfold filletLines at h
  obtain ⟨arc, h2, h3⟩ := bind_ok h
  intro l hl
  obtain ⟨p, hp, h4⟩ := forall₂_of_right (mapM_ok h3) hl
  unfold Line.make at h4
  rw [normalized_self (by simp [Vec.dot])] at h4
  obtain rfl := Except.ok.inj h4
  rfl

/-- The points of a fillet at the ground. -/
theorem filletLines_mem {q : Quality} {r s : ℝ} {c : Vec} {ls : List Line} (h : filletLines q r s c = .ok ls) (hq : 0 < q.maxChordAngle)
    (hr : 0 ≤ r) {pl : Plane} {e : List Vec} (he : edgeOnLines pl ls = .ok e) :
    ∀ v ∈ e, OnPlane pl.pos pl.normal v ∧
      ((v.y = c.y ∧ v.z = c.z) ∨ ∃ t : ℝ, 0 ≤ t ∧ t ≤ 1 ∧ v.y = c.y + r * Real.cos (s + t * (Real.pi / 2)) ∧
        v.z = c.z + r * Real.sin (s + t * (Real.pi / 2))) := by
  intro v hv
  obtain ⟨h1, l, hl, k, rfl⟩ := edgeOnLines_mem he v hv
  refine ⟨h1, ?_⟩
  unfold filletLines at h
  obtain ⟨arc, h2, h3⟩ := bind_ok h
  obtain ⟨p, hp, h4⟩ := forall₂_of_right (mapM_ok h3) hl
  have e1 : Line.make (⟨0, p.x, p.y⟩ + c) ⟨1, 0, 0⟩ = .ok ⟨⟨0, p.x, p.y⟩ + c, ⟨1, 0, 0⟩⟩ := by
    unfold Line.make
    rw [normalized_self (by simp [Vec.dot])]
    rfl
  rw [e1] at h4
  obtain rfl := Except.ok.inj h4
  simp only [Vec.add_y, Vec.add_z, Vec.mul_y, Vec.mul_z, zero_mul, add_zero]
  have e2 : tau / 4 = Real.pi / 2 := by unfold tau; ring
  rw [e2] at h2
  by_cases hr' : r < 1 / 1000000
  · left
    unfold arc2D at h2
    rw [if_pos hr'] at h2
    obtain rfl := Except.ok.inj h2
    simp only [List.mem_singleton] at hp
    subst hp
    simp
  · right
    obtain ⟨t, t0, t1, rfl⟩ := arc_mem (not_lt.mp hr') hq (by
      have := Real.pi_gt_three
      unfold tau
      rw [abs_of_pos (by linarith)]
      linarith) h2 p hp
    refine ⟨t, t0, t1, ?_, ?_⟩ <;> simp [circlePoint] <;> ring

/-- The outer shape of a palm rest, before it is placed: it leads from `-margin` to `-(margin + depth)`, between the floor and the height,
on the planes of its sides. -/
structure ShapeOk (palm : PalmCfg) (floorHeight : ℝ) (s : PalmShape) : Prop where
  side : ∀ e ∈ [s.filletLB ++ s.roofL, s.filletRB ++ s.roofR], ∀ p ∈ e,
    -(palm.bodyMargin + palm.depth) ≤ p.y ∧ p.y ≤ -palm.bodyMargin ∧ -floorHeight ≤ p.z
  ends : ∀ e ∈ [s.roofL, s.roofR], (∃ p ∈ e, p.y = -palm.bodyMargin) ∧ ∃ p ∈ e, p.y = -(palm.bodyMargin + palm.depth)
  high : ∀ p ∈ s.filletLB ++ s.roofL, p.z ≤ palm.height - floorHeight
  top : ∃ p ∈ s.roofL, p.z = palm.height - floorHeight
  onL : ∀ p ∈ s.filletLB ++ s.roofL, OnPlane s.planeL.pos s.planeL.normal p
  onR : ∀ p ∈ s.filletRB ++ s.roofR, OnPlane s.planeR.pos s.planeR.normal p
  back : s.palmBGy = -palm.bodyMargin
  front : s.palmFGy = -(palm.bodyMargin + palm.depth)
  lines : ∀ l ∈ s.filletLinesB, l.dir = ⟨1, 0, 0⟩

theorem onPlane_raise {p n v : Vec} (h : OnPlane p n v) (hn : n.z = 0) (z : ℝ) : OnPlane p n (v + ⟨0, 0, z⟩) := by
  simp only [OnPlane, Vec.dot, Vec.sub_x, Vec.sub_y, Vec.sub_z, Vec.add_x, Vec.add_y, Vec.add_z] at h ⊢
  rw [hn] at h ⊢
  linarith

theorem palmShape_ok {q : Quality} {palm : PalmCfg} {fh : ℝ} {a b : Vec} {s : PalmShape} (h : palmShape q palm fh a b = .ok s)
    (hq : 0 < q.maxChordAngle) (hr : SaneRoof palm 0) (hf : 0 ≤ palm.floorFillet) (hfd : palm.floorFillet ≤ palm.depth) :
    ShapeOk palm fh s ∧ s.planeL = ⟨⟨-((b - a).magnitude / 2), 0, 0⟩, ⟨-Real.cos palm.taperAngle, -Real.sin palm.taperAngle, 0⟩⟩ ∧
      s.planeR = ⟨⟨(b - a).magnitude / 2, 0, 0⟩, ⟨Real.cos palm.taperAngle, -Real.sin palm.taperAngle, 0⟩⟩ := by
  have hpi := Real.pi_pos
  unfold palmShape at h
  dsimp only at h
  obtain ⟨planeL, p1, h1⟩ := bind_ok h
  obtain ⟨planeR, p2, h2⟩ := bind_ok h1
  obtain ⟨spine, hs, h3⟩ := bind_ok h2
  obtain ⟨L, hL, h4⟩ := bind_ok h3
  obtain ⟨R, hR, h5⟩ := bind_ok h4
  obtain ⟨first, i1, h6⟩ := bind_ok h5
  obtain ⟨last, i2, h7⟩ := bind_ok h6
  obtain ⟨maxZ, hM, h8⟩ := bind_ok h7
  obtain ⟨minZ, hm, h9⟩ := bind_ok h8
  split_ifs at h9 with hc
  obtain ⟨linesF, hlF, h10⟩ := bind_ok h9
  obtain ⟨FL, hFL, h11⟩ := bind_ok h10
  obtain ⟨FR, hFR, h12⟩ := bind_ok h11
  obtain ⟨linesB, hlB, h13⟩ := bind_ok h12
  obtain ⟨BL, hBL, h14⟩ := bind_ok h13
  obtain ⟨BR, hBR, h15⟩ := bind_ok h14
  have hu : Real.cos palm.taperAngle * Real.cos palm.taperAngle + Real.sin palm.taperAngle * Real.sin palm.taperAngle = 1 := by
    nlinarith [Real.sin_sq_add_cos_sq palm.taperAngle]
  have eL := Plane.make_ok (by simp only [Vec.mirroredX, Vec.dot]; linarith) p1
  have eR := Plane.make_ok (by simp only [Vec.dot]; linarith) p2
  have zL : planeL.normal.z = 0 := by rw [eL]; rfl
  have zR : planeR.normal.z = 0 := by rw [eR]
  obtain ⟨sketch, hsk, rfl⟩ := roofSpine_ok hs
  have LW := sketch_ok hsk hq hr.fillet hr.tilt hr.depth
  simp only [add_zero, sub_zero] at LW
  have FWL := LW.frontwards (edgeOnLines_y hL)
  have FWR := LW.frontwards (edgeOnLines_y hR)
  obtain ⟨-, rfl⟩ := index_zero i1
  obtain ⟨-, rfl⟩ := index_last i2
  obtain ⟨hM1, hM2⟩ := pyMax_ok hM
  obtain ⟨hm1, hm2⟩ := pyMin_ok hm
  rw [FWL.last] at hlF
  rw [FWL.first] at hlB
  obtain rfl := Except.ok.inj h15
  clear h h1 h2 h3 h4 h5 h6 h7 h8 h9 h10 h11 h12 h13 h14 h15 p1 p2 hs i1 i2
  have oL := fun v hv => (edgeOnLines_mem hL v hv).1
  have oR := fun v hv => (edgeOnLines_mem hR v hv).1
  have hc' : palm.floorFillet - fh < minZ := by linarith
  have zmin : ∀ v ∈ edgeTranslated L ⟨0, 0, palm.height - fh - maxZ⟩ ++ edgeTranslated R ⟨0, 0, palm.height - fh - maxZ⟩,
      palm.floorFillet - fh < v.z := fun v hv => hc'.trans_le (hm2 _ (List.mem_map_of_mem hv))
  have top : ∃ p ∈ edgeTranslated L ⟨0, 0, palm.height - fh - maxZ⟩, p.z = palm.height - fh := by
    obtain ⟨p, hp, e⟩ := List.mem_map.mp hM1
    exact ⟨p + ⟨0, 0, palm.height - fh - maxZ⟩, List.mem_map_of_mem hp, by rw [Vec.add_z, e]; ring⟩
  have high : ∀ p ∈ edgeTranslated L ⟨0, 0, palm.height - fh - maxZ⟩, p.z ≤ palm.height - fh := by
    intro p hp
    obtain ⟨p0, hp0, rfl⟩ := List.mem_map.mp hp
    have := hM2 p0.z (List.mem_map_of_mem hp0)
    rw [Vec.add_z]
    linarith
  have hfh : palm.floorFillet < palm.height := by
    obtain ⟨p, hp, e⟩ := top
    have := zmin p (List.mem_append_left _ hp)
    linarith
  -- the fillets
  have front : ∀ pl : Plane, ∀ e : List Vec, edgeOnLines pl linesF = .ok e → ∀ v ∈ e, OnPlane pl.pos pl.normal v ∧
      -(palm.bodyMargin + palm.depth) ≤ v.y ∧ v.y ≤ -palm.bodyMargin ∧ -fh ≤ v.z ∧ v.z ≤ palm.height - fh := by
    intro pl e he v hv
    obtain ⟨h1, h2⟩ := filletLines_mem hlF hq hf he v hv
    refine ⟨h1, ?_⟩
    dsimp only at h2
    rcases h2 with ⟨e1, e2⟩ | ⟨t, t0, t1, e1, e2⟩
    · rw [e1, e2]
      refine ⟨?_, ?_, ?_, ?_⟩ <;> linarith
    · have ea : tau / 2 + t * (Real.pi / 2) = t * (Real.pi / 2) + Real.pi := by unfold tau; ring
      rw [ea, Real.cos_add_pi] at e1
      rw [ea, Real.sin_add_pi] at e2
      have b0 : 0 ≤ t * (Real.pi / 2) := by positivity
      have b1 : t * (Real.pi / 2) ≤ Real.pi / 2 := by nlinarith
      have c0 := mul_nonneg hf (Real.cos_nonneg_of_mem_Icc (x := t * (Real.pi / 2)) ⟨by linarith, b1⟩)
      have s0 := mul_nonneg hf (Real.sin_nonneg_of_nonneg_of_le_pi b0 (by linarith))
      have c1 := mul_le_mul_of_nonneg_left (Real.cos_le_one (t * (Real.pi / 2))) hf
      have s1 := mul_le_mul_of_nonneg_left (Real.sin_le_one (t * (Real.pi / 2))) hf
      rw [e1, e2]
      refine ⟨?_, ?_, ?_, ?_⟩ <;> linarith
  have back : ∀ pl : Plane, ∀ e : List Vec, edgeOnLines pl linesB = .ok e → ∀ v ∈ e, OnPlane pl.pos pl.normal v ∧
      -(palm.bodyMargin + palm.depth) ≤ v.y ∧ v.y ≤ -palm.bodyMargin ∧ -fh ≤ v.z ∧ v.z ≤ palm.height - fh := by
    intro pl e he v hv
    obtain ⟨h1, h2⟩ := filletLines_mem hlB hq hf he v hv
    refine ⟨h1, ?_⟩
    dsimp only at h2
    rcases h2 with ⟨e1, e2⟩ | ⟨t, t0, t1, e1, e2⟩
    · rw [e1, e2]
      refine ⟨?_, ?_, ?_, ?_⟩ <;> linarith
    · have ea : tau * (3 / 4) + t * (Real.pi / 2) = t * (Real.pi / 2) - Real.pi / 2 + 2 * Real.pi := by unfold tau; ring
      rw [ea, Real.cos_add_two_pi, Real.cos_sub_pi_div_two] at e1
      rw [ea, Real.sin_add_two_pi, Real.sin_sub_pi_div_two] at e2
      have b0 : 0 ≤ t * (Real.pi / 2) := by positivity
      have b1 : t * (Real.pi / 2) ≤ Real.pi / 2 := by nlinarith
      have c0 := mul_nonneg hf (Real.cos_nonneg_of_mem_Icc (x := t * (Real.pi / 2)) ⟨by linarith, b1⟩)
      have s0 := mul_nonneg hf (Real.sin_nonneg_of_nonneg_of_le_pi b0 (by linarith))
      have c1 := mul_le_mul_of_nonneg_left (Real.cos_le_one (t * (Real.pi / 2))) hf
      have s1 := mul_le_mul_of_nonneg_left (Real.sin_le_one (t * (Real.pi / 2))) hf
      rw [e1, e2]
      refine ⟨?_, ?_, ?_, ?_⟩ <;> linarith
  have ends : ∀ e : List Vec, Frontwards e (-palm.bodyMargin) (-(palm.bodyMargin + palm.depth)) → ∀ f : List Vec,
      (∃ p ∈ edgeTranslated e ⟨0, 0, palm.height - fh - maxZ⟩ ++ f, p.y = -palm.bodyMargin) ∧
      ∃ p ∈ edgeTranslated e ⟨0, 0, palm.height - fh - maxZ⟩ ++ f, p.y = -(palm.bodyMargin + palm.depth) := by
    intro e he f
    constructor
    · refine ⟨e.headD 0 + ⟨0, 0, palm.height - fh - maxZ⟩, List.mem_append_left _ (List.mem_map_of_mem ?_), ?_⟩
      · rw [headD_eq he.ne]; exact List.head_mem _
      · rw [Vec.add_y, he.first, add_zero]
    · refine ⟨e.getLastD 0 + ⟨0, 0, palm.height - fh - maxZ⟩, List.mem_append_left _ (List.mem_map_of_mem ?_), ?_⟩
      · rw [getLastD_eq he.ne]; exact List.getLast_mem _
      · rw [Vec.add_y, he.last, add_zero]
  have range : ∀ e : List Vec, Frontwards e (-palm.bodyMargin) (-(palm.bodyMargin + palm.depth)) →
      ∀ p ∈ edgeTranslated e ⟨0, 0, palm.height - fh - maxZ⟩, -(palm.bodyMargin + palm.depth) ≤ p.y ∧ p.y ≤ -palm.bodyMargin := by
    intro e he p hp
    obtain ⟨p0, hp0, rfl⟩ := List.mem_map.mp hp
    rw [Vec.add_y, add_zero]
    exact he.range p0 hp0
  refine ⟨⟨?_, ?_, ?_, ?_, ?_, ?_, FWL.first, FWL.last, filletLines_dir hlB⟩, eL, eR⟩
  · intro e he p hp
    simp only [List.mem_cons, List.not_mem_nil, or_false] at he
    rcases he with rfl | rfl
    · rcases List.mem_append.mp hp with hp | hp
      · obtain ⟨-, h1, h2, h3, -⟩ := back _ _ hBL p hp
        exact ⟨h1, h2, h3⟩
      · rcases List.mem_append.mp hp with hp | hp
        · obtain ⟨r1, r2⟩ := range L FWL p hp
          have := zmin p (List.mem_append_left _ hp)
          exact ⟨r1, r2, by linarith⟩
        · obtain ⟨-, h1, h2, h3, -⟩ := front _ _ hFL p hp
          exact ⟨h1, h2, h3⟩
    · rcases List.mem_append.mp hp with hp | hp
      · obtain ⟨-, h1, h2, h3, -⟩ := back _ _ hBR p hp
        exact ⟨h1, h2, h3⟩
      · rcases List.mem_append.mp hp with hp | hp
        · obtain ⟨r1, r2⟩ := range R FWR p hp
          have := zmin p (List.mem_append_right _ hp)
          exact ⟨r1, r2, by linarith⟩
        · obtain ⟨-, h1, h2, h3, -⟩ := front _ _ hFR p hp
          exact ⟨h1, h2, h3⟩
  · intro e he
    simp only [List.mem_cons, List.not_mem_nil, or_false] at he
    rcases he with rfl | rfl
    · exact ends L FWL _
    · exact ends R FWR _
  · intro p hp
    rcases List.mem_append.mp hp with hp | hp
    · exact (back _ _ hBL p hp).2.2.2.2
    · rcases List.mem_append.mp hp with hp | hp
      · exact high p hp
      · exact (front _ _ hFL p hp).2.2.2.2
  · obtain ⟨p, hp, e⟩ := top
    exact ⟨p, List.mem_append_left _ hp, e⟩
  · intro p hp
    rcases List.mem_append.mp hp with hp | hp
    · exact (back _ _ hBL p hp).1
    · rcases List.mem_append.mp hp with hp | hp
      · obtain ⟨p0, hp0, rfl⟩ := List.mem_map.mp hp
        exact onPlane_raise (oL p0 hp0) zL _
      · exact (front _ _ hFL p hp).1
  · intro p hp
    rcases List.mem_append.mp hp with hp | hp
    · exact (back _ _ hBR p hp).1
    · rcases List.mem_append.mp hp with hp | hp
      · obtain ⟨p0, hp0, rfl⟩ := List.mem_map.mp hp
        exact onPlane_raise (oR p0 hp0) zR _
      · exact (front _ _ hFR p hp).1

/-- The palm rest is placed before the middle of the wall. -/
theorem palmMatrix_ok {a b : Vec} {m : Mat} (h : palmMatrix a.xy b.xy = .ok m) (hne : a.xy ≠ b.xy) (p : Vec) :
    fromWall a b (p.transformed m) = -p.y ∧ alongWall a b (p.transformed m) = p.x + (b.xy - a.xy).magnitude / 2 ∧
      alongWall b a (p.transformed m) = (b.xy - a.xy).magnitude / 2 - p.x ∧ (p.transformed m).z = p.z := by
  unfold palmMatrix at h
  obtain ⟨d, h1, h2⟩ := bind_ok h
  obtain rfl := Except.ok.inj h2
  have hd : d = ⟨(a.x + b.x) / 2, (a.y + b.y) / 2, 0⟩ := by
    unfold Vec.div at h1
    rw [if_neg (by norm_num)] at h1
    rw [← Except.ok.inj h1]
    ext <;> simp [Vec.xy]
  subst hd
  set D := (b.xy - a.xy) with hD
  have hDx : D.x = b.x - a.x := rfl
  have hDy : D.y = b.y - a.y := rfl
  have hDz : D.z = 0 := by simp [hD, Vec.xy]
  have hz : (⟨D.x, D.y⟩ : ℂ) ≠ 0 := by
    intro h0
    apply hne
    have h1 := congrArg Complex.re h0
    have h2 := congrArg Complex.im h0
    simp only [Complex.zero_re, Complex.zero_im] at h1 h2
    ext <;> simp [Vec.xy] <;> linarith
  have hn : ‖(⟨D.x, D.y⟩ : ℂ)‖ = D.magnitude := by
    rw [Complex.norm_eq_sqrt_sq_add_sq]
    unfold Vec.magnitude
    congr 1
    simp [Vec.dot, hDz]
    ring
  have hm : 0 < D.magnitude := by rw [← hn]; exact norm_pos_iff.mpr hz
  have hsq : D.magnitude * D.magnitude = D.x ^ 2 + D.y ^ 2 := by
    unfold Vec.magnitude
    rw [Real.mul_self_sqrt]
    · simp [Vec.dot, hDz]; ring
    · nlinarith [mul_self_nonneg D.x, mul_self_nonneg D.y, mul_self_nonneg D.z]
  have hS : Real.sqrt (distSq2D a b) = D.magnitude := by
    unfold Vec.magnitude distSq2D
    congr 1
    simp only [Vec.dot, hDx, hDy, hDz]; ring
  have hS' : Real.sqrt (distSq2D b a) = D.magnitude := by
    rw [← hS]
    unfold distSq2D
    congr 1
    ring
  have hc : D.magnitude * Real.cos (angle2D D) = D.x := by rw [← hn]; exact Complex.norm_mul_cos_arg _
  have hs : D.magnitude * Real.sin (angle2D D) = D.y := by rw [← hn]; exact Complex.norm_mul_sin_arg _
  have hP : p.transformed (((1 : Mat).rotatedZ (angle2D D)).translated ⟨(a.x + b.x) / 2, (a.y + b.y) / 2, 0⟩) =
      ⟨p.x * Real.cos (angle2D D) - p.y * Real.sin (angle2D D) + (a.x + b.x) / 2,
       p.x * Real.sin (angle2D D) + p.y * Real.cos (angle2D D) + (a.y + b.y) / 2, p.z⟩ := by
    ext <;> simp [Vec.transformed, Mat.translated, Mat.rotatedZ, Mat.rotateBy, Mat.one_def, Mat.mul_def]
    ring
  rw [hP]
  generalize Real.cos (angle2D D) = c at *
  generalize Real.sin (angle2D D) = s at *
  generalize D.magnitude = M at *
  have hu : c ^ 2 + s ^ 2 = 1 := by
    have : M ^ 2 * (c ^ 2 + s ^ 2) = M ^ 2 * 1 := by rw [← hc, ← hs] at hsq; linarith
    exact mul_left_cancel₀ (by positivity) this
  have e1 : b.x = a.x + M * c := by linarith
  have e2 : b.y = a.y + M * s := by linarith
  unfold fromWall alongWall left
  rw [hS, hS']
  refine ⟨?_, ?_, ?_, rfl⟩
  · rw [div_eq_iff hm.ne']
    simp only [e1, e2]
    linear_combination (-M * p.y) * hu
  · rw [div_eq_iff hm.ne']
    simp only [e1, e2]
    linear_combination (M * p.x + M ^ 2 / 2) * hu
  · rw [div_eq_iff hm.ne']
    simp only [e1, e2]
    linear_combination (-M * p.x + M ^ 2 / 2) * hu

/-- **C88.** The outline of a palm rest, placed in front of the wall of the body, keeps the configured margin from the wall and is exactly as
deep as configured; it stands on the ground, below the bottom of the body by the height of the floor; the highest point of the left side has
the configured height; and the sides start at the corners of the wall and are tapered as configured. -/
theorem C88_dimensions {cfg : KeyboardCfg} {pc : PalmCfg} {points : Points} {hi : Hitch} {palm : Palm}
    (h : Palm.make cfg pc points hi = .ok palm) (hq : 0 < cfg.quality.maxChordAngle) (hr : SaneRoof pc 0)
    (hf : 0 ≤ pc.floorFillet) (hfd : pc.floorFillet ≤ pc.depth) (hne : points.thumbOLF.xy ≠ points.pinkyORF.xy) :
    let a := points.thumbOLF
    let b := points.pinkyORF
    let sideL := (palm.shape.filletLB ++ palm.shape.roofL).map fun v => v.transformed palm.matrix
    let sideR := (palm.shape.filletRB ++ palm.shape.roofR).map fun v => v.transformed palm.matrix
    (∀ side ∈ [sideL, sideR],
      (∀ p ∈ side, pc.bodyMargin ≤ fromWall a b p ∧ fromWall a b p ≤ pc.bodyMargin + pc.depth ∧ -cfg.floor.outerHeight ≤ p.z) ∧
      (∃ p ∈ side, fromWall a b p = pc.bodyMargin) ∧ ∃ p ∈ side, fromWall a b p = pc.bodyMargin + pc.depth) ∧
    (∀ p ∈ sideL, p.z ≤ pc.height - cfg.floor.outerHeight) ∧ (∃ p ∈ sideL, p.z = pc.height - cfg.floor.outerHeight) ∧
    (∀ p ∈ sideL, alongWall a b p * Real.cos pc.taperAngle = fromWall a b p * Real.sin pc.taperAngle) ∧
    ∀ p ∈ sideR, alongWall b a p * Real.cos pc.taperAngle = fromWall a b p * Real.sin pc.taperAngle := by
  unfold Palm.make at h
  dsimp only at h
  obtain ⟨matrix, hm, h1⟩ := bind_ok h
  obtain ⟨s, hs, h2⟩ := bind_ok h1
  obtain ⟨n, hn, h3⟩ := bind_ok h2
  obtain ⟨gp, hgp, h4⟩ := bind_ok h3
  obtain ⟨bs, hbs, h5⟩ := bind_ok h4
  obtain ⟨faces, hfa, h6⟩ := bind_ok h5
  obtain rfl := Except.ok.inj h6
  dsimp only
  clear h h1 h2 h3 h4 h5 h6 hn hgp hbs hfa
  obtain ⟨ok, eL, eR⟩ := palmShape_ok hs hq hr hf hfd
  have place := palmMatrix_ok hm hne
  have side : ∀ e r : List Vec, (∀ p ∈ e ++ r, -(pc.bodyMargin + pc.depth) ≤ p.y ∧ p.y ≤ -pc.bodyMargin ∧ -cfg.floor.outerHeight ≤ p.z) →
      ((∃ p ∈ r, p.y = -pc.bodyMargin) ∧ ∃ p ∈ r, p.y = -(pc.bodyMargin + pc.depth)) →
      (∀ p ∈ (e ++ r).map fun v => v.transformed matrix, pc.bodyMargin ≤ fromWall points.thumbOLF points.pinkyORF p ∧
        fromWall points.thumbOLF points.pinkyORF p ≤ pc.bodyMargin + pc.depth ∧ -cfg.floor.outerHeight ≤ p.z) ∧
      (∃ p ∈ (e ++ r).map fun v => v.transformed matrix, fromWall points.thumbOLF points.pinkyORF p = pc.bodyMargin) ∧
      ∃ p ∈ (e ++ r).map fun v => v.transformed matrix, fromWall points.thumbOLF points.pinkyORF p = pc.bodyMargin + pc.depth := by
    rintro e r h1 ⟨⟨p, hp, e1⟩, p', hp', e2⟩
    refine ⟨?_, ⟨_, List.mem_map_of_mem (List.mem_append_right _ hp), ?_⟩, ⟨_, List.mem_map_of_mem (List.mem_append_right _ hp'), ?_⟩⟩
    · intro v hv
      obtain ⟨v0, hv0, rfl⟩ := List.mem_map.mp hv
      obtain ⟨f, -, -, z⟩ := place v0
      obtain ⟨h2, h3, h4⟩ := h1 v0 hv0
      rw [f, z]
      exact ⟨by linarith, by linarith, h4⟩
    · rw [(place p).1, e1]; ring
    · rw [(place p').1, e2]; ring
  have oL := ok.onL
  have oR := ok.onR
  rw [eL] at oL
  rw [eR] at oR
  refine ⟨?_, ?_, ?_, ?_, ?_⟩
  · intro sd hsd
    simp only [List.mem_cons, List.not_mem_nil, or_false] at hsd
    rcases hsd with rfl | rfl
    · exact side _ _ (ok.side _ (by simp)) (ok.ends _ (by simp))
    · exact side _ _ (ok.side _ (by simp)) (ok.ends _ (by simp))
  · intro v hv
    obtain ⟨v0, hv0, rfl⟩ := List.mem_map.mp hv
    rw [(place v0).2.2.2]
    exact ok.high v0 hv0
  · obtain ⟨p, hp, e⟩ := ok.top
    exact ⟨_, List.mem_map_of_mem (List.mem_append_right _ hp), by rw [(place p).2.2.2, e]⟩
  · intro v hv
    obtain ⟨v0, hv0, rfl⟩ := List.mem_map.mp hv
    obtain ⟨f, g, -, -⟩ := place v0
    have := oL v0 hv0
    rw [f, g]
    simp only [OnPlane, Vec.dot, Vec.sub_x, Vec.sub_y, Vec.sub_z] at this
    linarith
  · intro v hv
    obtain ⟨v0, hv0, rfl⟩ := List.mem_map.mp hv
    obtain ⟨f, -, g, -⟩ := place v0
    have := oR v0 hv0
    rw [f, g]
    simp only [OnPlane, Vec.dot, Vec.sub_x, Vec.sub_y, Vec.sub_z] at this
    linarith

/-- A plan with a hitch has a wall in front. -/
theorem hitch_wall {cfg : KeyboardCfg} {side : Side} {fp : FullPlan} {pc : PalmCfg} (h : FullPlan.make cfg side = .ok fp)
    (hc : cfg.palm = some pc) : fp.plan.points.thumbOLF.xy ≠ fp.plan.points.pinkyORF.xy := by
  obtain ⟨-, -, h2⟩ := fullPlan_ok h
  rw [hc] at h2
  unfold Hitch.make at h2
  obtain ⟨pts, h3, _⟩ := bind_ok h2
  unfold hitchPoints at h3
  dsimp only at h3
  obtain ⟨w, h4, _⟩ := bind_ok h3
  intro e
  rw [e] at h4
  unfold Vec.normalized Vec.div at h4
  rw [if_pos (by simp [Vec.magnitude, Vec.xy])] at h4
  cases h4

/-- **C88.** The palm rest of a plan has the configured dimensions. -/
theorem C88_palm {cfg : KeyboardCfg} {side : Side} {fp : FullPlan} {pc : PalmCfg} {hi : Hitch} {palm : Palm}
    (h : FullPlan.make cfg side = .ok fp) (hc : cfg.palm = some pc) (hp : Palm.make cfg pc fp.plan.points hi = .ok palm)
    (hq : SaneQuality cfg.quality) (hr : SaneRoof pc 0) (hf : 0 ≤ pc.floorFillet) (hfd : pc.floorFillet ≤ pc.depth) :
    let a := fp.plan.points.thumbOLF
    let b := fp.plan.points.pinkyORF
    let sideL := (palm.shape.filletLB ++ palm.shape.roofL).map fun v => v.transformed palm.matrix
    let sideR := (palm.shape.filletRB ++ palm.shape.roofR).map fun v => v.transformed palm.matrix
    (∀ side ∈ [sideL, sideR],
      (∀ p ∈ side, pc.bodyMargin ≤ fromWall a b p ∧ fromWall a b p ≤ pc.bodyMargin + pc.depth ∧ -cfg.floor.outerHeight ≤ p.z) ∧
      (∃ p ∈ side, fromWall a b p = pc.bodyMargin) ∧ ∃ p ∈ side, fromWall a b p = pc.bodyMargin + pc.depth) ∧
    (∀ p ∈ sideL, p.z ≤ pc.height - cfg.floor.outerHeight) ∧ (∃ p ∈ sideL, p.z = pc.height - cfg.floor.outerHeight) ∧
    (∀ p ∈ sideL, alongWall a b p * Real.cos pc.taperAngle = fromWall a b p * Real.sin pc.taperAngle) ∧
    ∀ p ∈ sideR, alongWall b a p * Real.cos pc.taperAngle = fromWall a b p * Real.sin pc.taperAngle :=
  C88_dimensions hp (by have := hq.angle; linarith) hr hf hfd (hitch_wall h hc)

end Chrumm.Part
