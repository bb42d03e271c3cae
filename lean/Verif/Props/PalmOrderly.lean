import Verif.Props.PalmShape
import Verif.Props.Orderly

/-! C89: a palm rest of sensible dimensions is generated or rejected. -/

namespace Chrumm.Part
open Geo Geo.Spec Spec Classical

theorem cos_ge {a : ℝ} (h : |a| ≤ Real.pi / 4) : 7 / 10 ≤ Real.cos a := by
  have hpi := Real.pi_pos
  have h1 : Real.cos (Real.pi / 4) ≤ Real.cos |a| := Real.cos_le_cos_of_nonneg_of_le_pi (abs_nonneg _) (by linarith) h
  rw [Real.cos_abs, Real.cos_pi_div_four] at h1
  have : 14 / 10 ≤ Real.sqrt 2 := Real.le_sqrt_of_sq_le (by norm_num)
  linarith

/-- The profile. -/
theorem orderly_sketch {q : Quality} {palm : PalmCfg} (inset : ℝ) (hq : 0 < q.maxChordAngle) (hh : 0 < q.maxChordHeight)
    (ht : |palm.tiltAngle| < Real.pi / 4) : Orderly (spineSketch q palm inset) := by
  have hpi := Real.pi_pos
  obtain ⟨t1, t2⟩ := abs_lt.mp ht
  have hc : Real.cos palm.tiltAngle ≠ 0 := by have := cos_ge ht.le; linarith
  have ha0 : 0 ≤ tau / 4 * max 0 (min palm.relRoofRoundness 1) := by unfold tau; exact mul_nonneg (by linarith) (le_max_left _ _)
  have ha1 : tau / 4 * max 0 (min palm.relRoofRoundness 1) ≤ Real.pi / 2 := by
    unfold tau
    have : max 0 (min palm.relRoofRoundness 1) ≤ 1 := max_le (by norm_num) (min_le_right _ _)
    nlinarith
  unfold spineSketch
  dsimp only
  refine .bind ?_ ?_
  · unfold roofEnds
    dsimp only
    exact .bind (orderly_arc hq hh (by unfold tau at *; linarith)) fun a _ => .bind (orderly_arc hq hh (by unfold tau at *; linarith)) fun b _ => .pure _
  rintro ⟨r, a, eB, arcB, arcF⟩ h1
  unfold roofEnds at h1
  dsimp only at h1
  obtain ⟨arcB', k1, h12⟩ := bind_ok h1
  obtain ⟨arcF', k2, h13⟩ := bind_ok h12
  have e := Except.ok.inj h13
  simp only [Prod.mk.injEq] at e
  obtain ⟨e1, e2, e3, e4, e5⟩ := e
  rw [e4] at k1
  rw [e5] at k2
  rw [e2] at ha0 ha1
  have nB := arc_ne hq k1
  have nF := arc_ne hq k2
  refine .bind (orderly_first nB) fun b0 _ => .bind (orderly_last nB) fun b1 _ => .bind (orderly_first nF) fun f0 _ =>
    .bind (orderly_last nF) fun f1 _ => ?_
  dsimp only
  refine .bind ?_ fun arc harc => ?_
  · unfold roofArc
    refine .bind (orderly_div hc) fun chord _ => ?_
    split_ifs with h0
    · refine .bind (orderly_div ?_) fun R _ => .bind (orderly_arc hq hh (ne_of_gt h0)) fun arc _ => .pure _
      have := Real.sin_pos_of_pos_of_lt_pi (x := a / 2) (by linarith) (by linarith)
      positivity
    · exact .pure _
  have nA : arc ≠ [] := by
    unfold roofArc at harc
    obtain ⟨chord, -, h2⟩ := bind_ok harc
    split_ifs at h2 with h0
    · obtain ⟨R, -, h4⟩ := bind_ok h2
      obtain ⟨arc0, h5, h6⟩ := bind_ok h4
      obtain rfl := Except.ok.inj h6
      have := arc_ne hq h5
      simpa [edgeScaled] using this
    · obtain rfl := Except.ok.inj h2
      simp
  have nT : ∀ v, edgeTranslated arcB v ≠ [] := fun v => by simpa [edgeTranslated] using nB
  refine .bind (orderly_last (nT _)) fun s1 _ => .bind (orderly_first nA) fun a0 _ => .bind (orderly_last ?_) fun s2 _ => .pure _
  simp [nT]

theorem orderly_spine {q : Quality} {palm : PalmCfg} (inset : ℝ) (hq : 0 < q.maxChordAngle) (hh : 0 < q.maxChordHeight)
    (ht : |palm.tiltAngle| < Real.pi / 4) : Orderly (roofSpine q palm inset) := by
  unfold roofSpine
  refine .bind (orderly_sketch inset hq hh ht) fun sk _ => .mapM fun p _ => .ok (spineLine_eq _ p)

/-- The profile is not empty. -/
theorem sketch_ne {q : Quality} {palm : PalmCfg} {inset : ℝ} {sk : List Vec} (hq : 0 < q.maxChordAngle) (h : spineSketch q palm inset = .ok sk) :
    sk ≠ [] := by
  unfold spineSketch at h
  dsimp only at h
  obtain ⟨⟨r, a, eB, arcB, arcF⟩, h1, h2⟩ := bind_ok h
  obtain ⟨b0, i1, h3⟩ := bind_ok h2
  obtain ⟨b1, i2, h4⟩ := bind_ok h3
  obtain ⟨f0, i3, h5⟩ := bind_ok h4
  obtain ⟨f1, i4, h6⟩ := bind_ok h5
  obtain ⟨arc, h7, h8⟩ := bind_ok h6
  obtain ⟨s1, i5, h9⟩ := bind_ok h8
  obtain ⟨a0, i6, h10⟩ := bind_ok h9
  obtain ⟨s2, i7, h11⟩ := bind_ok h10
  obtain rfl := Except.ok.inj h11
  obtain ⟨n, -⟩ := index_zero i1
  dsimp only at n
  simp [edgeTranslated, n]

theorem edgeOnLines_ne {pl : Plane} {ls : List Line} {e : List Vec} (h : edgeOnLines pl ls = .ok e) (hl : ls ≠ []) : e ≠ [] := by
  have := (mapM_ok h).length_eq
  rintro rfl
  exact hl (List.length_eq_zero_iff.mp this)

theorem orderly_edge {pl : Plane} {ls : List Line} (h : ∀ l ∈ ls, 1 / 1000000 ≤ |pl.normal.dot l.dir|) : Orderly (edgeOnLines pl ls) :=
  .mapM fun l hl => orderly_onLine (h l hl)

theorem orderly_fillet {q : Quality} {r s : ℝ} {c : Vec} (hq : 0 < q.maxChordAngle) (hh : 0 < q.maxChordHeight) : Orderly (filletLines q r s c) := by
  have hpi := Real.pi_pos
  unfold filletLines
  exact .bind (orderly_arc hq hh (by unfold tau; linarith)) fun arc _ => .mapM fun p _ => orderly_line (by
    intro e
    have := congrArg Vec.x e
    simp at this)

theorem filletLines_ne {q : Quality} {r s : ℝ} {c : Vec} {ls : List Line} (hq : 0 < q.maxChordAngle) (h : filletLines q r s c = .ok ls) : ls ≠ [] := by
  unfold filletLines at h
  obtain ⟨arc, h1, h2⟩ := bind_ok h
  have := (mapM_ok h2).length_eq
  rintro rfl
  exact arc_ne hq h1 (List.length_eq_zero_iff.mp this)

/-- The edges of the outer shape are not empty. -/
structure ShapeNe (s : PalmShape) : Prop where
  roofL : s.roofL ≠ []
  roofR : s.roofR ≠ []
  filletLB : s.filletLB ≠ []
  filletRB : s.filletRB ≠ []
  linesB : s.filletLinesB ≠ []
  raise : ∃ z, s.roofRaise = ⟨0, 0, z⟩

theorem taperL {t c : ℝ} : (⟨Real.cos t, -Real.sin t, 0⟩ : Vec).mirroredX = ⟨-Real.cos t, -Real.sin t, 0⟩ := rfl

theorem unit_taper (t : ℝ) : (⟨Real.cos t, -Real.sin t, 0⟩ : Vec).dot ⟨Real.cos t, -Real.sin t, 0⟩ = 1 := by
  simp only [Vec.dot]
  nlinarith [Real.sin_sq_add_cos_sq t]

theorem unit_taper' (t : ℝ) : (⟨-Real.cos t, -Real.sin t, 0⟩ : Vec).dot ⟨-Real.cos t, -Real.sin t, 0⟩ = 1 := by
  simp only [Vec.dot]
  nlinarith [Real.sin_sq_add_cos_sq t]

theorem palmShape_orderly {q : Quality} {palm : PalmCfg} {fh : ℝ} {a b : Vec} (hq : 0 < q.maxChordAngle) (hh : 0 < q.maxChordHeight)
    (ht : |palm.tiltAngle| < Real.pi / 4) (hn : |palm.tentAngle| ≤ Real.pi / 4) (hp : |palm.taperAngle| ≤ Real.pi / 4) :
    Orderly (palmShape q palm fh a b) ∧ ∀ s, palmShape q palm fh a b = .ok s → ShapeNe s := by
  have c1 := cos_ge hn
  have c2 := cos_ge hp
  have c3 : 1 / 1000000 ≤ Real.cos palm.taperAngle * Real.cos palm.tentAngle := by nlinarith
  have pL : ∀ p, Plane.make p (⟨Real.cos palm.taperAngle, -Real.sin palm.taperAngle, 0⟩ : Vec).mirroredX =
    .ok ⟨p, ⟨-Real.cos palm.taperAngle, -Real.sin palm.taperAngle, 0⟩⟩ := fun p => plane_ok (unit_taper' _)
  have pR : ∀ p, Plane.make p (⟨Real.cos palm.taperAngle, -Real.sin palm.taperAngle, 0⟩ : Vec) =
    .ok ⟨p, ⟨Real.cos palm.taperAngle, -Real.sin palm.taperAngle, 0⟩⟩ := fun p => plane_ok (unit_taper _)
  have spineD : ∀ sk : List Vec, ∀ l ∈ sk.map (spineLine palm.tentAngle), l.dir = ⟨Real.cos palm.tentAngle, 0, -Real.sin palm.tentAngle⟩ := by
    intro sk l hl
    obtain ⟨p, -, rfl⟩ := List.mem_map.mp hl
    rfl
  have dL : ∀ p : Vec, ∀ sk : List Vec, Orderly (edgeOnLines ⟨p, ⟨-Real.cos palm.taperAngle, -Real.sin palm.taperAngle, 0⟩⟩ (sk.map (spineLine palm.tentAngle))) := by
    intro p sk
    refine orderly_edge fun l hl => ?_
    rw [spineD sk l hl]
    simp only [Vec.dot]
    rw [abs_of_nonpos (by nlinarith)]
    linarith
  have dR : ∀ p : Vec, ∀ sk : List Vec, Orderly (edgeOnLines ⟨p, ⟨Real.cos palm.taperAngle, -Real.sin palm.taperAngle, 0⟩⟩ (sk.map (spineLine palm.tentAngle))) := by
    intro p sk
    refine orderly_edge fun l hl => ?_
    rw [spineD sk l hl]
    simp only [Vec.dot]
    rw [abs_of_nonneg (by nlinarith)]
    linarith
  have fL : ∀ p : Vec, ∀ ls : List Line, (∀ l ∈ ls, l.dir = ⟨1, 0, 0⟩) → Orderly (edgeOnLines ⟨p, ⟨-Real.cos palm.taperAngle, -Real.sin palm.taperAngle, 0⟩⟩ ls) := by
    intro p ls hl
    refine orderly_edge fun l h => ?_
    rw [hl l h]
    simp only [Vec.dot]
    rw [abs_of_nonpos (by nlinarith)]
    linarith
  have fR : ∀ p : Vec, ∀ ls : List Line, (∀ l ∈ ls, l.dir = ⟨1, 0, 0⟩) → Orderly (edgeOnLines ⟨p, ⟨Real.cos palm.taperAngle, -Real.sin palm.taperAngle, 0⟩⟩ ls) := by
    intro p ls hl
    refine orderly_edge fun l h => ?_
    rw [hl l h]
    simp only [Vec.dot]
    rw [abs_of_nonneg (by nlinarith)]
    linarith
  constructor
  · unfold palmShape
    dsimp only
    rw [pL, pR]
    refine .bind (.ok rfl) fun planeL e1 => .bind (.ok rfl) fun planeR e2 => ?_
    obtain rfl := Except.ok.inj e1
    obtain rfl := Except.ok.inj e2
    refine .bind (orderly_spine 0 hq hh ht) fun spine hs => ?_
    obtain ⟨sk, hsk, rfl⟩ := roofSpine_ok hs
    have nS : sk.map (spineLine palm.tentAngle) ≠ [] := by simpa using sketch_ne hq hsk
    refine .bind (dL _ _) fun L hL => .bind (dR _ _) fun R hR => ?_
    have nL := edgeOnLines_ne hL nS
    refine .bind (orderly_first nL) fun first _ => .bind (orderly_last nL) fun last _ => .bind orderly_max fun maxZ _ => .bind orderly_min fun minZ _ => ?_
    split_ifs
    · exact .value
    · refine .bind (orderly_fillet hq hh) fun lF hF => .bind (fL _ _ (filletLines_dir hF)) fun _ _ => .bind (fR _ _ (filletLines_dir hF)) fun _ _ => ?_
      exact .bind (orderly_fillet hq hh) fun lF hF => .bind (fL _ _ (filletLines_dir hF)) fun _ _ => .bind (fR _ _ (filletLines_dir hF)) fun _ _ => .pure _
  · intro s h
    unfold palmShape at h
    dsimp only at h
    obtain ⟨planeL, p1, h1⟩ := bind_ok h
    obtain ⟨planeR, p2, h2⟩ := bind_ok h1
    obtain ⟨spine, hs, h3⟩ := bind_ok h2
    obtain ⟨L, hL, h4⟩ := bind_ok h3
    obtain ⟨R, hR, h5⟩ := bind_ok h4
    obtain ⟨first, i1, h6⟩ := bind_ok h5
    obtain ⟨last, i2, h7⟩ := bind_ok h6
    obtain ⟨maxZ, hM, h8⟩ := bind_ok h7
    obtain ⟨minZ, hm, h9⟩ := bind_ok h8
    split_ifs at h9 with hc
    obtain ⟨linesF, hlF, h10⟩ := bind_ok h9
    obtain ⟨FL, hFL, h11⟩ := bind_ok h10
    obtain ⟨FR, hFR, h12⟩ := bind_ok h11
    obtain ⟨linesB, hlB, h13⟩ := bind_ok h12
    obtain ⟨BL, hBL, h14⟩ := bind_ok h13
    obtain ⟨BR, hBR, h15⟩ := bind_ok h14
    obtain rfl := Except.ok.inj h15
    obtain ⟨sk, hsk, rfl⟩ := roofSpine_ok hs
    have nS : sk.map (spineLine palm.tentAngle) ≠ [] := by simpa using sketch_ne hq hsk
    have nB := filletLines_ne hq hlB
    have nL := edgeOnLines_ne hL nS
    have nR := edgeOnLines_ne hR nS
    refine ⟨?_, ?_, edgeOnLines_ne hBL nB, edgeOnLines_ne hBR nB, nB, _, rfl⟩
    · simp [edgeTranslated, nL]
    · simp [edgeTranslated, nR]

/-- The crossing of a line along the x axis with another line at the same height. -/
theorem cross_ok {P : Vec} {Y s c : ℝ} (hu : s ^ 2 + c ^ 2 = 1) (hc : 7 / 10 ≤ c) :
    Line.intersect ⟨⟨0, Y, P.z⟩, ⟨1, 0, 0⟩⟩ ⟨P, ⟨s, c, 0⟩⟩ = .ok ⟨P.x + (Y - P.y) * s / c, Y, P.z⟩ := by
  have h := intersect_eq (l := ⟨⟨0, Y, P.z⟩, ⟨1, 0, 0⟩⟩) (m := ⟨P, ⟨s, c, 0⟩⟩) (by simp [Vec.dot]) (by simp only [Vec.dot]; linarith)
  dsimp only at h
  have hc2 : 49 / 100 ≤ c ^ 2 := by nlinarith
  have e : (⟨s, c, 0⟩ : Vec).dot ⟨1, 0, 0⟩ = s := by simp [Vec.dot]
  rw [e] at h
  have hd : 1 - s ^ 2 = c ^ 2 := by linarith
  rw [hd] at h
  rw [h, if_neg (by unfold isZero; rw [abs_of_nonneg (by positivity)]; linarith)]
  have c0 : c ≠ 0 := by linarith
  have hs : s ^ 2 = 1 - c ^ 2 := by linarith
  congr 1
  ext
  · simp [Vec.dot]
    field_simp
    linear_combination (s * Y * c - s * P.y * c - P.x * (1 + s ^ 2)) * hu
  · simp [Vec.dot]
    field_simp
    linear_combination (Y * c - c * P.y - P.x * s) * hu
  · simp [Vec.dot]
    ring


/-- The corners of the notch. -/
theorem notchCorners_ok {palm : PalmCfg} {fh o : ℝ} {s : PalmShape} (ht : |palm.taperAngle| ≤ Real.pi / 4)
    (hR : s.planeR = ⟨⟨o, 0, 0⟩, ⟨Real.cos palm.taperAngle, -Real.sin palm.taperAngle, 0⟩⟩) :
    let c := Real.cos palm.taperAngle
    let n := Real.sin palm.taperAngle
    let k := palm.floorContactWidth
    let Y := s.palmFGy + k
    notchCorners palm fh s = .ok (⟨o + ((Y + fh) * n - (k + fh)) / c, Y + fh, 0⟩, ⟨o + (Y * n - k) / c, Y, -fh⟩,
      ⟨o + (-palm.bodyMargin * n - (k + fh)) / c, -palm.bodyMargin, 0⟩, ⟨o + (-palm.bodyMargin * n - k) / c, -palm.bodyMargin, -fh⟩,
      ⟨-(c * fh), n * fh, fh⟩) := by
  dsimp only
  have hc := cos_ge ht
  have hu : Real.sin palm.taperAngle ^ 2 + Real.cos palm.taperAngle ^ 2 = 1 := Real.sin_sq_add_cos_sq _
  unfold notchCorners
  rw [hR]
  dsimp only
  generalize Real.cos palm.taperAngle = c at *
  generalize Real.sin palm.taperAngle = n at *
  have hx : (⟨1, 0, 0⟩ : Vec).dot ⟨1, 0, 0⟩ = 1 := by simp [Vec.dot]
  have ho : (⟨c, -n, 0⟩ : Vec).ortho2D = ⟨n, c, 0⟩ := by simp [Vec.ortho2D]
  have hd : (⟨n, c, 0⟩ : Vec).dot ⟨n, c, 0⟩ = 1 := by simp only [Vec.dot]; linarith
  have c0 : c ≠ 0 := by linarith
  rw [ho]
  have q1 : (⟨o, 0, 0⟩ - ((⟨0, 0, fh⟩ : Vec) + (⟨c, -n, 0⟩ : Vec) * palm.floorContactWidth) + ((⟨0, 0, fh⟩ : Vec) - (⟨c, -n, 0⟩ : Vec) * fh)) =
      ⟨o - (palm.floorContactWidth + fh) * c, (palm.floorContactWidth + fh) * n, 0⟩ := by
    ext <;> simp <;> ring
  have q2 : (⟨o, 0, 0⟩ - ((⟨0, 0, fh⟩ : Vec) + (⟨c, -n, 0⟩ : Vec) * palm.floorContactWidth)) =
      ⟨o - palm.floorContactWidth * c, palm.floorContactWidth * n, -fh⟩ := by
    ext <;> simp <;> ring
  have q3 : ((⟨0, 0, fh⟩ : Vec) - (⟨c, -n, 0⟩ : Vec) * fh) = ⟨-(c * fh), n * fh, fh⟩ := by ext <;> simp
  refine bind_ok_of (line_self hx) (bind_ok_of (line_self hx) (bind_ok_of (line_self hx) (bind_ok_of (line_self hx) (bind_ok_of (line_self hd) ?_))))
  refine bind_ok_of (a := ⟨⟨o - (palm.floorContactWidth + fh) * c, (palm.floorContactWidth + fh) * n, 0⟩, ⟨n, c, 0⟩⟩) ?_ ?_
  · unfold Line.translated
    dsimp only
    rw [q1]
    exact line_self hd
  rw [q2, q3]
  refine bind_ok_of (cross_ok (P := ⟨o - (palm.floorContactWidth + fh) * c, (palm.floorContactWidth + fh) * n, 0⟩) hu hc) ?_
  refine bind_ok_of (cross_ok (P := ⟨o - palm.floorContactWidth * c, palm.floorContactWidth * n, -fh⟩) hu hc) ?_
  refine bind_ok_of (cross_ok (P := ⟨o - (palm.floorContactWidth + fh) * c, (palm.floorContactWidth + fh) * n, 0⟩) hu hc) ?_
  refine bind_ok_of (cross_ok (P := ⟨o - palm.floorContactWidth * c, palm.floorContactWidth * n, -fh⟩) hu hc) ?_
  have key : ∀ k Y : ℝ, o - k * c + (Y - k * n) * n / c = o + (Y * n - k) / c := by
    intro k Y
    field_simp
    linear_combination (-k) * hu
  simp only [key]
  rfl

/-- The plane between the notch and the back of the palm rest is not parallel to the x axis. -/
theorem taperPlane_ok {c n fh : ℝ} (hu : n ^ 2 + c ^ 2 = 1) (hc : 7 / 10 ≤ c) (hf : 0 < fh) {w : Vec}
    (hw : (⟨-(c * fh), n * fh, fh⟩ : Vec).normalized = .ok w) (p : Vec) :
    Orderly (Plane.make p (w - ⟨c, -n, 0⟩)) ∧ ∀ pl, Plane.make p (w - ⟨c, -n, 0⟩) = .ok pl → 1 / 1000000 ≤ |pl.normal.dot ⟨1, 0, 0⟩| := by
  set r := (⟨-(c * fh), n * fh, fh⟩ : Vec).magnitude with hr
  have hr2 : r ^ 2 = 2 * fh ^ 2 := by
    rw [hr]
    unfold Vec.magnitude
    rw [Real.sq_sqrt (by nlinarith [mul_self_nonneg (c * fh), mul_self_nonneg (n * fh), mul_self_nonneg fh])]
    linear_combination fh ^ 2 * hu
  have hr0 : 0 ≤ r := Real.sqrt_nonneg _
  have hrp : 0 < r := lt_of_le_of_ne hr0 (by
    intro e
    rw [← e] at hr2
    nlinarith)
  have hrf : fh ≤ r := by nlinarith
  unfold Vec.normalized Vec.div at hw
  rw [← hr, if_neg hrp.ne'] at hw
  obtain rfl := Except.ok.inj hw
  set k := fh / r with hk
  have hk0 : 0 ≤ k := by positivity
  have hk1 : k ≤ 1 := (div_le_one hrp).mpr hrf
  have hv : (⟨-(c * fh) / r, n * fh / r, fh / r⟩ - ⟨c, -n, 0⟩ : Vec) = ⟨-(c * (1 + k)), n * (1 + k), k⟩ := by
    ext <;> simp [hk] <;> field_simp <;> ring
  rw [hv]
  set m := (⟨-(c * (1 + k)), n * (1 + k), k⟩ : Vec).magnitude with hm
  have hm2 : m ^ 2 = (1 + k) ^ 2 + k ^ 2 := by
    rw [hm]
    unfold Vec.magnitude
    rw [Real.sq_sqrt (by nlinarith [mul_self_nonneg (c * (1 + k)), mul_self_nonneg (n * (1 + k)), mul_self_nonneg k])]
    linear_combination (1 + k) ^ 2 * hu
  have hm0 : 0 ≤ m := Real.sqrt_nonneg _
  have hmp : 0 < m := by nlinarith
  have hm5 : m ≤ 3 := by nlinarith
  unfold Plane.make Vec.normalized Vec.div
  rw [← hm, if_neg hmp.ne']
  refine ⟨.ok rfl, ?_⟩
  intro pl h
  obtain rfl := Except.ok.inj h
  simp only [Vec.dot, mul_one, mul_zero, add_zero]
  rw [abs_div, abs_neg, abs_of_pos hmp, abs_of_nonneg (by nlinarith : 0 ≤ c * (1 + k)), le_div_iff₀ hmp]
  nlinarith

theorem palmNotch_orderly {q : Quality} {palm : PalmCfg} {fh o : ℝ} {s : PalmShape} (hq : 0 < q.maxChordAngle) (hh : 0 < q.maxChordHeight)
    (ht : |palm.taperAngle| ≤ Real.pi / 4) (hR : s.planeR = ⟨⟨o, 0, 0⟩, ⟨Real.cos palm.taperAngle, -Real.sin palm.taperAngle, 0⟩⟩)
    (hn : ShapeNe s) (hd : ∀ l ∈ s.filletLinesB, l.dir = ⟨1, 0, 0⟩) (hf : 0 < fh) (hr : 1 / 1000000 ≤ palm.hitchCornerRadius)
    (hY : s.palmFGy = -(palm.bodyMargin + palm.depth)) (front : palm.floorContactWidth + fh < palm.depth)
    (room : palm.floorContactWidth + fh + (palm.bodyMargin + palm.depth - palm.floorContactWidth - fh) * Real.sin palm.taperAngle <
      o * Real.cos palm.taperAngle) (lb rb : Vec) : Orderly (palmNotch q palm fh s lb rb) := by
  have hc := cos_ge ht
  have hu : Real.sin palm.taperAngle ^ 2 + Real.cos palm.taperAngle ^ 2 = 1 := Real.sin_sq_add_cos_sq _
  have c0 : 0 < Real.cos palm.taperAngle := by linarith
  unfold palmNotch
  rw [notchCorners_ok ht hR, hR]
  refine .bind (.ok rfl) fun x hx => ?_
  obtain rfl := Except.ok.inj hx
  dsimp only
  refine .bind (orderly_normalized ?_) fun w hw => ?_
  · intro e
    have := congrArg Vec.z e
    exact hf.ne' this
  obtain ⟨o1, o2⟩ := taperPlane_ok hu hc hf hw ⟨o + (-palm.bodyMargin * Real.sin palm.taperAngle - palm.floorContactWidth) / Real.cos palm.taperAngle,
    -palm.bodyMargin, -fh⟩
  refine .bind o1 fun pl hpl => .bind (orderly_edge fun l hl => ?_) fun RG hRG => ?_
  · rw [hd l hl]
    exact o2 pl hpl
  have nRG := edgeOnLines_ne hRG hn.linesB
  refine .bind (orderly_corner hq hh hr ?_) fun cRT _ => .bind (orderly_div (by linarith)) fun ratio _ => ?_
  · simp only [left, Vec.yz]
    rw [hY]
    have : 0 < o + ((-(palm.bodyMargin + palm.depth) + palm.floorContactWidth + fh) * Real.sin palm.taperAngle - (palm.floorContactWidth + fh)) /
        Real.cos palm.taperAngle := by
      have : o + ((-(palm.bodyMargin + palm.depth) + palm.floorContactWidth + fh) * Real.sin palm.taperAngle - (palm.floorContactWidth + fh)) /
          Real.cos palm.taperAngle = (o * Real.cos palm.taperAngle -
            (palm.floorContactWidth + fh + (palm.bodyMargin + palm.depth - palm.floorContactWidth - fh) * Real.sin palm.taperAngle)) /
              Real.cos palm.taperAngle := by
        field_simp
        ring
      rw [this]
      exact div_pos (by linarith) c0
    generalize o + ((-(palm.bodyMargin + palm.depth) + palm.floorContactWidth + fh) * Real.sin palm.taperAngle - (palm.floorContactWidth + fh)) /
        Real.cos palm.taperAngle = x at *
    have h2 : 0 < (-palm.bodyMargin - (-(palm.bodyMargin + palm.depth) + palm.floorContactWidth + fh)) * x := mul_pos (by linarith) this
    rw [sub_self, mul_zero, zero_sub, zero_sub, mul_neg, neg_neg]
    exact h2.ne'
  have nRT : ∀ v, edgeTranslated RG v ≠ [] := fun v => by simpa [edgeTranslated] using nRG
  have nm : ∀ {l : List Vec}, l ≠ [] → l.map Vec.mirroredX ≠ [] := fun h => by simpa using h
  refine .bind (orderly_first (nRT _)) fun _ _ => .bind (orderly_first nRG) fun _ _ => .bind (orderly_last hn.filletLB) fun _ _ =>
    .bind (orderly_first hn.roofL) fun _ _ => .bind (orderly_first hn.roofR) fun _ _ => .bind (orderly_last hn.filletRB) fun _ _ =>
    .bind (orderly_last (nm nRG)) fun _ _ => .bind (orderly_last (nm (nRT _))) fun _ _ => .bind (orderly_last (nRT _)) fun _ _ =>
    .bind (orderly_last nRG) fun _ _ => ?_
  split_ifs
  · exact .value
  · exact .pure _

theorem grooveEdge_ends {pl : Plane} {ls : List Line} {fo : Vec} {e : List Vec} (h : grooveEdge pl ls fo = .ok e) :
    ∃ u v m, e = (u.xy - fo) :: (m ++ [v.xy - fo]) ∧ m ≠ [] ∧ OnPlane pl.pos pl.normal u ∧ OnPlane pl.pos pl.normal v := by
  unfold grooveEdge at h
  obtain ⟨E, h1, h2⟩ := bind_ok h
  obtain ⟨u, h3, h4⟩ := bind_ok h2
  dsimp only at h4
  obtain ⟨v, h5, h6⟩ := bind_ok h4
  obtain rfl := Except.ok.inj h6
  obtain ⟨n, rfl⟩ := index_zero h3
  obtain ⟨-, rfl⟩ := index_last h5
  have hm := edgeOnLines_mem h1
  refine ⟨_, _, E, rfl, n, (hm _ ?_).1, (hm _ ?_).1⟩
  · rw [headD_eq n]; exact List.head_mem n
  · rw [getLastD_cons _ n, getLastD_eq n]; exact List.getLast_mem n

theorem orderly_grooveEdge {pl : Plane} {ls : List Line} {fo : Vec} (hl : ls ≠ []) (h : ∀ l ∈ ls, 1 / 1000000 ≤ |pl.normal.dot l.dir|) :
    Orderly (grooveEdge pl ls fo) := by
  unfold grooveEdge
  refine .bind (orderly_edge h) fun E hE => ?_
  have n := edgeOnLines_ne hE hl
  exact .bind (orderly_first n) fun u _ => .bind (orderly_last (by simp)) fun v _ => .pure _

theorem orderly_clamp {size : ℝ} {a b c d : Vec} (h : a.xy ≠ d.xy) : Orderly (clamp size a b c d) := by
  unfold clamp
  refine .bind (orderly_normalized fun e => h ?_) fun _ _ => .pure _
  have h1 := congrArg Vec.x e
  have h2 := congrArg Vec.y e
  simp [Vec.ortho2D] at h1 h2
  ext
  · simp [Vec.xy]; linarith
  · simp [Vec.xy]; linarith
  · rfl

/-- What is on parallel upright planes is apart. -/
theorem planes_apart {p n u v : Vec} {w : ℝ} (hn : n.dot n = 1) (hz : n.z = 0) (hw : 0 < w) (hu : OnPlane p n u) (hv : OnPlane (p - n * w) n v) (fo : Vec) :
    (u.xy - fo).xy ≠ (v.xy - fo).xy := by
  intro e
  have h1 := congrArg Vec.x e
  have h2 := congrArg Vec.y e
  simp [Vec.xy] at h1 h2
  simp only [OnPlane, Vec.dot, Vec.sub_x, Vec.sub_y, Vec.sub_z, Vec.mul_x, Vec.mul_y, Vec.mul_z, hz] at *
  rw [h1, h2] at hu
  nlinarith

/-- What is known about a groove. -/
structure GrooveEnds (g : Groove) : Prop where
  all : ∀ e ∈ [g.LTO, g.LGO, g.RTO, g.RGO, g.LTI, g.LGI, g.RTI, g.RGI], ∃ a m b, e = a :: (m ++ [b]) ∧ m ≠ []
  left0 : (g.LGO.headD 0).xy ≠ (g.LGI.headD 0).xy
  left1 : (g.LGO.getLastD 0).xy ≠ (g.LGI.getLastD 0).xy
  right0 : (g.RGO.headD 0).xy ≠ (g.RGI.headD 0).xy
  right1 : (g.RGO.getLastD 0).xy ≠ (g.RGI.getLastD 0).xy

theorem last_cons_append (a : Vec) (m : List Vec) (b : Vec) : (a :: (m ++ [b])).getLastD 0 = b := by
  rw [getLastD_eq (by simp), List.getLast_cons (by simp), List.getLast_append_singleton]

theorem groove_orderly {q : Quality} {palm : PalmCfg} {fh o : ℝ} {s : PalmShape} {gc : GrooveCfg} (hq : 0 < q.maxChordAngle) (hh : 0 < q.maxChordHeight)
    (htilt : |palm.tiltAngle| < Real.pi / 4) (hn : |palm.tentAngle| ≤ Real.pi / 4) (ht : |palm.taperAngle| ≤ Real.pi / 4)
    (hL : s.planeL = ⟨⟨-o, 0, 0⟩, ⟨-Real.cos palm.taperAngle, -Real.sin palm.taperAngle, 0⟩⟩)
    (hR : s.planeR = ⟨⟨o, 0, 0⟩, ⟨Real.cos palm.taperAngle, -Real.sin palm.taperAngle, 0⟩⟩) (hw : 0 < gc.width) :
    Orderly (Groove.make q palm fh s gc) ∧ ∀ g, Groove.make q palm fh s gc = .ok g → GrooveEnds g := by
  have c1 := cos_ge hn
  have c2 := cos_ge ht
  have c3 : 1 / 1000000 ≤ Real.cos palm.taperAngle * Real.cos palm.tentAngle := by nlinarith
  have uL := unit_taper' palm.taperAngle
  have uR := unit_taper palm.taperAngle
  constructor
  · unfold Groove.make
    split_ifs
    · exact .value
    dsimp only
    rw [hL, hR]
    dsimp only
    have hu : (⟨Real.cos palm.tentAngle, 0, -Real.sin palm.tentAngle⟩ : Vec).dot ⟨Real.cos palm.tentAngle, 0, -Real.sin palm.tentAngle⟩ = 1 := by
      simp only [Vec.dot]
      nlinarith [Real.sin_sq_add_cos_sq palm.tentAngle]
    have moved : ∀ sk : List Vec, Orderly ((sk.map (spineLine palm.tentAngle)).mapM fun l => l.translated s.roofRaise) ∧
        ∀ ls, ((sk.map (spineLine palm.tentAngle)).mapM fun l => l.translated s.roofRaise) = .ok ls → sk ≠ [] → ls ≠ [] ∧
          ∀ l ∈ ls, l.dir = ⟨Real.cos palm.tentAngle, 0, -Real.sin palm.tentAngle⟩ := by
      intro sk
      constructor
      · refine .mapM fun l hl => ?_
        obtain ⟨p, -, rfl⟩ := List.mem_map.mp hl
        exact .ok (line_self hu)
      · intro ls h hne
        have hl := (mapM_ok h).length_eq
        refine ⟨?_, ?_⟩
        · rintro rfl
          exact hne (by simpa using hl)
        · intro l hl
          obtain ⟨l0, h0, h1⟩ := forall₂_of_right (mapM_ok h) hl
          obtain ⟨p, -, rfl⟩ := List.mem_map.mp h0
          rw [← Except.ok.inj ((line_self hu).symm.trans h1)]
    refine .bind (orderly_spine _ hq hh htilt) fun T hT => .bind (orderly_spine _ hq hh htilt) fun G hG => ?_
    obtain ⟨skT, hskT, rfl⟩ := roofSpine_ok hT
    obtain ⟨skG, hskG, rfl⟩ := roofSpine_ok hG
    have nT := sketch_ne hq hskT
    have nG := sketch_ne hq hskG
    refine .bind (moved _).1 fun T hT' => .bind (moved _).1 fun G hG' => ?_
    obtain ⟨nT', dT⟩ := (moved _).2 T hT' nT
    obtain ⟨nG', dG⟩ := (moved _).2 G hG' nG
    rw [plane_ok uL, plane_ok uR]
    refine .bind (.ok rfl) fun planeL e1 => .bind (.ok rfl) fun planeR e2 => ?_
    obtain rfl := Except.ok.inj e1
    obtain rfl := Except.ok.inj e2
    have gL : ∀ p fo : Vec, ∀ ls : List Line, ls ≠ [] → (∀ l ∈ ls, l.dir = ⟨Real.cos palm.tentAngle, 0, -Real.sin palm.tentAngle⟩) →
        Orderly (grooveEdge ⟨p, ⟨-Real.cos palm.taperAngle, -Real.sin palm.taperAngle, 0⟩⟩ ls fo) := by
      intro p fo ls n hl
      refine orderly_grooveEdge n fun l h => ?_
      rw [hl l h]
      simp only [Vec.dot]
      rw [abs_of_nonpos (by nlinarith)]
      linarith
    have gR : ∀ p fo : Vec, ∀ ls : List Line, ls ≠ [] → (∀ l ∈ ls, l.dir = ⟨Real.cos palm.tentAngle, 0, -Real.sin palm.tentAngle⟩) →
        Orderly (grooveEdge ⟨p, ⟨Real.cos palm.taperAngle, -Real.sin palm.taperAngle, 0⟩⟩ ls fo) := by
      intro p fo ls n hl
      refine orderly_grooveEdge n fun l h => ?_
      rw [hl l h]
      simp only [Vec.dot]
      rw [abs_of_nonneg (by nlinarith)]
      linarith
    exact .bind (gL _ _ _ nT' dT) fun _ _ => .bind (gL _ _ _ nG' dG) fun _ _ => .bind (gR _ _ _ nT' dT) fun _ _ => .bind (gR _ _ _ nG' dG) fun _ _ =>
      .bind (gL _ _ _ nT' dT) fun _ _ => .bind (gL _ _ _ nG' dG) fun _ _ => .bind (gR _ _ _ nT' dT) fun _ _ => .bind (gR _ _ _ nG' dG) fun _ _ => .pure _
  · intro g h
    unfold Groove.make at h
    split_ifs at h
    dsimp only at h
    rw [hL, hR] at h
    dsimp only at h
    obtain ⟨T0, -, h1⟩ := bind_ok h
    obtain ⟨G0, -, h2⟩ := bind_ok h1
    obtain ⟨T, -, h3⟩ := bind_ok h2
    obtain ⟨G, -, h4⟩ := bind_ok h3
    obtain ⟨pLI, k1, h5⟩ := bind_ok h4
    obtain ⟨pRI, k2, h6⟩ := bind_ok h5
    obtain ⟨LTO, e1, h7⟩ := bind_ok h6
    obtain ⟨LGO, e2, h8⟩ := bind_ok h7
    obtain ⟨RTO, e3, h9⟩ := bind_ok h8
    obtain ⟨RGO, e4, h10⟩ := bind_ok h9
    obtain ⟨LTI, e5, h11⟩ := bind_ok h10
    obtain ⟨LGI, e6, h12⟩ := bind_ok h11
    obtain ⟨RTI, e7, h13⟩ := bind_ok h12
    obtain ⟨RGI, e8, h14⟩ := bind_ok h13
    obtain rfl := Except.ok.inj h14
    rw [plane_ok uL] at k1
    rw [plane_ok uR] at k2
    obtain rfl := Except.ok.inj k1
    obtain rfl := Except.ok.inj k2
    obtain ⟨u1, v1, m1, rfl, n1, a1, b1⟩ := grooveEdge_ends e1
    obtain ⟨u2, v2, m2, rfl, n2, a2, b2⟩ := grooveEdge_ends e2
    obtain ⟨u3, v3, m3, rfl, n3, a3, b3⟩ := grooveEdge_ends e3
    obtain ⟨u4, v4, m4, rfl, n4, a4, b4⟩ := grooveEdge_ends e4
    obtain ⟨u5, v5, m5, rfl, n5, a5, b5⟩ := grooveEdge_ends e5
    obtain ⟨u6, v6, m6, rfl, n6, a6, b6⟩ := grooveEdge_ends e6
    obtain ⟨u7, v7, m7, rfl, n7, a7, b7⟩ := grooveEdge_ends e7
    obtain ⟨u8, v8, m8, rfl, n8, a8, b8⟩ := grooveEdge_ends e8
    refine ⟨?_, ?_, ?_, ?_, ?_⟩
    · intro e he
      simp only [List.mem_cons, List.not_mem_nil, or_false] at he
      rcases he with rfl | rfl | rfl | rfl | rfl | rfl | rfl | rfl
      · exact ⟨_, _, _, rfl, n1⟩
      · exact ⟨_, _, _, rfl, n2⟩
      · exact ⟨_, _, _, rfl, n3⟩
      · exact ⟨_, _, _, rfl, n4⟩
      · exact ⟨_, _, _, rfl, n5⟩
      · exact ⟨_, _, _, rfl, n6⟩
      · exact ⟨_, _, _, rfl, n7⟩
      · exact ⟨_, _, _, rfl, n8⟩
    · exact planes_apart uL rfl hw a2 a6 _
    · dsimp only
      rw [last_cons_append, last_cons_append]
      exact planes_apart uL rfl hw b2 b6 _
    · exact planes_apart uR rfl hw a4 a8 _
    · dsimp only
      rw [last_cons_append, last_cons_append]
      exact planes_apart uR rfl hw b4 b8 _

theorem index_ends (a : Vec) (m : List Vec) (b : Vec) (hm : m ≠ []) :
    pyIndex (a :: (m ++ [b])) 0 = .ok a ∧ (∃ x, pyIndex (a :: (m ++ [b])) 1 = .ok x) ∧ pyIndex (a :: (m ++ [b])) (-1) = .ok b ∧
      ∃ x, pyIndex (a :: (m ++ [b])) (-2) = .ok x := by
  refine ⟨pyIndex_zero.mpr rfl, ?_, ?_, ?_⟩
  · cases m with
    | nil => exact absurd rfl hm
    | cons c m => exact ⟨c, pyIndex_one.mpr rfl⟩
  · refine pyIndex_last.mpr ?_
    rw [List.getLast?_eq_some_getLast (by simp), List.getLast_cons (by simp), List.getLast_append_singleton]
  · unfold pyIndex
    rw [if_neg (by norm_num), if_pos (by simp; omega)]
    have : (-2 + ((a :: (m ++ [b])).length : ℤ)).toNat < (a :: (m ++ [b])).length := by simp
    exact ⟨_, pyGet_ok.mpr (List.getElem?_eq_getElem this)⟩

theorem grooveParts_orderly {q : Quality} {palm : PalmCfg} {fh o : ℝ} {s : PalmShape} {gc : Option GrooveCfg} (hq : 0 < q.maxChordAngle)
    (hh : 0 < q.maxChordHeight) (htilt : |palm.tiltAngle| < Real.pi / 4) (hn : |palm.tentAngle| ≤ Real.pi / 4) (ht : |palm.taperAngle| ≤ Real.pi / 4)
    (hL : s.planeL = ⟨⟨-o, 0, 0⟩, ⟨-Real.cos palm.taperAngle, -Real.sin palm.taperAngle, 0⟩⟩)
    (hR : s.planeR = ⟨⟨o, 0, 0⟩, ⟨Real.cos palm.taperAngle, -Real.sin palm.taperAngle, 0⟩⟩) (hw : ∀ g ∈ gc, 0 < g.width) (place : Vec → Vec) :
    Orderly (grooveParts q palm fh s place gc) := by
  cases gc with
  | none => exact .pure _
  | some gc =>
    obtain ⟨o1, o2⟩ := groove_orderly (fh := fh) hq hh htilt hn ht hL hR (hw gc rfl)
    unfold grooveParts
    dsimp only
    refine .bind o1 fun g hg => ?_
    obtain ⟨all, l0, l1, r0, r1⟩ := o2 g hg
    obtain ⟨LTO, LGO, RTO, RGO, LTI, LGI, RTI, RGI⟩ := g
    dsimp only at all l0 l1 r0 r1
    obtain ⟨a1, m1, b1, rfl, n1⟩ := all LTO (by simp)
    obtain ⟨a2, m2, b2, rfl, n2⟩ := all LGO (by simp)
    obtain ⟨a3, m3, b3, rfl, n3⟩ := all RTO (by simp)
    obtain ⟨a4, m4, b4, rfl, n4⟩ := all RGO (by simp)
    obtain ⟨a5, m5, b5, rfl, n5⟩ := all LTI (by simp)
    obtain ⟨a6, m6, b6, rfl, n6⟩ := all LGI (by simp)
    obtain ⟨a7, m7, b7, rfl, n7⟩ := all RTI (by simp)
    obtain ⟨a8, m8, b8, rfl, n8⟩ := all RGI (by simp)
    clear all hg o1 o2
    rw [last_cons_append, last_cons_append] at l1 r1
    simp only [List.headD_cons] at l0 r0
    obtain ⟨i1, ⟨x1, j1⟩, k1, ⟨y1, z1⟩⟩ := index_ends a1 m1 b1 n1
    obtain ⟨i2, ⟨x2, j2⟩, k2, ⟨y2, z2⟩⟩ := index_ends a2 m2 b2 n2
    obtain ⟨i3, ⟨x3, j3⟩, k3, ⟨y3, z3⟩⟩ := index_ends a3 m3 b3 n3
    obtain ⟨i4, ⟨x4, j4⟩, k4, ⟨y4, z4⟩⟩ := index_ends a4 m4 b4 n4
    obtain ⟨i5, ⟨x5, j5⟩, k5, ⟨y5, z5⟩⟩ := index_ends a5 m5 b5 n5
    obtain ⟨i6, ⟨x6, j6⟩, k6, ⟨y6, z6⟩⟩ := index_ends a6 m6 b6 n6
    obtain ⟨i7, ⟨x7, j7⟩, k7, ⟨y7, z7⟩⟩ := index_ends a7 m7 b7 n7
    obtain ⟨i8, ⟨x8, j8⟩, k8, ⟨y8, z8⟩⟩ := index_ends a8 m8 b8 n8
    refine .bind ?_ fun ground _ => .bind ?_ fun ends _ => .pure _
    · unfold grooveGround
      split
      · dsimp only
        refine .step i2 (.step j2 (.step j6 (.step i6 (.bind (orderly_clamp l0) fun _ _ => ?_))))
        refine .step i8 (.step j8 (.step j4 (.step i4 (.bind (orderly_clamp r0.symm) fun _ _ => ?_))))
        refine .step k6 (.step z6 (.step z2 (.step k2 (.bind (orderly_clamp l1.symm) fun _ _ => ?_))))
        exact .step k4 (.step z4 (.step z8 (.step k8 (.bind (orderly_clamp r1) fun _ _ => .pure _))))
      · exact .pure _
    · unfold grooveEnds
      dsimp only
      refine .bind ?_ fun _ _ => .bind ?_ fun _ _ => .bind ?_ fun _ _ => .bind ?_ fun _ _ => .pure _
      all_goals
        refine .mapM fun e he => ?_
        simp only [List.mem_cons, List.not_mem_nil, or_false] at he
        rcases he with rfl | rfl | rfl | rfl
        all_goals first
          | exact orderly_first (by simp)
          | exact orderly_last (by simp)

theorem palmBumpers_orderly {q : Quality} {palm : PalmCfg} {fh o : ℝ} {s : PalmShape} {bc : Option BumperCfg} (ht : |palm.taperAngle| ≤ Real.pi / 4)
    (hL : s.planeL = ⟨⟨-o, 0, 0⟩, ⟨-Real.cos palm.taperAngle, -Real.sin palm.taperAngle, 0⟩⟩)
    (hb : ∀ c ∈ bc, 1 ≤ c.diameter ∧ SaneQuality q ∧ q.maxChordHeight ≤ c.diameter) : Orderly (palmBumpers q fh palm s bc) := by
  cases bc with
  | none => exact .pure _
  | some bc =>
    obtain ⟨b1, b2, b3⟩ := hb bc rfl
    have c2 := cos_ge ht
    have c3 : 49 / 100 ≤ Real.cos palm.taperAngle ^ 2 := by nlinarith
    have hu : Real.sin palm.taperAngle ^ 2 + Real.cos palm.taperAngle ^ 2 = 1 := Real.sin_sq_add_cos_sq _
    unfold palmBumpers
    dsimp only
    refine .bind ?_ fun ps _ => .mapM fun pos _ => .ex (C59_succeeds q fh bc pos false b2 b1 b3)
    unfold palmBumperPos
    dsimp only
    rw [hL]
    dsimp only
    have ho : (⟨-Real.cos palm.taperAngle, -Real.sin palm.taperAngle, 0⟩ : Vec).ortho2D = ⟨Real.sin palm.taperAngle, -Real.cos palm.taperAngle, 0⟩ := by
      simp [Vec.ortho2D]
    have hd : (⟨Real.sin palm.taperAngle, -Real.cos palm.taperAngle, 0⟩ : Vec).dot ⟨Real.sin palm.taperAngle, -Real.cos palm.taperAngle, 0⟩ = 1 := by
      simp only [Vec.dot]; linarith
    have hx : (⟨1, 0, 0⟩ : Vec).dot ⟨1, 0, 0⟩ = 1 := by simp [Vec.dot]
    rw [ho, line_self hx, line_self hx, line_self hd]
    refine .bind (.ok rfl) fun l1 e1 => .bind (.ok rfl) fun l2 e2 => .bind (.ok rfl) fun l3 e3 => ?_
    obtain rfl := Except.ok.inj e1
    obtain rfl := Except.ok.inj e2
    obtain rfl := Except.ok.inj e3
    refine .bind (orderly_lines hd hx ?_) fun _ _ => .bind (orderly_lines hd hx ?_) fun _ _ => .pure _
    all_goals
      simp only [Vec.dot]
      linarith

/-- **C89.** A palm rest of sensible dimensions is generated, or rejected with a `ValueError`; there is no other exception. -/
theorem C89_palm {cfg : KeyboardCfg} {palm : PalmCfg} {points : Points} {hi : Hitch}
    (hs : SaneRest cfg palm (Real.sqrt (distSq2D points.thumbOLF points.pinkyORF))) : Orderly (Palm.make cfg palm points hi) := by
  have hm : (points.pinkyORF.xy - points.thumbOLF.xy).magnitude = Real.sqrt (distSq2D points.thumbOLF points.pinkyORF) := by
    unfold Vec.magnitude distSq2D
    congr 1
    simp [Vec.xy]
    ring
  unfold Palm.make
  dsimp only
  refine .bind ?_ fun matrix _ => ?_
  · unfold palmMatrix
    exact .bind (orderly_vecDiv (by norm_num)) fun _ _ => .pure _
  obtain ⟨o1, o2⟩ := palmShape_orderly (fh := cfg.floor.outerHeight) (a := points.thumbOLF.xy) (b := points.pinkyORF.xy) hs.angle hs.chord hs.roof.tilt hs.tent
    hs.taper
  refine .bind o1 fun s h => ?_
  have ne := o2 s h
  obtain ⟨ok, eL, eR⟩ := palmShape_ok h hs.angle hs.roof hs.fillet hs.fillet'
  rw [hm] at eL eR
  refine .bind (palmNotch_orderly hs.angle hs.chord hs.taper eR ne ok.lines hs.floor hs.radius ok.front hs.front hs.room _ _) fun n hn => ?_
  refine .bind (grooveParts_orderly hs.angle hs.chord hs.roof.tilt hs.tent hs.taper eL eR hs.groove _) fun g hg => ?_
  refine .bind (palmBumpers_orderly hs.taper eL hs.bumper) fun bs _ => ?_
  refine .bind ?_ fun faces _ => .pure _
  unfold palmFaces
  exact .bind (orderly_first ne.filletRB) fun _ _ => .bind (orderly_last ne.roofR) fun _ _ => .bind (orderly_last ne.roofL) fun _ _ =>
    .bind (orderly_first ne.filletLB) fun _ _ => .pure _

end Chrumm.Part
