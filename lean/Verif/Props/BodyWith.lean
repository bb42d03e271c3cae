import Verif.Props.BodyBrackets

/-! A whole body with brackets and a cable hole can be made. -/

namespace Chrumm.Part
open Geo Geo.Spec Spec

/-! ## The brackets -/

/-- The example with brackets, and perhaps with a cable. -/
noncomputable def exCfgB (W H : ℝ) (oc : Option CableCfg) : KeyboardCfg := { exCfg W H with bracket := some exBracket, cable := oc }

theorem exBracketQ : SaneBracket exQuality exBracket := by
  have h := exBracket_sane
  exact ⟨exQuality_angle, by norm_num [exQuality], h.hole, by norm_num [exQuality, exBracket], h.bore, by norm_num [exQuality, exBracket], h.corner,
    by norm_num [exQuality, exBracket], h.nut, h.taper, h.taper', h.wall, h.base, h.apex, h.side⟩

theorem exZipQ : SaneZip exQuality exBracket exCable := by
  have := Real.pi_pos
  constructor <;> simp only [exBracket, exCable, exampleCable, exQuality] <;> first | linarith | norm_num

theorem exNut : max (exBracket.counterboreDiameter / 2) exBracket.nutRadius ≤ 4 := by
  refine max_le (by norm_num [exBracket]) ?_
  have : (1.7 : ℝ) ≤ Real.sqrt 3 := Real.le_sqrt_of_sq_le (by norm_num)
  unfold BracketCfg.nutRadius exBracket
  rw [div_le_iff₀ (by linarith)]
  norm_num at this ⊢
  linarith

theorem exReach : bracketReach exBracket ≤ 20 := by
  have h := exNut
  have s2 : (8 / 5 : ℝ) ≤ Real.sqrt 3 := Real.le_sqrt_of_sq_le (by norm_num)
  unfold bracketReach
  generalize max (exBracket.counterboreDiameter / 2) exBracket.nutRadius = R at *
  have : (2 * R + exBracket.taperMargin + exBracket.baseMargin) / Real.cos exBracket.taperAngle ≤ 13 := by
    have e : Real.cos exBracket.taperAngle = Real.sqrt 3 / 2 := Real.cos_pi_div_six
    rw [e, div_le_iff₀ (by linarith)]
    norm_num [exBracket]
    linarith
  norm_num [exBracket] at this ⊢
  linarith

theorem exLow {a c : Vec} {x : ℝ} (hx : x ≤ 1) (h : c.y - a.y ≤ 1) : a.z - 20 ≤ bracketLow exBracket a c x := by
  have hR := exNut
  unfold bracketLow
  generalize max (exBracket.counterboreDiameter / 2) exBracket.nutRadius = R at *
  have : max 0 (c.y - a.y) ≤ 1 := max_le (by norm_num) h
  norm_num [exBracket]
  linarith

/-- The example's checks hold. -/
theorem exChecks {p : Points} {r : Ridge} {i : InnerRim} {f b : CornerBracket} {lip xL y1 yF : ℝ} {fy z : ℝ} {w : Vec} {ws : List Vec}
    (hp : p.ridgeIRF = ⟨xL / 2, (yF + y1) / 2 + 4, z⟩) (hx : xL = yF - y1 + 1) (hy : 55 ≤ yF - y1)
    (l1 : |r.ilft.y - y1 - 1 / 2| ≤ 1 / 1000000) (l2 : xL - 3 ≤ r.ilft.x) (l3 : r.ilft.x ≤ xL + 12)
    (f1 : f.roofEdge = [⟨9 / 2, r.ilft.y, r.ilft.z⟩, ⟨9 / 2, fy, r.ilft.z⟩, ⟨0, fy, r.ilft.z⟩]) (f2 : fy ≤ y1 + 20) (f3 : f.splitEdge ≠ [])
    (f4 : ∀ v ∈ f.splitEdge, lip + 1 ≤ v.z ∧ v.y ≤ y1 + 20)
    (b1 : b.wallEdge = ws ++ [w]) (b2 : w.x = 9 / 2) (b3 : i.alnumILBC.x = xL) (b4 : b.splitEdge ≠ []) (b5 : ∀ v ∈ b.splitEdge, lip + 1 ≤ v.z) :
    bracketChecks p r i f b lip = .ok () := by
  have k1 := abs_le.mp l1
  have hD : r.ilft - p.ridgeIRF ≠ 0 := by
    intro e
    have := congrArg Vec.x e
    rw [hp] at this
    simp only [Vec.sub_x, Vec.zero_x] at this
    linarith
  obtain ⟨d, e1, -⟩ := Vec.normalized_ok _ hD
  have eL : Line.make p.ridgeIRF (r.ilft - p.ridgeIRF) = .ok ⟨p.ridgeIRF, d⟩ := by
    unfold Line.make
    rw [e1]
    rfl
  obtain ⟨-, k, hk, ed⟩ := normalized_unit e1
  have ex := congrArg Vec.x ed
  have ey := congrArg Vec.y ed
  rw [hp] at ex ey
  simp only [Vec.sub_x, Vec.sub_y, Vec.mul_x, Vec.mul_y] at ex ey
  have dx : d.x ≠ 0 := by
    intro e
    rw [e] at ex
    linarith
  obtain ⟨u, e2⟩ := normalized2D_of (v := d) (.inl dx)
  obtain ⟨m0, um, u1, -⟩ := normalized2D_ok e2
  have ux : u.x * d.magnitude2D = d.x := (congrArg Vec.x um).symm
  have uy : u.y * d.magnitude2D = d.y := (congrArg Vec.y um).symm
  clear um
  generalize d.magnitude2D = m at *
  have hK : 0 < m * k := mul_pos m0 hk
  have Ux : u.x * (m * k) = r.ilft.x - xL / 2 := by rw [← mul_assoc, ux]; linarith
  have Uy : u.y * (m * k) = r.ilft.y - ((yF + y1) / 2 + 4) := by rw [← mul_assoc, uy]; linarith
  have sgnx : 0 < u.x := by
    by_contra hc
    nlinarith
  have sgny : u.y < 0 := by
    by_contra hc
    nlinarith
  have dist : ∀ v : Vec, v.x ≤ 9 / 2 → v.y ≤ y1 + 20 → (⟨p.ridgeIRF, d⟩ : Line).distance2D v =
      .ok (u.x * ((yF + y1) / 2 + 4 - v.y) - u.y * (xL / 2 - v.x)) ∧ 1 ≤ u.x * ((yF + y1) / 2 + 4 - v.y) - u.y * (xL / 2 - v.x) := by
    intro v v1 v2
    constructor
    · unfold Line.distance2D
      exact bind_ok_of e2 (by rw [hp]; rfl)
    · have w1 : 10 ≤ (yF + y1) / 2 + 4 - v.y := by linarith
      have w2 : 10 ≤ xL / 2 - v.x := by linarith
      have n1 : u.x ≤ 1 := by nlinarith
      have n2 : -1 ≤ u.y := by nlinarith
      nlinarith
  have dm : ∃ ds, f.roofEdge.mapM (⟨p.ridgeIRF, d⟩ : Line).distance2D = .ok ds ∧ ds ≠ [] ∧ ∀ x ∈ ds, 1 ≤ x := by
    rw [f1]
    obtain ⟨w1, q1, q1'⟩ : ∃ w, _ = Except.ok w ∧ 1 ≤ w := ⟨_, dist ⟨9 / 2, r.ilft.y, r.ilft.z⟩ le_rfl (by dsimp only; linarith)⟩
    obtain ⟨w2, q2, q2'⟩ : ∃ w, _ = Except.ok w ∧ 1 ≤ w := ⟨_, dist ⟨9 / 2, fy, r.ilft.z⟩ le_rfl f2⟩
    obtain ⟨w3, q3, q3'⟩ : ∃ w, _ = Except.ok w ∧ 1 ≤ w := ⟨_, dist ⟨0, fy, r.ilft.z⟩ (by norm_num) f2⟩
    refine ⟨[w1, w2, w3], ?_, ?_, ?_⟩
    · rw [List.mapM_cons, List.mapM_cons, List.mapM_cons, q1, q2, q3]
      rfl
    · simp
    · simp only [List.mem_cons, List.not_mem_nil, or_false]
      rintro x (rfl | rfl | rfl) <;> assumption
  obtain ⟨ds, m1, m2, m3⟩ := dm
  obtain ⟨maxY, j1⟩ := pyMax_of (l := f.splitEdge.map Vec.y) (by simpa using f3)
  obtain ⟨gap, j2⟩ := pyMin_of m2
  obtain ⟨minZ, j3⟩ := pyMin_of (l := f.splitEdge.map Vec.z) (by simpa using f3)
  obtain ⟨minB, j4⟩ := pyMin_of (l := b.splitEdge.map Vec.z) (by simpa using b4)
  have g1 : maxY ≤ y1 + 20 := by
    obtain ⟨v, hv, rfl⟩ := List.mem_map.mp (pyMax_ok j1).1
    exact (f4 v hv).2
  have g2 := m3 _ (pyMin_ok j2).1
  have g3 : lip + 1 ≤ minZ := by
    obtain ⟨v, hv, rfl⟩ := List.mem_map.mp (pyMin_ok j3).1
    exact (f4 v hv).1
  have g4 : lip + 1 ≤ minB := by
    obtain ⟨v, hv, rfl⟩ := List.mem_map.mp (pyMin_ok j4).1
    exact b5 v hv
  have jw : pyIndex b.wallEdge (-1) = .ok w := pyIndex_last.mpr (by rw [b1]; simp)
  unfold bracketChecks
  rw [eL, value_bind, j1, value_bind]
  dsimp only
  rw [m1, value_bind, j2, value_bind, j3, value_bind]
  have c1 : ¬ (p.ridgeIRF.y - maxY < 1 / 1000 ∨ gap < 1 / 1000 ∨ minZ - lip < 1 / 1000) := by
    rw [hp]
    simp only [not_or, not_lt]
    refine ⟨?_, ?_, ?_⟩ <;> linarith
  rw [if_neg c1, jw, value_bind, j4, value_bind]
  have c2 : ¬ (i.alnumILBC.x - w.x < 1 / 1000 ∨ minB - lip < 1 / 1000) := by
    rw [b2, b3]
    simp only [not_or, not_lt]
    constructor <;> linarith
  rw [if_neg c2]
  rfl

set_option maxHeartbeats 1000000 in
/-- The ridge of the example can be made with brackets, with or without a cable. -/
theorem exJoint {W H : ℝ} {side : Side} {fp : FullPlan} {body : Body} {xL x0 xR yF y1 yB zO : ℝ} {oc : Option CableCfg} (hoc : ∀ cc ∈ oc, cc = exCable)
    (hH : 60 ≤ H) (e : ExPlanned H side fp.plan xL x0 xR yF y1 yB zO) (h : ExInside body xL x0 yF y1 yB zO) :
    ∃ j, makeJoint (exCfgB W H oc) fp body.step body.inner body.ridge (some exBracket) = .ok j ∧
      ∃ f b, j.bracketF = some f ∧ j.bracketB = some b ∧ ∀ p ∈ f.splitEdge, 10 ≤ p.z := by
  have c1 := e.left_le
  have c2 := e.left_ge
  have c3 := e.left_eq
  have c4 := e.thumb_le
  have c5 := e.back_ge
  have c6 := e.front_le
  have c7 := e.high
  have tp : ∀ t ∈ (exCfgB W H oc).taper, t < Real.pi := fun t ht => by cases ht
  have dz : exBracket.holeLength + exBracket.counterboreLength = 9 / 2 := by norm_num [exBracket]
  have lip : (exCfgB W H oc).floor.lipHeight + (exCfgB W H oc).floor.lipMargin = 5 / 2 := by
    show (2 : ℝ) + 1 / 2 = 5 / 2
    norm_num
  obtain ⟨i1, i2, i3, i4⟩ := h.ilft
  have i2' := abs_le.mp i2
  have i5 := h.ilfc
  obtain ⟨i6, i7⟩ := h.ilbc
  have i8 := h.ilbt
  have i9 := h.low
  obtain ⟨i10, i11⟩ := h.rise
  have i12 := h.ilf
  have pr : fp.plan.points.ridgeIRF = ⟨xL / 2, (yF + y1) / 2 + 4, zO - 4⟩ := by rw [e.points]; rfl
  have hz : ∀ cc ∈ oc, SaneZip exQuality exBracket cc ∧ CableRoom exBracket cc exBracket.backCornerExtraMargin := by
    intro cc hcc
    obtain rfl := hoc cc hcc
    exact ⟨exZipQ, exCable_room (h := 2) (by norm_num)⟩
  have grip : (oc.map CableCfg.gripHumpHeight).getD 0 ≤ 3 := by
    cases oc with
    | none => norm_num
    | some cc => obtain rfl := hoc cc rfl; norm_num [exCable, exampleCable]
  obtain ⟨f, v, k1, k2, k3, k4, k5⟩ := front_made (q := (exCfgB W H oc).quality) (a := body.ridge.ilft) (b := fp.plan.points.ridgeIRF) (c := body.ridge.ilfc)
    oc (decide (fp.plan.side = (exCfgB W H oc).nutSide)) exBracketQ tp (by rw [pr]; dsimp only; linarith) (by rw [pr]; dsimp only; linarith)
    (by linarith) (by linarith)
  obtain ⟨b, m1, ⟨g, m2, m3, m4, m5⟩, m6, m7, m8⟩ := back_made (q := (exCfgB W H oc).quality) (a := body.inner.alnumILBT) (b := body.step.alnumILF) (c := body.inner.alnumILBC)
    oc (decide (fp.plan.side = (exCfgB W H oc).nutSide)) exBracketQ tp (by norm_num [exBracket]) hz (by linarith) i10 (by linarith)
  have low1 := exLow (a := body.ridge.ilft) (c := ⟨0, body.ridge.ilft.y + 1, 0⟩) (x := 0) (by norm_num) (by dsimp only; linarith)
  have low2 := exLow (a := body.inner.alnumILBT) (c := body.inner.alnumILBC) (x := exBracket.backCornerExtraMargin) (by norm_num [exBracket]) (by linarith)
  have reach := exReach
  rw [dz] at k2 m2
  have chk : bracketChecks fp.plan.points body.ridge body.inner f b ((exCfgB W H oc).floor.lipHeight + (exCfgB W H oc).floor.lipMargin) = .ok () := by
    rw [lip]
    refine exChecks pr c3 (by linarith) i2 (by linarith) (by linarith) k2 (by linarith) k4 (fun p hp => ?_)
      (ws := [g, g + (⟨9 / 2, 0, 0⟩ : Vec)]) (w := body.inner.alnumILBC.yz + (⟨9 / 2, 0, 0⟩ : Vec)) m2 (by simp [Vec.yz]) i6 m7 (fun p hp => ?_)
    · obtain ⟨q1, q2⟩ := k5 p hp
      constructor <;> linarith
    · have := m8 p hp
      linarith
  have pk := pinky_ok e.two none
  obtain ⟨ref, pk0⟩ : ∃ ref, pyIndex (fingers fp.plan.layout 1 none) 0 = .ok ref := (index_some e.pinkyNe).1
  obtain ⟨t, ht⟩ := C102_roof_succeeds (q := (exCfgB W H oc).quality) (taper := (exCfgB W H oc).taper) (φ := (exCfgB W H oc).body.splitAngle)
    (i := (exCfgB W H oc).switch.innerHeight) (a := body.inner.alnumILBT) (b := body.step.alnumILF) (M := ref.matrix)
    (decide (fp.plan.side = (exCfgB W H oc).nutSide)) exBracketQ tp (fun h' => by
      have := congrArg Vec.y h'
      simp only [Vec.yz] at this
      linarith)
  have w0 : pyIndex b.wallEdge 0 = .ok g := pyIndex_zero.mpr (by rw [m2]; rfl)
  obtain ⟨w1, w1'⟩ := (index_some (l := b.wallEdge) (by rw [m2]; simp)).2
  obtain ⟨r0, r0'⟩ := (index_some m6).1
  have hole : ∃ x, cableHole (exCfgB W H oc) fp.plan.points body.ridge exBracket b.wallEdge ((exCfgB W H oc).floor.lipHeight + (exCfgB W H oc).floor.lipMargin) oc = .ok x := by
    cases oc with
    | none => exact ⟨_, rfl⟩
    | some cc =>
      obtain rfl := hoc cc rfl
      have wall : fp.plan.points.alnumOLB.xy.y - fp.plan.points.alnumILB.xy.y = 4 := by
        rw [e.points]
        simp only [exPoints, Vec.xy]
        ring
      obtain ⟨c, hc⟩ := C99_succeeds (q := exQuality) (taper := (exCfgB W H (some exCable)).taper) (bracket := exBracket.holeLength + exBracket.counterboreLength) (pos := g)
        exCable_sane exQuality_angle (by norm_num [exQuality]) (by norm_num [exQuality, exCable, exampleCable]) (by norm_num [exQuality, exCable, exampleCable])
        (by norm_num [exQuality, exCable, exampleCable]) tp
      obtain ⟨n1, n2⟩ := exCable_low exCable_fine tp hc
      obtain ⟨g1, hg1⟩ := (index_some n1).2
      obtain ⟨g0, hg0⟩ := (index_some n1).1
      have z1 := n2 g1 (List.mem_of_getLast? (pyIndex_last.mp hg1))
      have z0 := n2 g0 (List.mem_of_getElem? (pyIndex_zero.mp hg0))
      unfold cableHole
      dsimp only
      rw [w0, value_bind, wall]
      have hc' : Cable.make (exCfgB W H (some exCable)).quality (exCfgB W H (some exCable)).taper exCable (exBracket.holeLength + exBracket.counterboreLength) g 4 = .ok c := hc
      rw [hc', value_bind, hg1, value_bind, hg0, value_bind, lip, if_neg (by
        simp only [not_or, not_lt]
        constructor <;> linarith)]
      exact ⟨_, rfl⟩
  obtain ⟨⟨sB, OB, IB, fs, ps⟩, hole⟩ := hole
  unfold makeJoint
  dsimp only
  refine ⟨_, bind_ok_of k1 (bind_ok_of m1 (bind_ok_of pk (bind_ok_of pk0 (bind_ok_of ht (bind_ok_of chk (bind_ok_of hole (bind_ok_of w1' (bind_ok_of r0' rfl)))))))),
    f, b, rfl, rfl, fun p hp => ?_⟩
  obtain ⟨q1, q2⟩ := k5 p hp
  linarith

/-- A whole body with brackets, with or without a cable hole, that are above the floor. -/
theorem exBodyB_high (oc : Option CableCfg) (hoc : ∀ cc ∈ oc, cc = exCable) : ∃ W H, ∀ side, ∃ fp body, FullPlan.make (exCfgB W H oc) side = .ok fp ∧
    Body.make (exCfgB W H oc) fp = .ok body ∧ body.ridge.ilft.y < fp.plan.points.ridgeIRF.y ∧ body.step.alnumILF.y ≤ body.inner.alnumILBT.y ∧
    fp.plan.points.alnumOLB.y - fp.plan.points.alnumILB.y = 4 ∧ body.inner.alnumILBC.y = fp.plan.points.alnumILB.y ∧
    (body.inner.alnumILBT.z ≤ body.step.alnumILF.z ∧ body.step.alnumILF.z - body.inner.alnumILBT.z ≤ body.inner.alnumILBT.y - body.step.alnumILF.y) ∧
    (∃ f b, body.bracketF = some f ∧ body.bracketB = some b ∧ ∀ p ∈ f.splitEdge, 10 ≤ p.z) ∧
    ∃ xL x0 xR yF y1 yB zO, ExPlanned H side fp.plan xL x0 xR yF y1 yB zO := by
  obtain ⟨W, H, hH, h⟩ := exBody_high 60
  refine ⟨W, H, fun side => ?_⟩
  obtain ⟨fp, body, h1, h2, -, -, -, xL, x0, xR, yF, y1, yB, zO, e, d1, d2, d3, d4, d5, d6, t, p1, p2, p3, p4, hc, t0, t1, hs⟩ := h side
  have hi := exInside h1 h2 e p1 p2 p3 p4 hc t0 t1 hs
  obtain ⟨j, hj, jf, jb, jF, jB, high⟩ := exJoint (W := W) hoc hH e hi
  have hp := body_parts h2
  have fin : ∃ B, Body.make (exCfgB W H oc) fp = .ok B ∧ B.ridge = body.ridge ∧ B.step = body.step ∧ B.inner = body.inner ∧ B.bracketF = j.bracketF ∧ B.bracketB = j.bracketB := by
    unfold Body.make
    exact ⟨_, bind_ok_of hp.checks (bind_ok_of hp.keys (bind_ok_of hp.corners (bind_ok_of hp.step (bind_ok_of hp.outer (bind_ok_of hp.inner (bind_ok_of hp.encoder
      (bind_ok_of hp.ridge (bind_ok_of hj (bind_ok_of (a := []) rfl rfl))))))))), rfl, rfl, rfl, rfl, rfl⟩
  obtain ⟨B, hB, b1, b2, b3, b4, b5⟩ := fin
  have c1 := e.left_le
  have c3 := e.left_eq
  have c4 := e.thumb_le
  have c5 := e.back_ge
  have c6 := e.front_le
  obtain ⟨-, i2, -, -⟩ := hi.ilft
  have i2' := abs_le.mp i2
  obtain ⟨-, i7⟩ := hi.ilbc
  have i8 := hi.ilbt
  obtain ⟨i10, i11⟩ := hi.rise
  have i12 := hi.ilf
  refine ⟨fp, B, h1, hB, ?_, ?_, ?_, ?_, ⟨?_, ?_⟩, ⟨jf, jb, b4.trans jF, b5.trans jB, high⟩, xL, x0, xR, yF, y1, yB, zO, e⟩
  · rw [b1, e.points]; simp only [exPoints]; linarith
  · rw [b2, b3]; linarith
  · rw [e.points]; simp only [exPoints]; ring
  · rw [b3, i7, e.points]; rfl
  · rw [b2, b3]; exact i10
  · rw [b2, b3]; linarith

/-- A whole body with brackets, with or without a cable hole. -/
theorem exBodyB (oc : Option CableCfg) (hoc : ∀ cc ∈ oc, cc = exCable) : ∃ W H, ∀ side, ∃ fp body, FullPlan.make (exCfgB W H oc) side = .ok fp ∧
    Body.make (exCfgB W H oc) fp = .ok body ∧ body.ridge.ilft.y < fp.plan.points.ridgeIRF.y ∧ body.step.alnumILF.y ≤ body.inner.alnumILBT.y ∧
    fp.plan.points.alnumOLB.y - fp.plan.points.alnumILB.y = 4 ∧ body.inner.alnumILBC.y = fp.plan.points.alnumILB.y ∧
    (body.inner.alnumILBT.z ≤ body.step.alnumILF.z ∧ body.step.alnumILF.z - body.inner.alnumILBT.z ≤ body.inner.alnumILBT.y - body.step.alnumILF.y) ∧
    ∃ xL x0 xR yF y1 yB zO, ExPlanned H side fp.plan xL x0 xR yF y1 yB zO := by
  obtain ⟨W, H, h⟩ := exBodyB_high oc hoc
  refine ⟨W, H, fun side => ?_⟩
  obtain ⟨fp, B, h1, h2, h3, h4, h5, h6, h7, -, h8⟩ := h side
  exact ⟨fp, B, h1, h2, h3, h4, h5, h6, h7, h8⟩

theorem exSaneB (W H : ℝ) (oc : Option CableCfg) : SaneBody (exCfgB W H oc) := { exSane W H with }

/-- C83 holds of a real body with brackets and a cable hole, and of one with brackets only. -/
example : (∃ cfg side fp body, FullPlan.make cfg side = .ok fp ∧ Body.make cfg fp = .ok body ∧ cfg.bracket = some exBracket ∧ cfg.cable = some exCable ∧
    Fit (body.faces ++ body.pieces) []) ∧
    ∃ cfg side fp body, FullPlan.make cfg side = .ok fp ∧ Body.make cfg fp = .ok body ∧ cfg.bracket = some exBracket ∧ Fit (body.faces ++ body.pieces) [] := by
  constructor
  · obtain ⟨W, H, he⟩ := exBodyB (some exCable) (by simp)
    obtain ⟨fp, body, h1, h2, h3, h4, h5, -⟩ := he .left
    refine ⟨_, _, fp, body, h1, h2, rfl, rfl, C83_cable h1 h2 (exSaneB W H _) (fun _ h => by cases h) (fun _ _ => ⟨h3, h4⟩) (fun cc hcc => ?_) (fun _ h => by cases h)⟩
    obtain rfl : exCable = cc := Option.mem_some_iff.mp hcc
    rw [h5]
    exact ⟨exCable_sane, exCable_fine⟩
  · obtain ⟨W, H, he⟩ := exBodyB none (by simp)
    obtain ⟨fp, body, h1, h2, h3, h4, h5, -⟩ := he .left
    exact ⟨_, _, fp, body, h1, h2, rfl, C83_cable h1 h2 (exSaneB W H _) (fun _ h => by cases h) (fun _ _ => ⟨h3, h4⟩) (fun _ h => by cases h) (fun _ h => by cases h)⟩

/-- C100 and C99 hold of a real body with brackets and a cable hole: the brackets keep clear of the lip, and the cable hole has its shape and is above the floor. -/
example : ∃ (cfg : KeyboardCfg) (side : Side) (fp : FullPlan) (body : Body) (bc : BracketCfg) (cc : CableCfg) (pos : Vec) (c : Cable),
    FullPlan.make cfg side = .ok fp ∧ Body.make cfg fp = .ok body ∧
    cfg.bracket = some bc ∧ cfg.cable = some cc ∧ (∃ f : CornerBracket, body.joint.bracketF = some f ∧
      ∀ p ∈ f.splitEdge, cfg.floor.lipHeight + cfg.floor.lipMargin + 1 / 1000 ≤ p.z ∧ p.y + 1 / 1000 ≤ fp.plan.points.ridgeIRF.y) ∧
    CableShape cfg.taper cc ((bc.holeLength + bc.counterboreLength) * (6 / 10) + cc.diameter / 2 * (4 / 10)) pos
        (fp.plan.points.alnumOLB.y - fp.plan.points.alnumILB.y) c ∧
    ∀ P ∈ c.pieces, ∀ p ∈ Piece.points P, 1 / 1000 ≤ p.z := by
  obtain ⟨W, H, he⟩ := exBodyB (some exCable) (by simp)
  obtain ⟨fp, body, h1, h2, h3, h4, h5, -⟩ := he .left
  obtain ⟨f, _, f1, -, f2, f3, -⟩ := C100_brackets h2 rfl
  obtain ⟨pos, c, c1, -, -, c2⟩ := C100_cable h2 rfl rfl exQuality_angle (fun _ h => by cases h) (by rw [h5]; exact exCable_sane) (by rw [h5]; norm_num) (by
    have := exCable_fine.tip
    simp only [CableCfg.tip]
    linarith) (by
      show (1 : ℝ) / 1000 ≤ 2 + 1 / 2
      norm_num)
  exact ⟨_, _, fp, body, _, _, pos, c, h1, h2, rfl, rfl, ⟨f, f1, fun p hp => ⟨f2 p (List.mem_append_left _ hp), f3 p hp⟩⟩, c1, fun P hP p hp => (c2 P hP p hp).1⟩

end Chrumm.Part
