import Verif.Props.BodyWhole
import Verif.Props.FloorMake

/-! A floor of the example: what is proved about floors holds of a real one. -/

namespace Chrumm.Part
open Geo Geo.Spec Spec

/-- A collapsed edge starts with the first point, if the first side is long. -/
theorem collapsed_first {a b : Vec} {l : List Vec} {d : ℝ} (h : d ≤ (b - a).magnitude) : (collapsed (a :: b :: l) d).headD 0 = a := by
  have hlen : (a :: b :: l).length + true.toNat - 1 = l.length + 1 + 1 := by simp
  unfold collapsed toSegments
  rw [hlen, List.range_succ_eq_map]
  simp [Segment.magnitude, h]

/-- A collapsed edge ends with the last point, if the last side is long. -/
theorem collapsed_last {a y : Vec} {l : List Vec} {d : ℝ} (h : d ≤ (a - y).magnitude) :
    collapsed (a :: (l ++ [y])) d ≠ [] ∧ (collapsed (a :: (l ++ [y])) d).getLastD 0 = y := by
  have hlen : (a :: (l ++ [y])).length + true.toNat - 1 = l.length + 1 + 1 := by simp
  have e1 : (a :: (l ++ [y])).getD (l.length + 1) 0 = y := by simp
  have e2 : (a :: (l ++ [y])).getD ((l.length + 1 + 1) % (a :: (l ++ [y])).length) 0 = a := by simp
  unfold collapsed toSegments
  rw [hlen, List.range_succ, List.map_append, List.filter_append, List.map_append, List.map_singleton, e1, e2, List.filter_singleton]
  simp [Segment.magnitude, h]

theorem apart_x {a b : Vec} {d : ℝ} (h : d ≤ |b.x - a.x|) : d ≤ (b - a).magnitude := by
  refine h.trans ?_
  unfold Vec.magnitude
  refine Real.abs_le_sqrt ?_
  simp only [Vec.sub_x, Vec.sub_y, Vec.sub_z]
  nlinarith [sq_nonneg (b.y - a.y), sq_nonneg (b.z - a.z)]

theorem apart_y {a b : Vec} {d : ℝ} (h : d ≤ |b.y - a.y|) : d ≤ (b - a).magnitude := by
  refine h.trans ?_
  unfold Vec.magnitude
  refine Real.abs_le_sqrt ?_
  simp only [Vec.sub_x, Vec.sub_y, Vec.sub_z]
  nlinarith [sq_nonneg (b.x - a.x), sq_nonneg (b.z - a.z)]

/-- The configuration of the example, with a lip that is too thin to be moved. -/
noncomputable def exThin (W H : ℝ) : KeyboardCfg := { exCfg W H with floor := ⟨3, 1, 0, 0, 2, 0, none⟩ }

theorem exThin_plan (W H : ℝ) (side : Side) : FullPlan.make (exThin W H) side = FullPlan.make (exCfg W H) side := by
  have e1 : (exThin W H).plan = (exCfg W H).plan := rfl
  have e2 : bodyBoss (exThin W H) = bodyBoss (exCfg W H) := rfl
  have e3 : (exThin W H).palm = (exCfg W H).palm := rfl
  unfold FullPlan.make Bosses.make
  rw [e1, e2, e3]
  rfl

theorem exThin_body (W H : ℝ) (fp : FullPlan) : Body.make (exThin W H) fp = Body.make (exCfg W H) fp := rfl

/-- Where the outlines of a body start and end. -/
theorem outlines_at {cfg : KeyboardCfg} {fp : FullPlan} {body : Body} (h : Body.make cfg fp = .ok body) (hx : 1 ≤ fp.plan.points.alnumILB.x)
    (hy : fp.plan.points.thumbILF.y + 1 ≤ fp.plan.points.alnumILB.y) (hy' : fp.plan.points.thumbOLF.y + 1 ≤ fp.plan.points.alnumOLB.y) :
    body.outlineI ≠ [] ∧ body.outlineI.headD 0 = fp.plan.points.thumbILF.yz.xy ∧ body.outlineI.getLastD 0 = fp.plan.points.alnumILB.yz.xy ∧ body.outlineO ≠ [] := by
  unfold Body.make at h
  dsimp only at h
  obtain ⟨_, -, h⟩ := bind_ok h
  obtain ⟨keys, -, h⟩ := bind_ok h
  obtain ⟨c, -, h⟩ := bind_ok h
  obtain ⟨s, -, h⟩ := bind_ok h
  obtain ⟨o, -, h⟩ := bind_ok h
  obtain ⟨i, -, h⟩ := bind_ok h
  obtain ⟨e, -, h⟩ := bind_ok h
  obtain ⟨r, -, h⟩ := bind_ok h
  obtain ⟨j, -, h⟩ := bind_ok h
  obtain ⟨hitch, -, h⟩ := bind_ok h
  obtain rfl := Except.ok.inj h
  dsimp only
  unfold outlineIRaw outlineORaw
  have o1 := fun l => collapsed_last (a := fp.plan.points.thumbOLF.yz.xy) (y := fp.plan.points.alnumOLB.yz.xy) (l := l) (d := 1 / 1000)
    (apart_y (by simp only [Vec.xy, Vec.yz]; rw [abs_of_neg] <;> linarith))
  have i1 := fun l => collapsed_last (a := fp.plan.points.alnumILB.yz.xy) (y := fp.plan.points.thumbILF.yz.xy) (l := l) (d := 1 / 1000)
    (apart_y (by simp only [Vec.xy, Vec.yz]; rw [abs_of_pos] <;> linarith))
  have i2 := fun l => collapsed_first (a := fp.plan.points.alnumILB.yz.xy) (b := fp.plan.points.alnumILB.xy) (l := l) (d := 1 / 1000)
    (apart_x (by simp only [Vec.xy, Vec.yz]; rw [abs_of_pos] <;> linarith))
  have eO : (([fp.plan.points.thumbOLF.yz] ++ c.OLFG ++ hitch ++ c.ORFG ++ c.ORBG ++ [fp.plan.points.alnumOLB, fp.plan.points.alnumOLB.yz]).map Vec.xy) =
      fp.plan.points.thumbOLF.yz.xy :: ((c.OLFG ++ hitch ++ c.ORFG ++ c.ORBG ++ [fp.plan.points.alnumOLB]).map Vec.xy ++ [fp.plan.points.alnumOLB.yz.xy]) := by
    simp
  have eI : (([fp.plan.points.alnumILB.yz, fp.plan.points.alnumILB] ++ i.LBC ++ i.RBC ++ c.IRBG ++ c.IRFG ++ i.RFC ++ i.LFC ++ c.ILFG ++
      [fp.plan.points.thumbILF.yz]).map Vec.xy) = fp.plan.points.alnumILB.yz.xy ::
        ((fp.plan.points.alnumILB :: (i.LBC ++ i.RBC ++ c.IRBG ++ c.IRFG ++ i.RFC ++ i.LFC ++ c.ILFG)).map Vec.xy ++ [fp.plan.points.thumbILF.yz.xy]) := by
    simp
  rw [eO, eI]
  refine ⟨?_, ?_, ?_, (o1 _).1⟩
  · intro e
    exact (i1 _).1 (List.reverse_eq_nil_iff.mp e)
  · have := (i1 ((fp.plan.points.alnumILB :: (i.LBC ++ i.RBC ++ c.IRBG ++ c.IRFG ++ i.RFC ++ i.LFC ++ c.ILFG)).map Vec.xy)).2
    rw [headD_reverse, this]
  · rw [getLastD_reverse, List.map_cons, List.cons_append, i2]

/-- The outlines of a body start and end in the split plane. -/
theorem outlines_ends {cfg : KeyboardCfg} {fp : FullPlan} {body : Body} (h : Body.make cfg fp = .ok body) (hx : 1 ≤ fp.plan.points.alnumILB.x)
    (hy : fp.plan.points.thumbILF.y + 1 ≤ fp.plan.points.alnumILB.y) (hy' : fp.plan.points.thumbOLF.y + 1 ≤ fp.plan.points.alnumOLB.y) :
    body.outlineI ≠ [] ∧ (body.outlineI.headD 0).x = 0 ∧ (body.outlineI.getLastD 0).x = 0 ∧ body.outlineO ≠ [] := by
  obtain ⟨n1, n2, n3, n4⟩ := outlines_at h hx hy hy'
  exact ⟨n1, by rw [n2]; rfl, by rw [n3]; rfl, n4⟩

theorem exFloor_made : ∃ W H, ∀ side, ∃ fp body floor, FullPlan.make (exThin W H) side = .ok fp ∧ Body.make (exThin W H) fp = .ok body ∧
    Floor.make (exThin W H) fp body = .ok floor ∧ SaneProfile floor.sketch False := by
  obtain ⟨W, H, he⟩ := exBody_made
  refine ⟨W, H, fun side => ?_⟩
  obtain ⟨fp, body, h1, h2, k1, k2, k3, -⟩ := he side
  obtain ⟨n1, n2, n3, n4⟩ := outlines_ends h2 k1 k2 k3
  have hn : ∀ x : ℝ, |x| < 1 / 1000000 → naiveOffset2D body.outlineI x = .ok body.outlineI := by
    intro x hx
    unfold naiveOffset2D
    rw [if_pos hx]
    rfl
  have hd : ∀ {l : List Vec} (n : l ≠ []), pyIndex l 0 = .ok (l.head n) := fun n =>
    pyIndex_zero.mpr (by rw [← List.head?_eq_getElem?, List.head?_eq_some_head n])
  have ls : ∀ {l : List Vec} (n : l ≠ []), pyIndex l (-1) = .ok (l.getLast n) := fun n => pyIndex_last.mpr (List.getLast?_eq_some_getLast n)
  have mv : ∀ {l : List Vec} (n : l ≠ []) (d : Vec), edgeTranslated l d ≠ [] := by
    intro l n d e
    unfold edgeTranslated at e
    exact n (List.map_eq_nil_iff.mp e)
  have pr : ∃ p, floorProfile (exThin W H).floor body.outlineI body.outlineO = .ok p ∧ p.p2 = body.outlineI ∧
      p.p0 ≠ [] ∧ p.p1 ≠ [] ∧ p.p2 ≠ [] ∧ p.p3 ≠ [] ∧ p.p4 ≠ [] ∧ p.p5 ≠ [] ∧ p.p6 ≠ [] := by
    refine ⟨_, bind_ok_of (hn _ ?_) (bind_ok_of (hn _ ?_) (bind_ok_of (hn _ ?_) rfl)), rfl, mv n4 _, n4, n1, mv n1 _, mv n1 _, mv n1 _, mv n1 _⟩ <;>
      simp [exThin]
  obtain ⟨p, pr, e2, p0, p1, p2, p3, p4, p5, p6⟩ := pr
  have jn : ∃ j, floorJoint (exThin W H) fp.plan.side body p none = .ok j ∧ j.profile = p := by
    have ends : ∃ x, profileEnds p = .ok x := by
      obtain ⟨xs, hx⟩ := mapM_ok_of [p.p0, p.p1, p.p2, p.p3, p.p4, p.p5, p.p6] (f := fun e => pyIndex e 0) (by
        intro e he
        simp only [List.mem_cons, List.not_mem_nil, or_false] at he
        rcases he with rfl | rfl | rfl | rfl | rfl | rfl | rfl <;> exact ⟨_, hd (by assumption)⟩)
      obtain ⟨ys, hy⟩ := mapM_ok_of [p.p6, p.p5, p.p4, p.p3, p.p2, p.p1, p.p0] (f := fun e => pyIndex e (-1)) (by
        intro e he
        simp only [List.mem_cons, List.not_mem_nil, or_false] at he
        rcases he with rfl | rfl | rfl | rfl | rfl | rfl | rfl <;> exact ⟨_, ls (by assumption)⟩)
      exact ⟨_, bind_ok_of hx (bind_ok_of hy rfl)⟩
    obtain ⟨x, ends⟩ := ends
    exact ⟨_, bind_ok_of ends rfl, rfl⟩
  obtain ⟨j, jn, ej⟩ := jn
  have fl : ∃ floor, Floor.make (exThin W H) fp body = .ok floor ∧ floor.sketch = p := by
    unfold Floor.make
    refine ⟨_, bind_ok_of pr (bind_ok_of jn (bind_ok_of (a := ([], [])) rfl (bind_ok_of (a := none) rfl (bind_ok_of (a := _) rfl
      (bind_ok_of (bind_ok_of (hd (ej ▸ p2)) (bind_ok_of (ls (ej ▸ p2)) rfl)) (bind_ok_of (bind_ok_of (hd (ej ▸ p3)) (bind_ok_of (ls (ej ▸ p3)) rfl)) rfl)))))), rfl⟩
  obtain ⟨floor, hf, es⟩ := fl
  refine ⟨fp, body, floor, by rw [exThin_plan]; exact h1, by rw [exThin_body]; exact h2, hf, ?_⟩
  rw [es]
  exact ⟨by rw [e2]; exact n2, by rw [e2]; exact n3, False.elim, False.elim, False.elim⟩

/-- C84 holds of a real floor. -/
example : ∃ cfg side fp body floor, FullPlan.make cfg side = .ok fp ∧ Body.make cfg fp = .ok body ∧ Floor.make cfg fp body = .ok floor ∧
    Fit (floor.faces ++ floor.pieces) [] := by
  obtain ⟨W, H, he⟩ := exFloor_made
  obtain ⟨fp, body, floor, h1, h2, h3, h4⟩ := he .left
  have hs : SaneFloor (exThin W H) := by
    refine ⟨exQuality_sane, ?_, fun _ h => by cases h⟩
    constructor <;> norm_num [exThin, exCfg, exBoss]
  have hj : floor.joint.brackets = none := by
    unfold Floor.make at h3
    obtain ⟨p, -, h3⟩ := bind_ok h3
    obtain ⟨j, g, h3⟩ := bind_ok h3
    obtain ⟨⟨hI, hO⟩, -, h3⟩ := bind_ok h3
    obtain ⟨b, -, h3⟩ := bind_ok h3
    obtain ⟨bs, -, h3⟩ := bind_ok h3
    obtain ⟨q2, -, h3⟩ := bind_ok h3
    obtain ⟨q3, -, h3⟩ := bind_ok h3
    obtain rfl := Except.ok.inj h3
    obtain ⟨⟨xs, ys⟩, -, g⟩ := bind_ok (show floorJoint (exThin W H) fp.plan.side body p none = _ from g)
    obtain rfl := Except.ok.inj g
    rfl
  exact ⟨_, _, fp, body, floor, h1, h2, h3, C84_floor h1 h3 hs (by simpa [exThin, exCfg] using h4) (by rw [hj]; simp)⟩

/-- C91 holds of a real pair of floors. -/
example : ∃ cfg fL fR bL bR gL gR, FullPlan.make cfg .left = .ok fL ∧ FullPlan.make cfg .right = .ok fR ∧ Body.make cfg fL = .ok bL ∧
    Body.make cfg fR = .ok bR ∧ Floor.make cfg fL bL = .ok gL ∧ Floor.make cfg fR bR = .ok gR ∧ gL.splitFace = gR.splitFace := by
  obtain ⟨W, H, he⟩ := exFloor_made
  obtain ⟨fL, bL, gL, h1, h2, h3, -⟩ := he .left
  obtain ⟨fR, bR, gR, h4, h5, h6, -⟩ := he .right
  exact ⟨_, fL, fR, bL, bR, gL, gR, h1, h4, h2, h5, h3, h6, (C91_floor exSymmetric h1 h4 h2 h5 h3 h6).1⟩

end Chrumm.Part
