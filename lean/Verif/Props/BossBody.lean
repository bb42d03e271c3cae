import Verif.Props.BossWall
import Verif.Props.BossRoof
import Verif.Props.BodyMake
import Verif.Props.Plan

/-! The bosses in the plan (C78, C79). -/

namespace Chrumm.Part
open Geo Geo.Spec Spec

/-- The bosses of the plan, each with its position, the inner side of its wall, the outer side of its wall, and its roof. -/
def bossPlaces (fp : FullPlan) : List (Boss × Vec × Plane × Plane × Plane) :=
  let b := fp.bosses
  let p := fp.plan
  [(b.alnumB, p.bossPos.alnumB, p.walls.alnumIB, p.walls.alnumOB, p.tent.alnumOT),
   (b.pinkyB, p.bossPos.pinkyB, p.walls.alnumIB, p.walls.alnumOB, p.tent.pinkyOT),
   (b.pinkyF, p.bossPos.pinkyF, p.walls.pinkyIF, p.walls.pinkyOF, p.tent.pinkyOT),
   (b.thumbF, p.bossPos.thumbF, p.walls.pinkyIF, p.walls.pinkyOF, p.tent.thumbOT)]

theorem above_wall {p p' : Plane} {l : Line} {dx dz : ℝ} (hu : UnitPlane p) (hp : ∀ v, p.distance v = left l.pos (l.pos + l.dir) v)
    (hc : CarriedBy (shift ⟨dx, 0, dz⟩) p p') (v : Vec) :
    above p' v = left (l.pos + ⟨dx, 0, 0⟩) (l.pos + ⟨dx, 0, 0⟩ + l.dir) v := by
  have : v = (v + ⟨-dx, 0, -dz⟩).transformed (shift ⟨dx, 0, dz⟩) := by
    rw [shift_apply]; ext <;> simp
  conv_lhs => rw [this]
  rw [above_eq, (hc hu).2, hp]
  simp only [left, Vec.add_x, Vec.add_y]
  ring

/-- Each boss is made at its position, for the direction of its inner wall. -/
theorem bossPlaces_ok {cfg : KeyboardCfg} {side : Side} {fp : FullPlan} (h : FullPlan.make cfg side = .ok fp) (hd : 0 ≤ cfg.boss.diameter) :
    ∀ x ∈ bossPlaces fp, ∃ l : Line, l.dir.x ^ 2 + l.dir.y ^ 2 = 1 ∧ bodyBoss cfg x.2.1 l.dir x.2.2.2.2 = .ok x.1 ∧
      (∀ v, above x.2.2.1 v = left l.pos (l.pos + l.dir) v) ∧ (∀ v, above x.2.2.2.1 v = above x.2.2.1 v + cfg.body.wallThickness) ∧
      cfg.boss.diameter / 2 + cfg.boss.outerWallMargin ≤ above x.2.2.2.1 x.2.1 := by
  obtain ⟨h1, h2, -⟩ := fullPlan_ok h
  obtain ⟨hm⟩ := make_made h1
  have w := hm.wallsOk
  obtain ⟨w1, w2, w3, w4⟩ := hm.walls
  rw [hm.hD] at w1 w2 w3 w4
  obtain ⟨⟨kA, a0, a1, rA, -, -, fA, -⟩, ⟨kB, b0, b1, -, -, -, fB, -⟩, ⟨kF, f0, f1, -, -, -, fF, -⟩, ⟨t0, t1, -, -, fT, -⟩, -⟩ := C72_bosses h1 hd
  unfold Bosses.make at h2
  obtain ⟨bA, c1, h2⟩ := bind_ok h2
  obtain ⟨bB, c2, h2⟩ := bind_ok h2
  obtain ⟨bF, c3, h2⟩ := bind_ok h2
  obtain ⟨bT, c4, h2⟩ := bind_ok h2
  have h2 := Except.ok.inj h2
  rw [hm.planLinesB] at c1 c2
  rw [hm.planLinesF] at c3 c4
  have gB := above_wall w.alnumIB.1 w.alnumIB.2 w1
  have gF := above_wall w.pinkyIF.1 w.pinkyIF.2 w3
  have oB := above_wall w.alnumOB.1 w.alnumOB.2 w2
  have oF := above_wall w.pinkyOF.1 w.pinkyOF.2 w4
  have tB : ∀ v, above fp.plan.walls.alnumOB v = above fp.plan.walls.alnumIB v + cfg.body.wallThickness := by
    intro v
    have e := w.gapB (v + ⟨-hm.dx, 0, 0⟩)
    rw [w.alnumOB.2, w.alnumIB.2] at e
    rw [oB, gB]
    simp only [left, Vec.add_x, Vec.add_y] at e ⊢
    have : cfg.plan.body.wallThickness = cfg.body.wallThickness := rfl
    rw [this] at e
    linear_combination e
  have tF : ∀ v, above fp.plan.walls.pinkyOF v = above fp.plan.walls.pinkyIF v + cfg.body.wallThickness := by
    intro v
    have e := w.gapF (v + ⟨-hm.dx, 0, 0⟩)
    rw [w.pinkyOF.2, w.pinkyIF.2] at e
    rw [oF, gF]
    simp only [left, Vec.add_x, Vec.add_y] at e ⊢
    have : cfg.plan.body.wallThickness = cfg.body.wallThickness := rfl
    rw [this] at e
    linear_combination e
  intro x hx
  have uB : hm.linesB.1.dir.x ^ 2 + hm.linesB.1.dir.y ^ 2 = 1 := by
    rw [w.pairB.2.2, w.dirB]; simp [dirAt]
  have uF : hm.linesF.1.dir.x ^ 2 + hm.linesF.1.dir.y ^ 2 = 1 := by
    rw [w.pairF.2.2, w.dirF]; simp [dirAt]
  simp only [bossPlaces, List.mem_cons, List.not_mem_nil, or_false] at hx
  rw [← h2] at hx
  rcases hx with rfl | rfl | rfl | rfl
  · exact ⟨⟨hm.linesB.1.pos + ⟨hm.dx, 0, 0⟩, hm.linesB.1.dir⟩, uB, c1, gB, tB, fA⟩
  · exact ⟨⟨hm.linesB.1.pos + ⟨hm.dx, 0, 0⟩, hm.linesB.1.dir⟩, uB, c2, gB, tB, fB⟩
  · exact ⟨⟨hm.linesF.1.pos + ⟨hm.dx, 0, 0⟩, hm.linesF.1.dir⟩, uF, c3, gF, tF, fF⟩
  · exact ⟨⟨hm.linesF.1.pos + ⟨hm.dx, 0, 0⟩, hm.linesF.1.dir⟩, uF, c4, gF, tF, fT⟩

/-- C79. Each boss of a plan is at the place that was found for it, and is joined to its own wall: nothing of the outline is beyond the inner side of
the wall, behind the far side of the boss, or inside the boss, seen from above. -/
theorem C79_plan {cfg : KeyboardCfg} {side : Side} {fp : FullPlan} (h : FullPlan.make cfg side = .ok fp) (hq : 0 < cfg.quality.maxChordAngle)
    (hR : 1 / 1000000 ≤ cfg.boss.diameter / 2) (hF : cfg.boss.innerWallFillet = 0 ∨ 1 / 1000000 ≤ cfg.boss.innerWallFillet)
    (hP : (cfg.boss.diameter / 2 + cfg.boss.innerWallFillet) * (1 - Real.sin (89 * Real.pi / 180)) ≤
      cfg.boss.diameter + cfg.boss.outerWallMargin - cfg.body.wallThickness) :
    ∀ x ∈ bossPlaces fp, x.1.pos = x.2.1 ∧ ∀ p ∈ x.1.wallEdge, (cfg.boss.diameter / 2) ^ 2 ≤ distSq2D x.2.1 p ∧
      0 ≤ above x.2.2.1 p ∧ above x.2.2.1 p ≤ above x.2.2.1 x.2.1 + cfg.boss.diameter / 2 := by
  intro x hx
  obtain ⟨l, u, m, a1, a2, a3⟩ := bossPlaces_ok h (by linarith) x hx
  unfold bodyBoss Boss.make at m
  obtain ⟨edge, m1, m⟩ := bind_ok m
  obtain ⟨⟨c, hh, tt⟩, m2, m⟩ := bind_ok m
  obtain ⟨⟨th, tt'⟩, m3, m⟩ := bind_ok m
  rw [← Except.ok.inj m]
  refine ⟨rfl, fun p hp => ?_⟩
  obtain ⟨-, p1, p2, p3⟩ := C79_wall _ _ _ _ _ _ _ hq u hR hF hP m1 p hp
  refine ⟨p1, ?_⟩
  have e : above x.2.2.1 p = above x.2.2.1 x.2.1 + left x.2.1 (x.2.1 + l.dir) p := by
    rw [a1, a1]
    simp only [left, Vec.add_x, Vec.add_y]
    ring
  rw [a2] at a3
  rw [e]
  constructor <;> linarith

/-- C78. In a plan, the thread of each boss keeps the configured margin from its own roof, unless the roof is steeper than about 54 degrees. -/
theorem C78_plan {cfg : KeyboardCfg} {side : Side} {fp : FullPlan} (h : FullPlan.make cfg side = .ok fp) (hq : SaneQuality cfg.quality)
    (hd : 0 ≤ cfg.boss.diameter) (hc : SaneThread cfg.boss cfg.support) :
    ∀ x ∈ bossPlaces fp, UnitNormal x.2.2.2.2 → NotTooSteep cfg.boss x.2.2.2.2 →
      x.2.2.2.2.normal.x ^ 2 + x.2.2.2.2.normal.y ^ 2 ≤ 2 * x.2.2.2.2.normal.z ^ 2 →
      ∀ t ∈ x.1.threadTriangles, ∀ v : Vec, (v = t.a ∨ v = t.b ∨ v = t.c) → above x.2.2.2.2 v ≤ -cfg.boss.threadRoofMargin := by
  intro x hx hu hst h54
  obtain ⟨l, u, m, -⟩ := bossPlaces_ok h hd x hx
  unfold bodyBoss Boss.make at m
  obtain ⟨edge, m1, m⟩ := bind_ok m
  obtain ⟨⟨c, hh, tt⟩, m2, m⟩ := bind_ok m
  obtain ⟨⟨th, tt'⟩, m3, m⟩ := bind_ok m
  rw [← Except.ok.inj m]
  intro t ht v hv
  rw [above_eq]
  exact C78_roof_margin _ _ _ _ _ _ _ _ hq hc hu hst h54 m3 t ht v hv

end Chrumm.Part
