import Verif.Props.PlanWalls

/-! Walls and bosses of the plan. -/

namespace Chrumm.Part
open Geo Geo.Spec Spec

/-- An inner and an outer wall line. -/
def WallPair (w : Line × Line) : Prop := Planar w.1 ∧ Planar w.2 ∧ w.1.dir = w.2.dir

/-- Both lines are moved outwards. -/
def Pushed (w w' : Line × Line) : Prop :=
  ∃ c : ℝ, 0 ≤ c ∧ w'.1 = ⟨w.1.pos + outward w.2.dir * c, w.1.dir⟩ ∧ w'.2 = ⟨w.2.pos + outward w.2.dir * c, w.2.dir⟩

theorem Pushed.wallPair {w w' : Line × Line} (h : Pushed w w') (hw : WallPair w) : WallPair w' := by
  obtain ⟨c, -, e1, e2⟩ := h
  obtain ⟨h1, h2, h3⟩ := hw
  refine ⟨?_, ?_, ?_⟩
  · rw [e1]; exact ⟨by simp [outward, h1.1], h1.2⟩
  · rw [e2]; exact ⟨by simp [outward, h2.1], h2.2⟩
  · rw [e1, e2]; exact h3

theorem Pushed.trans {a b c : Line × Line} (h : Pushed a b) (h' : Pushed b c) : Pushed a c := by
  obtain ⟨x, hx, e1, e2⟩ := h
  obtain ⟨y, hy, f1, f2⟩ := h'
  refine ⟨x + y, by linarith, ?_, ?_⟩
  · rw [f1, e1, e2]
    congr 1
    ext <;> simp only [Vec.add_x, Vec.add_y, Vec.add_z, Vec.mul_x, Vec.mul_y, Vec.mul_z] <;> ring
  · rw [f2, e2]
    congr 1
    ext <;> simp only [Vec.add_x, Vec.add_y, Vec.add_z, Vec.mul_x, Vec.mul_y, Vec.mul_z] <;> ring

/-- The distance to the inside grows with the wall. -/
theorem Pushed.left {w w' : Line × Line} (h : Pushed w w') (hw : WallPair w) :
    ∃ c : ℝ, 0 ≤ c ∧ (∀ v, left w'.1.pos (w'.1.pos + w'.1.dir) v = left w.1.pos (w.1.pos + w.1.dir) v + c) ∧
      ∀ v, left w'.2.pos (w'.2.pos + w'.2.dir) v = left w.2.pos (w.2.pos + w.2.dir) v + c := by
  obtain ⟨c, hc, e1, e2⟩ := h
  obtain ⟨h1, h2, h3⟩ := hw
  have hd := h2.2.2
  refine ⟨c, hc, fun v => ?_, fun v => ?_⟩
  · rw [e1, h3]
    simp only [Geo.Spec.left, outward, Vec.add_x, Vec.add_y, Vec.mul_x, Vec.mul_y]
    linear_combination c * hd
  · rw [e2]
    simp only [Geo.Spec.left, outward, Vec.add_x, Vec.add_y, Vec.mul_x, Vec.mul_y]
    linear_combination c * hd

theorem fitBoss_fuel {cfg : BossFit} {w : Line × Line} {k0 k1 : Key} {r : Vec × Line × Line}
    (h : fitBoss cfg w k0 k1 = .ok r) : ∃ fuel, fitBoss2D cfg w k0 k1 fuel = some (.ok r) := by
  unfold fitBoss at h
  split_ifs at h with hx
  obtain ⟨fuel, hf⟩ := hx.choose_spec
  rw [h] at hf
  exact ⟨fuel, hf⟩

theorem fitBoss_pushed {cfg : BossFit} {w w' : Line × Line} {k0 k1 : Key} {b : Vec} (hw : WallPair w)
    (h : fitBoss cfg w k0 k1 = .ok (b, w')) : Pushed w w' := by
  obtain ⟨fuel, hf⟩ := fitBoss_fuel h
  rcases w with ⟨wI, wO⟩
  rcases w' with ⟨wI', wO'⟩
  obtain ⟨-, -, n, -, -, rfl, rfl, -⟩ := fitBoss_ok (planar_unit hw.1) hw.2.1 hf
  exact ⟨(n : ℝ) / 4, by positivity, rfl, rfl⟩

/-- A boss that keeps its distances: to the outer wall line, and to the two keys around it. -/
def Fits (cfg : BossFit) (w : Line × Line) (k0 k1 : Key) (b : Vec) : Prop :=
  b.z = 0 ∧ cfg.diameter / 2 + cfg.outerWallMargin ≤ left w.2.pos (w.2.pos + w.2.dir) b ∧
    ∀ k ∈ [k0, k1], ∀ p, InHull2D k.boundsI p → cfg.diameter / 2 ≤ dist2D b p

theorem fitBoss_fits {cfg : BossFit} (hr : 0 ≤ cfg.diameter) {w w' : Line × Line} {k0 k1 : Key} {b : Vec} (hw : WallPair w)
    (h : fitBoss cfg w k0 k1 = .ok (b, w')) :
    Fits cfg w' k0 k1 b ∧ left w'.2.pos (w'.2.pos + w'.2.dir) b = cfg.diameter / 2 + cfg.outerWallMargin := by
  obtain ⟨fuel, hf⟩ := fitBoss_fuel h
  rcases w with ⟨wI, wO⟩
  rcases w' with ⟨wI', wO'⟩
  obtain ⟨-, h2, h3, -, h5⟩ := C55_result (planar_unit hw.1) hw.2.1 hr hf
  exact ⟨⟨h2, h3.ge, h5⟩, h3⟩

theorem Fits.pushed {cfg : BossFit} {w w' : Line × Line} {k0 k1 : Key} {b : Vec} (hw : WallPair w) (hp : Pushed w w')
    (h : Fits cfg w k0 k1 b) : Fits cfg w' k0 k1 b := by
  obtain ⟨c, hc, -, e⟩ := hp.left hw
  refine ⟨h.1, ?_, h.2.2⟩
  rw [e]
  linarith [h.2.1]

/-- What is known of the bosses of a side. -/
structure BossesOk (cfg : BossFit) (l : Layout) (side : Side) (linesB linesF : Line × Line) (b : BossPos) : Prop where
  alnumB : ∃ keys k0 k1 rest, l.perAlnumCol 0 (some side) = .ok keys ∧ keys.Perm (k0 :: k1 :: rest) ∧ Fits cfg linesB k0 k1 b.alnumB
  pinkyB : ∃ keys k0 k1, l.perPinkyCol 0 (some side) = .ok keys ∧ pyIndex keys (-1) = .ok k0 ∧ pyIndex keys (-2) = .ok k1 ∧
    Fits cfg linesB k0 k1 b.pinkyB
  pinkyF : ∃ keys k0 k1, l.perPinkyCol (-1) (some side) = .ok keys ∧ pyIndex keys (-1) = .ok k0 ∧ pyIndex keys (-2) = .ok k1 ∧
    Fits cfg linesF k0 k1 b.pinkyF
  thumbF : ∃ k0 k1, (l.thumb (some side))[0]? = some k0 ∧ (l.thumb (some side))[1]? = some k1 ∧ Fits cfg linesF k0 k1 b.thumbF
  alnumB_eq : left linesB.2.pos (linesB.2.pos + linesB.2.dir) b.alnumB = cfg.diameter / 2 + cfg.outerWallMargin
  thumbF_eq : left linesF.2.pos (linesF.2.pos + linesF.2.dir) b.thumbF = cfg.diameter / 2 + cfg.outerWallMargin

theorem fitBosses_pushed {cfg : BossFit} {l : Layout} {t : TentPlanes} {side : Side} {wB wF wB' wF' : Line × Line} {b : BossPos}
    (hB : WallPair wB) (hF : WallPair wF)
    (h : fitBosses cfg l t side wB wF = .ok (b, wB', wF')) : Pushed wB wB' ∧ Pushed wF wF' := by
  unfold fitBosses at h
  obtain ⟨_, -, h⟩ := bind_ok h
  obtain ⟨_, -, h⟩ := bind_ok h
  obtain ⟨_, -, h⟩ := bind_ok h
  obtain ⟨_, -, h⟩ := bind_ok h
  obtain ⟨_, -, h⟩ := bind_ok h
  obtain ⟨_, -, h⟩ := bind_ok h
  obtain ⟨_, -, h⟩ := bind_ok h
  obtain ⟨_, -, h⟩ := bind_ok h
  obtain ⟨⟨_, w1⟩, h1, h⟩ := bind_ok h
  obtain ⟨_, -, h⟩ := bind_ok h
  obtain ⟨_, -, h⟩ := bind_ok h
  obtain ⟨⟨_, w2⟩, h2, h⟩ := bind_ok h
  obtain ⟨⟨_, w3⟩, h3, h⟩ := bind_ok h
  obtain ⟨_, -, h⟩ := bind_ok h
  obtain ⟨_, -, h⟩ := bind_ok h
  obtain ⟨⟨_, w4⟩, h4, h⟩ := bind_ok h
  obtain ⟨_, -, h⟩ := bind_ok h
  obtain ⟨_, -, h⟩ := bind_ok h
  obtain ⟨⟨_, w5⟩, h5, h⟩ := bind_ok h
  obtain ⟨⟨_, w6⟩, h6, h⟩ := bind_ok h
  cases h
  have p1 := fitBoss_pushed hB h1
  have p2 := fitBoss_pushed (p1.wallPair hB) h2
  have p3 := fitBoss_pushed (p2.wallPair (p1.wallPair hB)) h3
  have p4 := fitBoss_pushed hF h4
  have p5 := fitBoss_pushed (p4.wallPair hF) h5
  have p6 := fitBoss_pushed (p5.wallPair (p4.wallPair hF)) h6
  exact ⟨p1.trans (p2.trans p3), p4.trans (p5.trans p6)⟩

theorem fitBosses_ok {cfg : BossFit} (hr : 0 ≤ cfg.diameter) {l : Layout} {t : TentPlanes} {side : Side}
    {wB wF wB' wF' : Line × Line} {b : BossPos} (hB : WallPair wB) (hF : WallPair wF)
    (hX : UnitPlane t.pivotOF) (hT : UnitPlane t.alnumOT)
    (h : fitBosses cfg l t side wB wF = .ok (b, wB', wF')) : BossesOk cfg l side wB' wF' b := by
  unfold fitBosses at h
  obtain ⟨ksB, hksB, h⟩ := bind_ok h
  obtain ⟨ksF, hksF, h⟩ := bind_ok h
  obtain ⟨kb, hkb, h⟩ := bind_ok h
  obtain ⟨px, hpx, h⟩ := bind_ok h
  obtain ⟨pB, hpB, h⟩ := bind_ok h
  obtain ⟨aks, haks, h⟩ := bind_ok h
  obtain ⟨a0, ha0, h⟩ := bind_ok h
  obtain ⟨a1, ha1, h⟩ := bind_ok h
  obtain ⟨⟨_, w1⟩, h1, h⟩ := bind_ok h
  obtain ⟨b0, hb0, h⟩ := bind_ok h
  obtain ⟨b1, hb1, h⟩ := bind_ok h
  obtain ⟨⟨q2, w2⟩, h2, h⟩ := bind_ok h
  obtain ⟨⟨q3, w3⟩, h3, h⟩ := bind_ok h
  obtain ⟨t0, ht0, h⟩ := bind_ok h
  obtain ⟨t1, ht1, h⟩ := bind_ok h
  obtain ⟨⟨_, w4⟩, h4, h⟩ := bind_ok h
  obtain ⟨f0, hf0, h⟩ := bind_ok h
  obtain ⟨f1, hf1, h⟩ := bind_ok h
  obtain ⟨⟨q5, w5⟩, h5, h⟩ := bind_ok h
  obtain ⟨⟨q6, w6⟩, h6, h⟩ := bind_ok h
  cases h
  have p1 := fitBoss_pushed hB h1
  have p2 := fitBoss_pushed (p1.wallPair hB) h2
  have p3 := fitBoss_pushed (p2.wallPair (p1.wallPair hB)) h3
  have p4 := fitBoss_pushed hF h4
  have p5 := fitBoss_pushed (p4.wallPair hF) h5
  have p6 := fitBoss_pushed (p5.wallPair (p4.wallPair hF)) h6
  have g1 := p1.wallPair hB
  have g2 := p2.wallPair g1
  have g4 := p4.wallPair hF
  have g5 := p5.wallPair g4
  obtain ⟨s2, -⟩ := fitBoss_fits hr g1 h2
  obtain ⟨s3, s3'⟩ := fitBoss_fits hr g2 h3
  obtain ⟨s5, -⟩ := fitBoss_fits hr g4 h5
  obtain ⟨s6, s6'⟩ := fitBoss_fits hr g5 h6
  rw [Plane.fromX_eq] at hpx
  cases hpx
  obtain ⟨-, -, -, rest, -, -, -, hperm, hlen, -, -⟩ := C55_boss_keys (by simp [Vec.dot]) hX (wallPlane_ok hB.2.1 hpB).1 hT haks
  have hks : ∃ r, aks = a0 :: a1 :: r ∧ r = [] := by
    rw [pyIndex_zero] at ha0
    rw [pyIndex_one] at ha1
    have : aks.length ≤ 2 := by omega
    match aks, ha0, ha1, this with
    | [x, y], h0, h1, _ =>
      simp at h0 h1
      exact ⟨[], by rw [h0, h1], rfl⟩
    | [], h0, _, _ => simp at h0
    | [_], _, h1, _ => simp at h1
  obtain ⟨_, rfl, rfl⟩ := hks
  exact ⟨⟨kb, a0, a1, rest, hkb, hperm, s3⟩, ⟨ksB, b0, b1, hksB, hb0, hb1, s2.pushed g2 p3⟩,
    ⟨ksF, f0, f1, hksF, hf0, hf1, s5.pushed g5 p6⟩, ⟨t0, t1, pyIndex_zero.mp ht0, pyIndex_one.mp ht1, s6⟩, s3', s6'⟩

/-- What is known of the vertical walls. -/
structure WallsOk (body : BodyCfg) (l : Layout) (linesB linesF : Line × Line) (w : WallPlanes) : Prop where
  pairB : WallPair linesB
  pairF : WallPair linesF
  dirB : linesB.2.dir = dirAt (body.alnumBackAngle + body.splitAngle + Real.pi)
  dirF : linesF.2.dir = dirAt (body.thumbFrontAngle + body.splitAngle)
  alnumIB : UnitPlane w.alnumIB ∧ ∀ v, w.alnumIB.distance v = left linesB.1.pos (linesB.1.pos + linesB.1.dir) v
  alnumOB : UnitPlane w.alnumOB ∧ ∀ v, w.alnumOB.distance v = left linesB.2.pos (linesB.2.pos + linesB.2.dir) v
  pinkyIF : UnitPlane w.pinkyIF ∧ ∀ v, w.pinkyIF.distance v = left linesF.1.pos (linesF.1.pos + linesF.1.dir) v
  pinkyOF : UnitPlane w.pinkyOF ∧ ∀ v, w.pinkyOF.distance v = left linesF.2.pos (linesF.2.pos + linesF.2.dir) v
  gapB : ∀ v, w.alnumOB.distance v = w.alnumIB.distance v + body.wallThickness
  gapF : ∀ v, w.pinkyOF.distance v = w.pinkyIF.distance v + body.wallThickness
  keysIB : ∀ k ∈ fingers l 0 none ++ fingers l 1 none ++ thumbs l none, ∀ p ∈ k.boundsI, 0 ≤ w.alnumIB.distance p
  keysOB : ∀ k ∈ fingers l 0 none ++ fingers l 1 none ++ thumbs l none, ∀ p ∈ k.boundsO, 0 ≤ w.alnumOB.distance p
  keysIF : ∀ k ∈ fingers l 0 none ++ fingers l 1 none ++ thumbs l none, ∀ p ∈ k.boundsI, 0 ≤ w.pinkyIF.distance p
  keysOF : ∀ k ∈ fingers l 0 none ++ fingers l 1 none ++ thumbs l none, ∀ p ∈ k.boundsO, 0 ≤ w.pinkyOF.distance p

theorem wallLines_pair {keys : List Key} {thickness angle : ℝ} {w : Line × Line}
    (h : wallLines2D keys thickness angle = .ok w) : WallPair w := by
  rcases w with ⟨wI, wO⟩
  obtain ⟨h1, h2⟩ := wallLines_planar h
  obtain ⟨⟨e1, e2, -, -⟩, -⟩ := C56_walls h
  exact ⟨h1, h2, by rw [e1, e2]⟩

theorem vertical_ok {cfg : PlanCfg} {side : Side} {l : Layout} {t : TentPlanes} {b : BossPos} {wB wF : Line × Line}
    {walls : WallPlanes} (h2 : TwoGroups l) (h : vertical cfg side l t = .ok (b, wB, wF, walls)) :
    WallsOk cfg.body l wB wF walls ∧
    (0 ≤ cfg.boss.diameter → UnitPlane t.pivotOF → UnitPlane t.alnumOT → BossesOk cfg.boss l side wB wF b) := by
  unfold vertical at h
  dsimp only at h
  rw [allKeys_ok h2] at h
  obtain ⟨_, ⟨⟩, h⟩ := bind_ok h
  obtain ⟨wB0, hB0, h⟩ := bind_ok h
  obtain ⟨wF0, hF0, h⟩ := bind_ok h
  obtain ⟨⟨_, wB1, wF1⟩, h1, h⟩ := bind_ok h
  dsimp only at h
  obtain ⟨⟨b, wB2, wF2⟩, h3, h⟩ := bind_ok h
  dsimp only at h
  obtain ⟨pIB, hIB, h⟩ := bind_ok h
  obtain ⟨pOB, hOB, h⟩ := bind_ok h
  obtain ⟨pIF, hIF, h⟩ := bind_ok h
  obtain ⟨pOF, hOF, h⟩ := bind_ok h
  cases h
  have gB0 := wallLines_pair hB0
  have gF0 := wallLines_pair hF0
  obtain ⟨qB, qF⟩ := fitBosses_pushed gB0 gF0 h1
  obtain ⟨qB', qF'⟩ := fitBosses_pushed (qB.wallPair gB0) (qF.wallPair gF0) h3
  have pB := qB.trans qB'
  have pF := qF.trans qF'
  have gB := pB.wallPair gB0
  have gF := pF.wallPair gF0
  have eIB := wallPlane_ok gB.1 hIB
  have eOB := wallPlane_ok gB.2.1 hOB
  have eIF := wallPlane_ok gF.1 hIF
  have eOF := wallPlane_ok gF.2.1 hOF
  obtain ⟨cB, hcB, lB1, lB2⟩ := pB.left gB0
  obtain ⟨cF, hcF, lF1, lF2⟩ := pF.left gF0
  rcases wB0 with ⟨wBI, wBO⟩
  rcases wF0 with ⟨wFI, wFO⟩
  obtain ⟨⟨b1, b2, b3, b4⟩, bI, bO, -⟩ := C56_walls hB0
  obtain ⟨⟨f1, f2, f3, f4⟩, fI, fO, -⟩ := C56_walls hF0
  refine ⟨⟨gB, gF, ?_, ?_, eIB, eOB, eIF, eOF, ?_, ?_, ?_, ?_, ?_, ?_⟩, fun hr hX hT =>
    fitBosses_ok hr (qB.wallPair gB0) (qF.wallPair gF0) hX hT h3⟩
  · obtain ⟨c, -, -, e⟩ := pB
    rw [e]; exact b2
  · obtain ⟨c, -, -, e⟩ := pF
    rw [e]; exact f2
  · intro v
    have h1 := wall_gap b4 v
    have h2 := eIB.2 v
    have h3 := eOB.2 v
    have h4 := lB1 v
    have h5 := lB2 v
    dsimp only at h1 h2 h3 h4 h5 ⊢
    rw [b2] at h5
    rw [b1] at h4
    linarith
  · intro v
    have h1 := wall_gap f4 v
    have h2 := eIF.2 v
    have h3 := eOF.2 v
    have h4 := lF1 v
    have h5 := lF2 v
    dsimp only at h1 h2 h3 h4 h5 ⊢
    rw [f2] at h5
    rw [f1] at h4
    linarith
  · intro k hk p hp
    have h1 := bI k hk p hp
    have h2 := eIB.2 p
    have h3 := lB1 p
    dsimp only at h1 h2 h3 ⊢
    linarith
  · intro k hk p hp
    have h1 := bO k hk p hp
    have h2 := eOB.2 p
    have h3 := lB2 p
    dsimp only at h1 h2 h3 ⊢
    linarith
  · intro k hk p hp
    have h1 := fI k hk p hp
    have h2 := eIF.2 p
    have h3 := lF1 p
    dsimp only at h1 h2 h3 ⊢
    linarith
  · intro k hk p hp
    have h1 := fO k hk p hp
    have h2 := eOF.2 p
    have h3 := lF2 p
    dsimp only at h1 h2 h3 ⊢
    linarith

end Chrumm.Part
