import Verif.Props.ArcSpacing
import Verif.Props.CableShape
import Verif.Props.PartEdges
import Verif.Props.Hull
import Verif.Props.BodyMake

/-! The profile of a cable hole has no sides that are too short. -/

namespace Chrumm.Part
open Geo Geo.Spec Spec

/-- Points that coincide, or that `collapsed` keeps. -/
def Far (a b : Vec) : Prop := a = b ∨ 1 / 1000 ≤ Real.sqrt (distSq a b)

theorem Far.symm {a b : Vec} (h : Far a b) : Far b a := by
  rcases h with h | h
  · exact .inl h.symm
  · refine .inr (h.trans_eq ?_)
    unfold distSq
    congr 1; ring

theorem far_shift {a b c d : Vec} (h : distSq c d = distSq a b) (he : a = b → c = d) (hf : Far a b) : Far c d := by
  rcases hf with hf | hf
  · exact .inl (he hf)
  · exact .inr (by rw [h]; exact hf)

theorem chain_path {R : Vec → Vec → Prop} : ∀ {l : List Vec}, (∀ s ∈ pathPairs l, R s.1 s.2) → l.IsChain R
  | [], _ => by simp
  | [a], _ => by simp
  | a :: b :: l, h => by
    rw [List.isChain_cons_cons]
    refine ⟨h (a, b) (by simp [pathPairs]), chain_path fun s hs => h s ?_⟩
    simp only [pathPairs, List.tail_cons, List.zip_cons_cons, List.mem_cons] at hs ⊢
    exact .inr hs

theorem path_chain {R : Vec → Vec → Prop} : ∀ {l : List Vec}, l.IsChain R → ∀ s ∈ pathPairs l, R s.1 s.2
  | [], _ => by simp [pathPairs]
  | [a], _ => by simp [pathPairs]
  | a :: b :: l, h => by
    rw [List.isChain_cons_cons] at h
    intro s hs
    simp only [pathPairs, List.tail_cons, List.zip_cons_cons, List.mem_cons] at hs
    rcases hs with rfl | hs
    · exact h.1
    · exact path_chain h.2 s hs

/-- Closing an edge. -/
theorem apart_of_chain {l : List Vec} (h : l.IsChain Far) (hc : Far (l.getLastD 0) (l.headD 0)) : Apart l := by
  cases l with
  | nil => intro s hs; simp [cycPairs] at hs
  | cons a l =>
    intro s hs
    rw [cycPairs_cons] at hs
    refine path_chain (R := Far) ?_ s hs
    rw [List.isChain_append]
    refine ⟨h, by simp, ?_⟩
    intro x hx y hy
    simp only [List.head?_cons, Option.mem_some_iff] at hy
    subst hy
    rw [List.getLastD_eq_getLast?, Option.mem_def.mp hx] at hc
    exact hc

/-- The same in the plane. -/
def Far2 (a b : Vec) : Prop := a = b ∨ 1 / 1000 ≤ Real.sqrt (distSq2D a b)

theorem far_map {f : Vec → Vec} (h : ∀ a b, distSq (f a) (f b) = distSq2D a b) {l : List Vec} (hl : l.IsChain Far2) : (l.map f).IsChain Far := by
  rw [List.isChain_map]
  refine hl.imp fun a b hab => ?_
  rcases hab with rfl | hab
  · exact .inl rfl
  · exact .inr (by rw [h]; exact hab)

theorem far_reverse {l : List Vec} (hl : l.IsChain Far) : l.reverse.IsChain Far := by
  rw [List.isChain_reverse]
  exact hl.imp fun a b hab => hab.symm

theorem far_arc {q : Quality} {radius start span : ℝ} {center : Vec} {pts : List Vec} (hq : 0 < q.maxChordAngle) (hh : 0 < q.maxChordHeight)
    (h0 : 1 / 100 ≤ radius) (h1 : 1 / 300 ≤ radius * q.maxChordAngle) (h2 : 1 / 300000 ≤ q.maxChordHeight * radius) (h3 : Real.pi / 2000 ≤ radius * |span|) (hs : |span| ≤ Real.pi)
    (h : arc2D q radius start span center = .ok pts) : pts.IsChain Far2 := by
  refine chain_path fun s hm => .inr ?_
  have := C53_spacing (by linarith) hq hh hs h s hm
  have hpi := Real.pi_pos
  have hpi' := Real.pi_lt_d2
  have a1 : Real.pi / 2000 ≤ min (radius * |span|) (min (radius * (q.maxChordAngle / 2)) (Real.sqrt (2 * q.maxChordHeight * radius))) := by
    refine le_min h3 (le_min ?_ ?_)
    · norm_num at hpi'; linarith
    · refine Real.le_sqrt_of_sq_le ?_
      norm_num at hpi'
      nlinarith
  have a2 := mul_le_mul_of_nonneg_left a1 (by positivity : 0 ≤ 2 / Real.pi)
  have a3 : 2 / Real.pi * (Real.pi / 2000) = 1 / 1000 := by field_simp; norm_num
  rw [a3] at a2
  exact a2.trans this

theorem bump_chain {q : Quality} {cfg : CableCfg} {t : ℝ} {B T : List Vec} (hs : SaneCable cfg t) (hf : FineCable q cfg t)
    (h : cableBump q cfg = .ok (B, T)) : B.IsChain Far2 ∧ T.IsChain Far2 := by
  obtain ⟨-, -, -, s1, s2, s3, s4⟩ := hs
  have hq := hf.angle
  have hh := hf.height
  obtain ⟨q1, q2⟩ := hf.chords cfg.wallBumpRadius (by simp)
  have b0 := hf.bump
  unfold cableBump at h
  dsimp only at h
  obtain ⟨d, h1, h⟩ := bind_ok h
  obtain ⟨bend, h2, h⟩ := bind_ok h
  obtain ⟨tip, h3, h⟩ := bind_ok h
  obtain ⟨k, h4, h⟩ := bind_ok h
  obtain ⟨tap, h5, h⟩ := bind_ok h
  obtain ⟨t1, h6, h⟩ := bind_ok h
  have h := Except.ok.inj h
  obtain ⟨rfl, rfl⟩ := Prod.mk.inj h
  clear h
  have hpi := Real.pi_pos
  have h20 : (0 : ℝ) < Real.sqrt 2 := by positivity
  have h22 : Real.sqrt 2 * Real.sqrt 2 = 2 := Real.mul_self_sqrt (by norm_num)
  have ed : d = ⟨1 / Real.sqrt 2, 1 / Real.sqrt 2, 0⟩ := by
    refine (normalized_unit h1).unique ⟨?_, Real.sqrt 2, h20, ?_⟩
    · simp only [Vec.dot]; field_simp; linarith
    · ext <;> simp
  have etip : d * (cfg.minBendRadius - cfg.wallBumpRadius) = CableCfg.tip cfg := by
    rw [ed]; unfold CableCfg.tip; ext <;> simp <;> ring
  rw [etip] at h3 h5
  have hb : 1 / 100 ≤ cfg.minBendRadius := by linarith
  have ht : tau = 2 * Real.pi := rfl
  have a4 : |-tau / 8| = Real.pi / 4 := by rw [ht, show -(2 * Real.pi) / 8 = -(Real.pi / 4) by ring, abs_neg, abs_of_pos (by linarith)]
  have a5 : |-(tau / 4 - cfg.wallBumpTaperAngle)| = Real.pi / 2 - cfg.wallBumpTaperAngle := by
    rw [abs_neg, ht, abs_of_pos (by linarith)]; ring
  have w2 : Real.pi / 2000 ≤ cfg.minBendRadius * |-tau / 8| := by rw [a4]; nlinarith
  have w3 : Real.pi / 2000 ≤ cfg.wallBumpRadius * |-tau / 8| := by rw [a4]; nlinarith
  have w5 : Real.pi / 2000 ≤ cfg.wallBumpRadius * |-(tau / 4 - cfg.wallBumpTaperAngle)| := by
    rw [a5]
    have := hf.taper
    have h7 : Real.pi / 12 ≤ Real.pi / 2 - cfg.wallBumpTaperAngle := by linarith
    have := mul_le_mul b0 h7 (by positivity) (by linarith)
    linarith
  have c2 := far_arc hq hh hb (q1.trans (mul_le_mul_of_nonneg_right s2 hq.le)) (q2.trans (mul_le_mul_of_nonneg_left s2 hh.le)) w2 (by rw [a4]; linarith) h2
  have c3 := far_arc hq hh b0 q1 q2 w3 (by rw [a4]; linarith) h3
  have c5 := far_arc hq hh b0 q1 q2 w5 (by rw [a5]; linarith) h5
  have n2 := ((C53_ends (by linarith) hq h2).2 (by rw [a4, ht]; linarith [Real.two_le_pi])).2
  have n3 := (C53_ends s1 hq h3).1
  have n5 := ((C53_ends s1 hq h5).2 (by rw [a5, ht]; linarith [Real.two_le_pi])).2
  constructor
  · cases tip with
    | nil => simp at n3
    | cons x rest =>
      rw [List.drop_succ_cons, List.drop_zero, List.isChain_append]
      rw [List.isChain_cons] at c3
      refine ⟨c2, c3.2, ?_⟩
      intro u hu v hv
      have : u = x := by
        rw [n2] at hu
        rw [List.head?_cons] at n3
        rw [← Option.some.inj hu, Option.some.inj n3, ht, show 2 * Real.pi / 4 + -(2 * Real.pi) / 8 = Real.pi / 4 by ring, show 2 * Real.pi / 8 = Real.pi / 4 by ring]
        unfold circlePoint CableCfg.tip
        rw [Real.cos_pi_div_four, Real.sin_pi_div_four]
        have e : ∀ z : ℝ, z / Real.sqrt 2 = z * (Real.sqrt 2 / 2) := by
          intro z
          rw [div_eq_iff h20.ne']
          linear_combination (-z / 2) * h22
        ext <;> simp [e] <;> ring
      rw [this]
      exact c3.1 v hv
  · rw [List.isChain_append]
    refine ⟨c5, by simp, ?_⟩
    intro u hu v hv
    simp only [List.head?_cons, Option.mem_some_iff] at hv
    subst hv
    rw [n5] at hu
    have := pyIndex_last.mp h6
    rw [n5] at this
    obtain rfl := Option.some.inj hu
    obtain rfl := Option.some.inj this
    have e : (circlePoint (CableCfg.tip cfg) cfg.wallBumpRadius (0 + -(tau / 4 - cfg.wallBumpTaperAngle))).x =
        (cfg.minBendRadius - cfg.wallBumpRadius) / Real.sqrt 2 + Real.sin cfg.wallBumpTaperAngle * cfg.wallBumpRadius := by
      unfold circlePoint CableCfg.tip
      rw [ht, show 0 + -(2 * Real.pi / 4 - cfg.wallBumpTaperAngle) = -(Real.pi / 2 - cfg.wallBumpTaperAngle) by ring, Real.cos_neg, Real.cos_pi_div_two_sub]
      ring
    have tipx := hf.tip
    rw [← e] at tipx
    refine .inr (Real.le_sqrt_of_sq_le ?_)
    generalize circlePoint (CableCfg.tip cfg) cfg.wallBumpRadius (0 + -(tau / 4 - cfg.wallBumpTaperAngle)) = P at *
    unfold distSq2D
    dsimp only
    have := pow_le_pow_left₀ (by norm_num) tipx 2
    nlinarith [sq_nonneg (P.y - (P.y - P.x * k)), sq_nonneg (P.z - 0), sq_nonneg (P.y - P.x * k - P.y), sq_nonneg (0 - P.z)]

/-- **C81** A cable hole with sensible dimensions has no sides so short that they would be lost, and it is open at the front. -/
theorem C81_apart {q : Quality} {taper : Option ℝ} {cfg : CableCfg} {bracket wall : ℝ} {pos : Vec} {c : Cable} (hs : SaneCable cfg wall)
    (hf : FineCable q cfg wall) (ht : ∀ a ∈ taper, a < Real.pi) (h : Cable.make q taper cfg bracket pos wall = .ok c) :
    Apart c.splitEdgeRaw ∧ c.splitEdgeRaw.getLastD 0 ≠ c.splitEdgeRaw.headD 0 := by
  have hq := hf.angle
  have hh := hf.height
  obtain ⟨-, B, T, ls, e1, -, e2, e3, fil, e4, e5⟩ := cable_full hs hq ht h
  obtain ⟨cB, cT⟩ := bump_chain hs hf e1
  obtain ⟨b1, ⟨bl, b2, b3, b8⟩, b4, b5, T0, be, b6, b7⟩ := bump_ok hs hq e1
  have hpi := Real.pi_pos
  have f0 := hf.fillet
  obtain ⟨q1, q2⟩ := hf.chords cfg.wallExitFillet (by simp)
  have ht4 : |tau / 4| = Real.pi / 2 := by unfold tau; rw [abs_of_pos (by linarith)]; ring
  have cF := far_arc hq hh f0 q1 q2 (by rw [ht4]; nlinarith) (by rw [ht4]; linarith) e4
  have nF := (C53_ends hs.fillet hq e4).1
  have tl : T.getLast? = some be := by rw [b6, List.getLast?_append]; rfl
  rw [e3]
  generalize cfg.diameter / 2 = r at *
  have g1 : (T.map fun b => (⟨pos.x, pos.y - b.x, pos.z - 2 * r - cfg.minBendRadius + b.y⟩ : Vec)).IsChain Far :=
    far_map (fun a b => by simp only [distSq, distSq2D]; ring) cT
  have g2 : (B.map fun b => pos + ⟨0, 0, -(2 * r)⟩ + (⟨0, -b.x, b.y - cfg.minBendRadius⟩ : Vec)).IsChain Far :=
    far_map (fun a b => by simp only [distSq, distSq2D, Vec.add_x, Vec.add_y, Vec.add_z]; ring) cB
  have g3 : (fil.map fun p => pos + (⟨0, wall - cfg.wallExitFillet + p.y, -(2 * r + cfg.wallExitFillet - p.x)⟩ : Vec)).IsChain Far :=
    far_map (fun a b => by simp only [distSq, distSq2D, Vec.add_x, Vec.add_y, Vec.add_z]; ring) cF
  have g4 : ls.IsChain Far := by
    rw [e5, List.isChain_cons]
    refine ⟨?_, g3⟩
    intro y hy
    rw [List.head?_map, nF, Option.map_some, Option.mem_some_iff] at hy
    subst hy
    unfold circlePoint
    rcases hf.inner with e | e
    · refine .inl ?_
      rw [e]
      ext <;> simp
    · refine .inr (Real.le_sqrt_of_sq_le ?_)
      simp only [distSq, Vec.add_x, Vec.add_y, Vec.add_z, Real.sin_zero, Real.cos_zero, Vec.zero_x, Vec.zero_y]
      have := pow_le_pow_left₀ (by norm_num) e 2
      ring_nf at this ⊢
      linarith
  have hl : (T.map fun b => (⟨pos.x, pos.y - b.x, pos.z - 2 * r - cfg.minBendRadius + b.y⟩ : Vec)).getLast? =
      some (⟨pos.x, pos.y - be.x, pos.z - 2 * r - cfg.minBendRadius + be.y⟩ : Vec) := by rw [List.getLast?_map, tl]; rfl
  have hT0 : (T.map fun b => (⟨pos.x, pos.y - b.x, pos.z - 2 * r - cfg.minBendRadius + b.y⟩ : Vec)).head? =
      some (⟨pos.x, pos.y - bl.x, pos.z - 2 * r - cfg.minBendRadius + bl.y⟩ : Vec) := by rw [List.head?_map, b3]; rfl
  have hB0 : (B.map fun b => pos + ⟨0, 0, -(2 * r)⟩ + (⟨0, -b.x, b.y - cfg.minBendRadius⟩ : Vec)).head? =
      some (pos + ⟨0, 0, -(2 * r)⟩) := by
    rw [List.head?_map, b1, Option.map_some]
    congr 1
    ext <;> simp
  have hB1 : (B.map fun b => pos + ⟨0, 0, -(2 * r)⟩ + (⟨0, -b.x, b.y - cfg.minBendRadius⟩ : Vec)).getLast? =
      some (⟨pos.x, pos.y - bl.x, pos.z - 2 * r - cfg.minBendRadius + bl.y⟩ : Vec) := by
    rw [List.getLast?_map, b2, Option.map_some]
    congr 1
    ext <;> simp <;> ring
  have hls : ls.head? = some (pos + ⟨0, 0, -(2 * r)⟩) := by rw [e5]; rfl
  generalize (T.map fun b => (⟨pos.x, pos.y - b.x, pos.z - 2 * r - cfg.minBendRadius + b.y⟩ : Vec)) = T' at *
  generalize (B.map fun b => pos + ⟨0, 0, -(2 * r)⟩ + (⟨0, -b.x, b.y - cfg.minBendRadius⟩ : Vec)) = B' at *
  have wl := hs.fillet_le
  have e6 : (T'.reverse ++ B'.reverse ++ ls).getLastD 0 = pos + ⟨0, wall, -(2 * r + cfg.wallExitFillet)⟩ := by
    rw [List.getLastD_eq_getLast?, List.getLast?_append, e2]; rfl
  have e7 : (T'.reverse ++ B'.reverse ++ ls).headD 0 = ⟨pos.x, pos.y - be.x, pos.z - 2 * r - cfg.minBendRadius + be.y⟩ := by
    rw [List.headD_eq_head?_getD, List.append_assoc, List.head?_append, List.head?_reverse, hl]; rfl
  constructor
  · refine apart_of_chain ?_ ?_
    · rw [List.isChain_append, List.isChain_append]
      refine ⟨⟨far_reverse g1, far_reverse g2, ?_⟩, g4, ?_⟩
      · intro x hx y hy
        rw [List.getLast?_reverse, hT0] at hx
        rw [List.head?_reverse, hB1] at hy
        exact .inl ((Option.some.inj hx).symm.trans (Option.some.inj hy))
      · intro x hx y hy
        rw [List.getLast?_append, List.getLast?_reverse, hB0] at hx
        rw [hls] at hy
        exact .inl ((Option.some.inj hx).symm.trans (Option.some.inj hy))
    · rw [e6, e7]
      refine .inr (Real.le_sqrt_of_sq_le ?_)
      simp only [distSq, Vec.add_x, Vec.add_y, Vec.add_z, b7]
      have := pow_le_pow_left₀ (by norm_num) (f0.trans wl) 2
      nlinarith [sq_nonneg (pos.z + -(2 * r + cfg.wallExitFillet) - (pos.z - 2 * r - cfg.minBendRadius + be.y)),
        sq_nonneg ((pos.z - 2 * r - cfg.minBendRadius + be.y) - (pos.z + -(2 * r + cfg.wallExitFillet)))]
  · rw [e6, e7]
    intro e
    have := congrArg Vec.y e
    simp only [Vec.add_y, b7] at this
    linarith

/-- **C81** The cable hole closes up with the wall around it and the split, for all sensible dimensions. -/
theorem C81_sane {q : Quality} {taper : Option ℝ} {cfg : CableCfg} {bracket wall : ℝ} {pos : Vec} {c : Cable} (hs : SaneCable cfg wall)
    (hf : FineCable q cfg wall) (ht : ∀ a ∈ taper, a < Real.pi) (h : Cable.make q taper cfg bracket pos wall = .ok c) :
    Fit c.pieces (pathPairs c.wallEdgeF ++ pathPairs c.splitEdgeG ++ pathPairs c.wallEdgeB ++ pathPairs c.splitEdgeT) := by
  obtain ⟨h1, h2⟩ := C81_apart hs hf ht h
  exact C81_fit h h1 h2

theorem cableApart_of {cfg : KeyboardCfg} {bc : BracketCfg} {wall : ℝ} (hc : ∀ cc ∈ cfg.cable, SaneCable cc wall ∧ FineCable cfg.quality cc wall)
    (ht : ∀ a ∈ cfg.taper, a < Real.pi) : CableApart cfg bc wall :=
  fun cc hcc _ _ h => C81_apart (hc cc hcc).1 (hc cc hcc).2 ht h

/-- **C83** With brackets and a cable hole of sensible dimensions, the pieces of a body fit. -/
theorem C83_cable {cfg : KeyboardCfg} {side : Side} {fp : FullPlan} {body : Body} (h : FullPlan.make cfg side = .ok fp)
    (hb : Body.make cfg fp = .ok body) (hs : SaneBody cfg)
    (he : ∀ ec ∈ cfg.encoder, 0 < (body.step.alnumOLF.y - fp.plan.points.ridgeORF.y) * fp.plan.points.ridgeORF.x)
    (hj : ∀ bc ∈ cfg.bracket, body.ridge.ilft.y < fp.plan.points.ridgeIRF.y ∧ body.step.alnumILF.y ≤ body.inner.alnumILBT.y)
    (hc : ∀ cc ∈ cfg.cable, SaneCable cc (fp.plan.points.alnumOLB.y - fp.plan.points.alnumILB.y) ∧
      FineCable cfg.quality cc (fp.plan.points.alnumOLB.y - fp.plan.points.alnumILB.y)) (ht : ∀ a ∈ cfg.taper, a < Real.pi) :
    Fit (body.faces ++ body.pieces) [] :=
  C83_body h hb hs he fun bc hbc => ⟨(hj bc hbc).1, (hj bc hbc).2, cableApart_of hc ht⟩

theorem exampleCable_fine : FineCable ⟨1 / 100, 1 / 10⟩ exampleCable 2 := by
  have hpi := Real.pi_pos
  have h2 : (0 : ℝ) ≤ (4 - 1) / Real.sqrt 2 := by positivity
  refine ⟨by norm_num, by norm_num, by norm_num [exampleCable], by norm_num [exampleCable], .inr (by norm_num [exampleCable]), ?_, ?_, ?_⟩
  · simp only [exampleCable]; linarith
  · simp only [exampleCable, Real.sin_pi_div_six]; linarith
  · intro r hr
    simp only [exampleCable, List.mem_cons, List.not_mem_nil, or_false] at hr
    rcases hr with rfl | rfl <;> norm_num

/-- C81 for the cable of `chrumm.json`. -/
example (pos : Vec) : ∃ c, Cable.make ⟨1 / 100, 1 / 10⟩ (some (Real.pi / 4)) exampleCable 20 pos 2 = .ok c ∧
    Fit c.pieces (pathPairs c.wallEdgeF ++ pathPairs c.splitEdgeG ++ pathPairs c.wallEdgeB ++ pathPairs c.splitEdgeT) ∧
    (∀ tss, SoundMesh c.pieces tss → Closes tss.flatten
      (pathPairs c.wallEdgeF ++ pathPairs c.splitEdgeG ++ pathPairs c.wallEdgeB ++ pathPairs c.splitEdgeT)) ∧
    c.wallEdgeF.getLastD 0 = c.splitEdgeG.headD 0 ∧ (pos.x = 0 → ∀ p ∈ c.splitEdgeT, p.x = 0) := by
  have hpi := Real.pi_pos
  have hs : SaneCable exampleCable 2 := by
    constructor <;> simp only [exampleCable] <;> first | linarith | norm_num
  have ht : ∀ a ∈ some (Real.pi / 4), a < Real.pi := by intro a ha; simp at ha; linarith
  obtain ⟨c, hc⟩ := C99_succeeds (q := ⟨1 / 100, 1 / 10⟩) (taper := some (Real.pi / 4)) (bracket := 20) (pos := pos) hs (by norm_num) (by norm_num)
    (by simp [exampleCable]; norm_num) (by simp [exampleCable]; norm_num) (by simp [exampleCable]; norm_num) ht
  obtain ⟨a1, a2⟩ := C81_apart hs exampleCable_fine ht hc
  exact ⟨c, hc, C81_sane hs exampleCable_fine ht hc, fun tss hm => C81_closes hc a1 a2 hm, (C81_edges hc a1 a2).2.2.2.2.2.1, C81_split (by norm_num) hc⟩

end Chrumm.Part
