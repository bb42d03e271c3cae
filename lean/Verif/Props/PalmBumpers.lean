import Verif.Props.PalmOrderly
import Verif.Props.PalmShape
import Verif.Props.Bumper

/-! The places of the bumpers of a palm rest (C88). -/

namespace Chrumm.Part
open Geo Geo.Spec Spec

theorem palmMatrix_dist {a b : Vec} {m : Mat} (h : palmMatrix a b = .ok m) (p q : Vec) :
    distSq2D (p.transformed m) (q.transformed m) = distSq2D p q ∧ (p.transformed m).z = p.z + (a.z + b.z) / 2 := by
  unfold palmMatrix at h
  obtain ⟨d, h1, h2⟩ := bind_ok h
  obtain rfl := Except.ok.inj h2
  have hd : d.z = (a.z + b.z) / 2 := by
    unfold Vec.div at h1
    rw [if_neg (by norm_num)] at h1
    rw [← Except.ok.inj h1]
    simp
  have hP : ∀ p : Vec, p.transformed (((1 : Mat).rotatedZ (angle2D (b - a))).translated d) =
      ⟨p.x * Real.cos (angle2D (b - a)) - p.y * Real.sin (angle2D (b - a)) + d.x,
       p.x * Real.sin (angle2D (b - a)) + p.y * Real.cos (angle2D (b - a)) + d.y, p.z + d.z⟩ := by
    intro p
    ext <;> simp [Vec.transformed, Mat.translated, Mat.rotatedZ, Mat.rotateBy, Mat.one_def, Mat.mul_def]
    ring
  rw [hP, hP, ← hd]
  refine ⟨?_, rfl⟩
  have := Real.sin_sq_add_cos_sq (angle2D (b - a))
  unfold distSq2D
  simp only
  linear_combination ((p.x - q.x) ^ 2 + (p.y - q.y) ^ 2) * this

theorem palmBumperPos_ok {palm : PalmCfg} {bumper : BumperCfg} {s : PalmShape} {o : ℝ} {ps : List Vec}
    (hL : s.planeL = ⟨⟨-o, 0, 0⟩, ⟨-Real.cos palm.taperAngle, -Real.sin palm.taperAngle, 0⟩⟩) (h : palmBumperPos palm bumper s = .ok ps) :
    ∃ f b, ps = [f, b, f.mirroredX, b.mirroredX] ∧ f.y = s.palmFGy + bumperInset palm bumper ∧ b.y = s.palmBGy - bumperInset palm bumper ∧
      ∀ p ∈ [f, b], (p.x + o) * Real.cos palm.taperAngle + p.y * Real.sin palm.taperAngle = palm.floorContactWidth / 2 := by
  have key : (do
      let lineF ← Line.make ⟨0, s.palmFGy + bumperInset palm bumper, 0⟩ ⟨1, 0, 0⟩
      let lineB ← Line.make ⟨0, s.palmBGy - bumperInset palm bumper, 0⟩ ⟨1, 0, 0⟩
      let lineL ← Line.make (s.planeL.pos - s.planeL.normal * (palm.floorContactWidth / 2)) s.planeL.normal.ortho2D
      let lf ← lineL.intersect lineF
      let lb ← lineL.intersect lineB
      pure [lf, lb, lf.mirroredX, lb.mirroredX] : Py (List Vec)) = .ok ps := by
    rw [← h]
    unfold palmBumperPos bumperInset
    cases palm.groove with
    | none => simp only [add_zero]
    | some g => rfl
  clear h
  rename' key => h
  obtain ⟨lF, e1, h⟩ := bind_ok h
  obtain ⟨lB, e2, h⟩ := bind_ok h
  obtain ⟨lL, e3, h⟩ := bind_ok h
  obtain ⟨f, e4, h⟩ := bind_ok h
  obtain ⟨b, e5, h⟩ := bind_ok h
  obtain rfl := Except.ok.inj h
  have hu := Real.sin_sq_add_cos_sq palm.taperAngle
  rw [line_self (by simp [Vec.dot])] at e1 e2
  rw [hL] at e3
  rw [line_self (by simp only [Vec.dot, Vec.ortho2D]; linarith)] at e3
  obtain rfl := Except.ok.inj e1
  obtain rfl := Except.ok.inj e2
  obtain rfl := Except.ok.inj e3
  have pF : Planar ⟨⟨0, s.palmFGy + bumperInset palm bumper, 0⟩, ⟨1, 0, 0⟩⟩ := ⟨rfl, rfl, by simp [Vec.dot]⟩
  have pB : Planar ⟨⟨0, s.palmBGy - bumperInset palm bumper, 0⟩, ⟨1, 0, 0⟩⟩ := ⟨rfl, rfl, by simp [Vec.dot]⟩
  have pL : Planar ⟨(⟨-o, 0, 0⟩ : Vec) - (⟨-Real.cos palm.taperAngle, -Real.sin palm.taperAngle, 0⟩ : Vec) * (palm.floorContactWidth / 2),
      (⟨-Real.cos palm.taperAngle, -Real.sin palm.taperAngle, 0⟩ : Vec).ortho2D⟩ := ⟨by simp, rfl, by simp only [Vec.ortho2D]; linarith⟩
  obtain ⟨⟨t1, r1⟩, u1, q1⟩ := planar_intersect pL pF e4
  obtain ⟨⟨t2, r2⟩, u2, q2⟩ := planar_intersect pL pB e5
  refine ⟨f, b, rfl, by rw [q1]; simp, by rw [q2]; simp, ?_⟩
  intro p hp
  simp only [List.mem_cons, List.not_mem_nil, or_false] at hp
  rcases hp with rfl | rfl
  · rw [r1]
    simp [Vec.ortho2D]
    linear_combination palm.floorContactWidth / 2 * hu
  · rw [r2]
    simp [Vec.ortho2D]
    linear_combination palm.floorContactWidth / 2 * hu

set_option maxHeartbeats 1000000 in
/-- **C88.** A palm rest with bumpers has four of them, one at each of its corners: round recesses of the configured diameter in its underside, whose
centers are at the configured inset from the front or the back, and in the middle of the contact strip at the left or the right side. -/
theorem C88_bumpers {cfg : KeyboardCfg} {pc : PalmCfg} {points : Points} {hi : Hitch} {palm : Palm} {c : BumperCfg}
    (h : Palm.make cfg pc points hi = .ok palm) (hb : cfg.bumper = some c) (hq : SaneQuality cfg.quality) (hr : SaneRoof pc 0)
    (hf : 0 ≤ pc.floorFillet) (hfd : pc.floorFillet ≤ pc.depth) (hne : points.thumbOLF.xy ≠ points.pinkyORF.xy)
    (hd : 1 ≤ c.diameter) (hh : 1 / 1000 ≤ |c.height|) :
    let a := points.thumbOLF
    let b := points.pinkyORF
    ∃ edge lf lb rf rb, ∃ LF LB RF RB : Vec, face edge [lf, lb, rf, rb] ∈ palm.faces ∧
      (∀ x ∈ [(lf, LF), (lb, LB), (rf, RF), (rb, RB)], ∀ p ∈ x.1, distSq2D x.2 p = (c.diameter / 2) ^ 2 ∧ p.z = -cfg.floor.outerHeight) ∧
      (∀ p ∈ [LF, RF], fromWall a b p = pc.bodyMargin + pc.depth - bumperInset pc c) ∧
      (∀ p ∈ [LB, RB], fromWall a b p = pc.bodyMargin + bumperInset pc c) ∧
      (∀ p ∈ [LF, LB], alongWall a b p * Real.cos pc.taperAngle - fromWall a b p * Real.sin pc.taperAngle = pc.floorContactWidth / 2) ∧
      ∀ p ∈ [RF, RB], alongWall b a p * Real.cos pc.taperAngle - fromWall a b p * Real.sin pc.taperAngle = pc.floorContactWidth / 2 := by
  unfold Palm.make at h
  dsimp only at h
  obtain ⟨matrix, hm, h⟩ := bind_ok h
  obtain ⟨s, hs, h⟩ := bind_ok h
  obtain ⟨n, hn, h⟩ := bind_ok h
  obtain ⟨gp, hgp, h⟩ := bind_ok h
  obtain ⟨bs, hbs, h⟩ := bind_ok h
  obtain ⟨faces, hfa, h⟩ := bind_ok h
  obtain rfl := Except.ok.inj h
  dsimp only
  obtain ⟨ok, eL, eR⟩ := palmShape_ok hs (by have := hq.angle; linarith) hr hf hfd
  have place := palmMatrix_ok hm hne
  rw [hb] at hbs
  unfold palmBumpers at hbs
  dsimp only at hbs
  obtain ⟨ps, hps, hbs⟩ := bind_ok hbs
  obtain ⟨f, b, rfl, fy, by', on⟩ := palmBumperPos_ok eL hps
  replace hbs := mapM_ok hbs
  rcases hbs with _ | ⟨b1, _ | ⟨b2, _ | ⟨b3, _ | ⟨b4, _ | _⟩⟩⟩⟩
  rename_i w1 w2 w3 w4
  obtain ⟨-, -, c1, -⟩ := C59_full _ _ _ _ _ hq hd hh b1
  obtain ⟨-, -, c2, -⟩ := C59_full _ _ _ _ _ hq hd hh b2
  obtain ⟨-, -, c3, -⟩ := C59_full _ _ _ _ _ hq hd hh b3
  obtain ⟨-, -, c4, -⟩ := C59_full _ _ _ _ _ hq hd hh b4
  unfold palmFaces at hfa
  obtain ⟨rb0, -, hfa⟩ := bind_ok hfa
  obtain ⟨r1, -, hfa⟩ := bind_ok hfa
  obtain ⟨l1, -, hfa⟩ := bind_ok hfa
  obtain ⟨lb0, -, hfa⟩ := bind_ok hfa
  obtain rfl := Except.ok.inj hfa
  have ring' : ∀ (w : Bumper) (x : Vec), (∀ p ∈ w.floorEdge, distSq2D x p = (c.diameter / 2) ^ 2 ∧ p.z = -cfg.floor.outerHeight) →
      ∀ p ∈ w.floorEdge.map fun v => v.transformed matrix, distSq2D (x.transformed matrix) p = (c.diameter / 2) ^ 2 ∧ p.z = -cfg.floor.outerHeight := by
    intro w x hw p hp
    obtain ⟨v, hv, rfl⟩ := List.mem_map.mp hp
    obtain ⟨g1, g2⟩ := hw v hv
    rw [(palmMatrix_dist hm x v).1, (place v).2.2.2]
    exact ⟨g1, g2⟩
  refine ⟨_, _, _, _, _, f.transformed matrix, b.transformed matrix, f.mirroredX.transformed matrix, b.mirroredX.transformed matrix,
    List.mem_append_right _ (List.mem_cons_self), ?_, ?_, ?_, ?_, ?_⟩
  · intro x hx
    simp only [List.mem_cons, List.not_mem_nil, or_false] at hx
    rcases hx with rfl | rfl | rfl | rfl
    · exact ring' _ _ c1
    · exact ring' _ _ c2
    · exact ring' _ _ c3
    · exact ring' _ _ c4
  · intro p hp
    simp only [List.mem_cons, List.not_mem_nil, or_false] at hp
    rcases hp with rfl | rfl
    · rw [(place f).1, fy, ok.front]; ring
    · rw [(place f.mirroredX).1]
      simp only [Vec.mirroredX]
      rw [fy, ok.front]; ring
  · intro p hp
    simp only [List.mem_cons, List.not_mem_nil, or_false] at hp
    rcases hp with rfl | rfl
    · rw [(place b).1, by', ok.back]; ring
    · rw [(place b.mirroredX).1]
      simp only [Vec.mirroredX]
      rw [by', ok.back]; ring
  · intro p hp
    simp only [List.mem_cons, List.not_mem_nil, or_false] at hp
    rcases hp with rfl | rfl
    · rw [(place f).1, (place f).2.1, ← on f (by simp)]; ring
    · rw [(place b).1, (place b).2.1, ← on b (by simp)]; ring
  · intro p hp
    simp only [List.mem_cons, List.not_mem_nil, or_false] at hp
    rcases hp with rfl | rfl
    · rw [(place _).1, (place _).2.2.1, ← on f (by simp)]
      simp only [Vec.mirroredX]
      ring
    · rw [(place _).1, (place _).2.2.1, ← on b (by simp)]
      simp only [Vec.mirroredX]
      ring

end Chrumm.Part
