import Verif.Props.Witnesses2
import Verif.Props.ArcSpacing
import Verif.Props.ConvexFace
import Verif.Props.HullDist
import Verif.Props.BodyChamfer
import Verif.Props.BodyWhole

/-! Concrete cases that meet the hypotheses of further theorems. -/

namespace Chrumm.Part
open Geo Geo.Spec Spec

/-- C53_spacing: a quarter of a circle with a radius of 5, whose chords are at least 1.9 long. -/
example : ∃ pts, arc2D ⟨1 / 10, 1⟩ 5 0 (Real.pi / 2) 0 = .ok pts ∧
    ∀ ab ∈ pathPairs pts, 2 / Real.pi * min (5 * |Real.pi / 2|) (min (5 * (1 / 2)) (Real.sqrt (2 * (1 / 10) * 5))) ≤ Real.sqrt (distSq2D ab.1 ab.2) := by
  have hpi := Real.pi_pos
  obtain ⟨pts, h⟩ := ((C53_succeeds ⟨1 / 10, 1⟩ 5 0 (Real.pi / 2) 0 (by norm_num) (by norm_num)).2.1 (by norm_num)).mpr ⟨by norm_num, by positivity⟩
  exact ⟨pts, h, C53_spacing (by norm_num) (by norm_num) (by norm_num) (by rw [abs_of_pos (by positivity)]; linarith) h⟩

/-- C61_hull: a point beside a triangle; an inner point changes nothing. -/
example : ∃ r, edgeDistance2D (fromConvexHull2D [⟨0, 0, 0⟩, ⟨4, 0, 1⟩, ⟨2, 1, 7⟩, ⟨2, 4, 0⟩]) ⟨5, 0, 3⟩ = .ok r ∧ r ≤ 1 := by
  have hd : ∃ u ∈ [(⟨0, 0, 0⟩ : Vec), ⟨4, 0, 1⟩, ⟨2, 1, 7⟩, ⟨2, 4, 0⟩], ∃ v ∈ [(⟨0, 0, 0⟩ : Vec), ⟨4, 0, 1⟩, ⟨2, 1, 7⟩, ⟨2, 4, 0⟩], u.xy ≠ v.xy :=
    ⟨⟨0, 0, 0⟩, by simp, ⟨4, 0, 1⟩, by simp, by simp [Vec.xy]⟩
  have hl := (C31_convex_hull _ hd).1
  obtain ⟨r, h⟩ := edgeDistance_ok (e := fromConvexHull2D [⟨0, 0, 0⟩, ⟨4, 0, 1⟩, ⟨2, 1, 7⟩, ⟨2, 4, 0⟩]) (fun e => by rw [e] at hl; simp at hl) ⟨5, 0, 3⟩
  refine ⟨r, h, ((C61_hull _ _ _ h).1 ⟨4, 0, 1⟩ (fun a b c hc => hc _ (by simp))).trans ?_⟩
  norm_num [dist2D, distSq2D]

/-- C62_flat_face: a square that stands in space is cut into two triangles. -/
example : (∃ out, Triangulates [⟨3, 0, 0⟩, ⟨3, 2, 0⟩, ⟨3, 2, 2⟩, ⟨3, 0, 2⟩] [] out) ∧
    ∀ out, Triangulates [⟨3, 0, 0⟩, ⟨3, 2, 0⟩, ⟨3, 2, 2⟩, ⟨3, 0, 2⟩] [] out → out.length = 2 := by
  have h : FlatConvex ⟨1, 0, 0⟩ [⟨3, 0, 0⟩, ⟨3, 2, 0⟩, ⟨3, 2, 2⟩, ⟨3, 0, 2⟩] := by
    refine ⟨by norm_num [Vec.dot], by simp, ⟨3, by simp [Vec.dot]⟩, ?_⟩
    intro a b c hs
    have q : ∀ x y : Vec, distSq x y ≤ 16 → 2e-6 * Real.sqrt (distSq x y) ≤ 4 := by
      intro x y h
      have : Real.sqrt (distSq x y) ≤ 4 := by
        rw [Real.sqrt_le_left (by norm_num)]
        linarith
      norm_num at this ⊢
      linarith
    have : (a, b, c) ∈ [((⟨3, 0, 0⟩ : Vec), (⟨3, 2, 0⟩ : Vec), (⟨3, 2, 2⟩ : Vec)), (⟨3, 0, 0⟩, ⟨3, 2, 0⟩, ⟨3, 0, 2⟩), (⟨3, 0, 0⟩, ⟨3, 2, 2⟩, ⟨3, 0, 2⟩),
        (⟨3, 2, 0⟩, ⟨3, 2, 2⟩, ⟨3, 0, 2⟩)] := by
      have := List.mem_sublists.mpr hs
      simp [List.sublists, List.foldr] at this
      simp
      tauto
    simp only [List.mem_cons, Prod.mk.injEq, List.not_mem_nil, or_false] at this
    rcases this with ⟨rfl, rfl, rfl⟩ | ⟨rfl, rfl, rfl⟩ | ⟨rfl, rfl, rfl⟩ | ⟨rfl, rfl, rfl⟩ <;>
      refine ⟨by norm_num [normalOf, Vec.dot, Vec.cross], (q _ _ (by norm_num [distSq])).trans (by norm_num [normalOf, Vec.dot, Vec.cross]),
        (q _ _ (by norm_num [distSq])).trans (by norm_num [normalOf, Vec.dot, Vec.cross]), (q _ _ (by norm_num [distSq])).trans (by norm_num [normalOf, Vec.dot, Vec.cross])⟩
  exact C62_flat_face h

/-- C92 and C93: the chamfers of a body. -/
example (side : Side) : ∃ cfg fp body, FullPlan.make cfg side = .ok fp ∧ Body.make cfg fp = .ok body ∧ cfg.body.thumbTentAngle = cfg.body.pinkyTentAngle := by
  obtain ⟨W, H, he⟩ := exBody_made
  obtain ⟨fp, body, h1, h2, -⟩ := he side
  have hE : (exCfg W H).body.thumbTentAngle = (exCfg W H).body.pinkyTentAngle := rfl
  have c1 := C92_outer_ends h1 h2 hE
  have c2 := C93_plates h1 h2 hE
  exact ⟨_, fp, body, h1, h2, hE⟩

end Chrumm.Part
