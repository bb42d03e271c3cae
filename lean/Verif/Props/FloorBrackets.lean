import Verif.Props.Collisions
import Verif.Props.BracketTop

/-! C100: the brackets of the floor do not collide with the brackets of the body. -/

namespace Chrumm.Part
open Geo Geo.Spec Spec

/-- C100: seen from the side, no corner of the front bracket of the body is inside the front bracket of the floor. If there is a cable, no corner of the
back bracket of the body, moved outwards by the diameter of the cable, is inside the back bracket of the floor. -/
theorem C100_floor {cfg : KeyboardCfg} {fp : FullPlan} {body : Body} {floor : Floor} {bc : BracketCfg} (hf : Floor.make cfg fp body = .ok floor)
    (hbr : cfg.bracket = some bc) :
    ∃ (f b : FloorBracket) (bodyF bodyB : CornerBracket), floor.joint.brackets = some (f, b) ∧ body.bracketF = some bodyF ∧ body.bracketB = some bodyB ∧
      (∀ P ∈ f.pieces ++ b.pieces, P ∈ floor.pieces) ∧
      (∀ p ∈ bodyF.splitEdge, ¬ InsideOutline (f.splitEdge.map sideView) (sideView p)) ∧
      ∀ cable, cfg.cable = some cable → ∃ grown, naiveOffset2D (bodyB.splitEdge.map sideView) (-cable.diameter) = .ok grown ∧
        ∀ p ∈ grown, ¬ InsideOutline (b.splitEdge.map sideView) p := by
  unfold Floor.make at hf
  obtain ⟨p, h1, hf⟩ := bind_ok hf
  obtain ⟨j, h2, hf⟩ := bind_ok hf
  dsimp only at hf
  obtain ⟨⟨hi, ho⟩, h3, hf⟩ := bind_ok hf
  dsimp only at hf
  obtain ⟨bumpers, h4, hf⟩ := bind_ok hf
  obtain ⟨bosses, h5, hf⟩ := bind_ok hf
  obtain ⟨q2, h6, hf⟩ := bind_ok hf
  obtain ⟨q3, h7, hf⟩ := bind_ok hf
  obtain rfl := Except.ok.inj hf
  clear hf
  rw [hbr] at h2
  unfold floorJoint at h2
  dsimp only at h2
  obtain ⟨a0, -, h2⟩ := bind_ok h2
  obtain ⟨a1, -, h2⟩ := bind_ok h2
  obtain ⟨c0, -, h2⟩ := bind_ok h2
  obtain ⟨d0, -, h2⟩ := bind_ok h2
  obtain ⟨e0, -, h2⟩ := bind_ok h2
  obtain ⟨f, -, h2⟩ := bind_ok h2
  obtain ⟨c1, -, h2⟩ := bind_ok h2
  obtain ⟨d1, -, h2⟩ := bind_ok h2
  obtain ⟨e1, -, h2⟩ := bind_ok h2
  obtain ⟨b, -, h2⟩ := bind_ok h2
  obtain ⟨u, hk, h2⟩ := bind_ok h2
  obtain ⟨f1, -, h2⟩ := bind_ok h2
  obtain ⟨b1, -, h2⟩ := bind_ok h2
  obtain ⟨p6, -, h2⟩ := bind_ok h2
  obtain ⟨f2, -, h2⟩ := bind_ok h2
  obtain ⟨b2, -, h2⟩ := bind_ok h2
  obtain ⟨p5, -, h2⟩ := bind_ok h2
  obtain ⟨f3, -, h2⟩ := bind_ok h2
  obtain ⟨b3, -, h2⟩ := bind_ok h2
  obtain ⟨p4, -, h2⟩ := bind_ok h2
  obtain ⟨f4, -, h2⟩ := bind_ok h2
  obtain ⟨b4, -, h2⟩ := bind_ok h2
  obtain ⟨p3, -, h2⟩ := bind_ok h2
  obtain ⟨st, -, h2⟩ := bind_ok h2
  obtain ⟨en, -, h2⟩ := bind_ok h2
  obtain rfl := Except.ok.inj h2
  clear h2
  unfold floorBracketChecks at hk
  dsimp only at hk
  cases hF : body.bracketF with
  | none => rw [hF] at hk; cases hk
  | some bodyF =>
    cases hB : body.bracketB with
    | none => rw [hF, hB] at hk; cases hk
    | some bodyB =>
      rw [hF, hB] at hk
      dsimp only at hk
      split_ifs at hk with hc
      refine ⟨f, b, bodyF, bodyB, rfl, rfl, rfl, ?_, ?_, ?_⟩
      · intro P hP
        simp only [List.mem_append] at hP ⊢
        tauto
      · intro x hx hin
        apply hc
        rw [List.any_eq_true]
        exact ⟨sideView x, List.mem_map.mpr ⟨x, hx, rfl⟩, (C34_even_odd _ _).mpr hin⟩
      · intro cable hcable
        rw [hcable] at hk
        dsimp only at hk
        obtain ⟨grown, hg, hk⟩ := bind_ok hk
        refine ⟨grown, hg, fun x hx hin => ?_⟩
        split_ifs at hk with hc2
        apply hc2
        rw [List.any_eq_true]
        exact ⟨x, hx, (C34_even_odd _ _).mpr hin⟩

end Chrumm.Part
