import Verif.Part.Knob
import Verif.Part.Support
import Verif.Props.Pieces
import Verif.Props.Layout

/-! C57, C58: knob and supports. -/

namespace Chrumm.Part
open Geo Geo.Spec Spec Classical

theorem C57_fit {q : Quality} {cfg : KnobCfg} {ps : List Piece} (h : knobPieces q cfg = .ok ps) : Fit ps [] := by
  unfold knobPieces at h
  dsimp only at h
  obtain ⟨groove, h1, h⟩ := bind_ok h
  obtain ⟨dirs, h2, h⟩ := bind_ok h
  obtain ⟨shaft, h3, h⟩ := bind_ok h
  obtain ⟨skirt, h4, h⟩ := bind_ok h
  obtain rfl := Except.ok.inj h
  rw [fit_iff]
  intro g hg
  simp only [List.map_cons, List.map_nil, List.sum_cons, List.sum_nil, rim_closed hg, rim_face, around_reverse hg, esum_nil]
  have e : around g [0] = 0 := by rw [around_eq _ (by simp), along_one, getLastD_one, headD_cons, hg.self, add_zero]
  rw [e]
  abel

theorem C58_fit {q : Quality} {holeW holeD holeH : ℝ} {cfg : SupportCfg} {ps : List Piece}
    (h : supportPieces q holeW holeD holeH cfg = .ok ps) : Fit ps [] := by
  unfold supportPieces at h
  obtain ⟨⟨l, r⟩, h1, h⟩ := bind_ok h
  obtain rfl := Except.ok.inj h
  rw [fit_iff]
  intro g hg
  simp only [List.map_cons, List.map_nil, List.sum_cons, List.sum_nil, rim_closed hg, rim_face, around_reverse hg, esum_nil]
  abel

/-- **C57** The knob is watertight, for every configuration: every directed edge of its triangles is balanced by its
reverse, provided that no quad of a strip is a sliver and its three flat faces are cut completely. -/
theorem C57_watertight {q : Quality} {cfg : KnobCfg} {ps : List Piece} (h : knobPieces q cfg = .ok ps)
    {tss : List (List (Tri Vec))} (ht : SoundMesh ps tss) : Watertight tss.flatten :=
  watertight_of_fit (C57_fit h) ht

/-- **C58** The support of a key is watertight, for every configuration, provided that no quad of its side is a sliver
and both ends are cut completely. -/
theorem C58_watertight {q : Quality} {holeW holeD holeH : ℝ} {cfg : SupportCfg} {ps : List Piece}
    (h : supportPieces q holeW holeD holeH cfg = .ok ps) {tss : List (List (Tri Vec))} (ht : SoundMesh ps tss) :
    Watertight tss.flatten :=
  watertight_of_fit (C58_fit h) ht

theorem watertight_moved {ts : List (Tri Vec)} (h : Watertight ts) (f : Vec → Vec) : Watertight (ts.map fun t => t.map f) := by
  rw [watertight_iff] at h ⊢
  rw [meshEdges_map]
  exact sameChain_map h f

theorem watertight_flatten {tss : List (List (Tri Vec))} (h : ∀ ts ∈ tss, Watertight ts) : Watertight tss.flatten := by
  rw [watertight_iff]
  induction tss with
  | nil => exact SameChain.refl _
  | cons ts tss ih =>
    rw [List.flatten_cons, meshEdges_append]
    have h1 := h ts (by simp)
    rw [watertight_iff] at h1
    exact SameChain.append h1 (ih fun t ht => h t (by simp [ht]))

theorem forall₂_right {α β : Type} {R : α → β → Prop} {l : List α} {m : List β} (h : List.Forall₂ R l m) {b : β} (hb : b ∈ m) :
    ∃ a, R a b := by
  induction h with
  | nil => simp at hb
  | cons a _ ih =>
    rcases List.mem_cons.1 hb with rfl | h2
    · exact ⟨_, a⟩
    · exact ih h2

/-- **C58** The file of supports is watertight if the support is: it holds one moved support for each key that needs
one. -/
theorem C58_all {cfg : SupportCfg} {ts all : List (Tri Vec)} (hw : Watertight ts) {ms : List Mat}
    (h : supportsOf cfg ts ms = .ok all) : Watertight all := by
  unfold supportsOf at h
  obtain ⟨parts, h1, h⟩ := bind_ok h
  obtain rfl := Except.ok.inj h
  replace h1 := mapM_ok h1
  refine watertight_flatten fun u hu => ?_
  obtain ⟨m, hm⟩ := forall₂_right h1 hu
  unfold supportOf at hm
  obtain ⟨v, -, hm⟩ := bind_ok hm
  obtain rfl := Except.ok.inj hm
  split_ifs
  · exact watertight_moved hw _
  · rw [watertight_iff]; exact SameChain.refl _

end Chrumm.Part
