import Verif.Spec.Pieces
import Verif.Spec.Parts
import Verif.Props.Strips
import Verif.Props.Face

/-! Surfaces made of pieces: if the boundaries cancel out, the surface is closed. -/

namespace Chrumm.Part
open Geo Geo.Spec Spec Classical

theorem headD_eq {l : List Vec} (h : l ≠ []) : l.headD 0 = l.head h := by
  cases l with
  | nil => exact absurd rfl h
  | cons a l => rfl

theorem getLastD_eq {l : List Vec} (h : l ≠ []) : l.getLastD 0 = l.getLast h := by
  rw [List.getLastD_eq_getLast?, List.getLast?_eq_some_getLast h]
  rfl

theorem sheet_rim {s : Sheet} {ts : List (Tri Vec)} (h : s.Meshes ts) (hs : Sheet.Sound s ts) :
    SameChain (meshEdges ts) (Sheet.rim s) := by
  rcases s with ⟨k, a, b⟩ | ⟨edge, holes⟩ | ⟨edge, rev, f, holes⟩ | ts'
  · obtain ⟨ha, hb, hq⟩ := hs
    cases k
    · have := C32_open_strip a b ts ha hb h hq
      simpa only [Sheet.rim, headD_eq ha, headD_eq hb, getLastD_eq ha, getLastD_eq hb] using this
    · exact C32_closed_strip a b ts ha hb h hq
  · refine (C42_complete edge holes ts h ?_).1
    rw [hs]
    have e : (holes.filter fun h => !h.isEmpty) = holes.filter (fun x => decide (x ≠ [])) :=
      List.filter_congr fun l _ => by cases l <;> simp
    rw [e]
  · refine SameChain.trans (C42_complete _ holes ts h ?_).1 ?_
    · rw [hs.2]
      have e : (holes.filter fun h => !h.isEmpty) = holes.filter (fun x => decide (x ≠ [])) :=
        List.filter_congr fun l _ => by cases l <;> simp
      rw [e]
    · refine SameChain.append ?_ (SameChain.refl _)
      unfold neatEdge
      rw [cyc_map]
      refine sameChain_map ?_ f
      rw [sameChain_iff]
      intro g hg
      have h1 := collapsed_sum hg (by norm_num : (0 : ℝ) < 1 / 1000) hs.1
      cases rev
      · simpa using h1
      · simp only [if_true]
        rw [esum_cyc_reverse hg, esum_flip hg, h1]
  · obtain rfl : ts = ts' := h
    exact SameChain.refl _

theorem meshEdges_reversed (ts : List (Tri Vec)) :
    SameChain (meshEdges (ts.map Tri.reversed)) (flipEdges (meshEdges ts)) := by
  rw [sameChain_iff]
  intro g hg
  rw [esum_flip hg, esum_mesh, esum_mesh, List.map_map]
  induction ts with
  | nil => simp
  | cons t ts ih =>
    rw [List.map_cons, List.map_cons, List.sum_cons, List.sum_cons, ih]
    simp only [Function.comp_apply, Tri.reversed, Geo.tsum]
    rw [hg.swap t.c t.b, hg.swap t.b t.a, hg.swap t.a t.c]
    abel

theorem flip_congr {es fs : List (Vec × Vec)} (h : SameChain es fs) : SameChain (flipEdges es) (flipEdges fs) := by
  rw [sameChain_iff]
  intro g hg
  rw [esum_flip hg, esum_flip hg, esum_congr hg h]

theorem piece_rim {p : Piece} {us : List (Tri Vec)} (h : p.sheet.Meshes us) (hs : Sheet.Sound p.sheet us) :
    SameChain (meshEdges (placeAll p.place p.turned us)) (Piece.rim p) := by
  have h1 := sameChain_map (sheet_rim h hs) p.place
  have e : meshEdges (us.map fun t => t.map p.place) = (meshEdges us).map (Prod.map p.place p.place) := Geo.meshEdges_map _ _
  unfold placeAll Piece.rim
  cases p.turned
  · simp only [Bool.false_eq_true, if_false]
    rw [e]
    exact h1
  · simp only [if_true]
    have h2 := meshEdges_reversed (us.map fun t => t.map p.place)
    rw [List.map_map] at h2
    refine SameChain.trans h2 ?_
    rw [e]
    exact flip_congr h1

/-- The triangles of sound pieces have the boundaries of the pieces. -/
theorem pieces_rim {ps : List Piece} {tss : List (List (Tri Vec))} (h : SoundMesh ps tss) :
    SameChain (meshEdges tss.flatten) (ps.flatMap Piece.rim) := by
  induction h with
  | nil => exact SameChain.refl _
  | cons h1 h2 _ ih =>
    rw [List.flatten_cons, List.flatMap_cons, meshEdges_append]
    exact SameChain.append (piece_rim h1 h2) ih

/-- Pieces that fit together make a mesh that closes the remaining loops. -/
theorem closes_of_fit {ps : List Piece} {loops : List (Vec × Vec)} (hf : Fit ps loops) {tss : List (List (Tri Vec))}
    (h : SoundMesh ps tss) : Closes tss.flatten loops :=
  SameChain.trans (SameChain.append (pieces_rim h) (SameChain.refl loops)) hf

theorem watertight_of_fit {ps : List Piece} (hf : Fit ps []) {tss : List (List (Tri Vec))} (h : SoundMesh ps tss) :
    Watertight tss.flatten := by
  rw [watertight_iff]
  have := closes_of_fit hf h
  unfold Closes at this
  rwa [List.append_nil] at this

/-! ### Sums of boundaries -/

section sums
variable {A : Type} [AddCommGroup A] {g : Vec → Vec → A}

/-- The sum along a path. -/
def along (g : Vec → Vec → A) (l : List Vec) : A := esum g (pathPairs l)

/-- The sum around a loop. -/
def around (g : Vec → Vec → A) (l : List Vec) : A := esum g (cycPairs l)

theorem fit_iff {ps : List Piece} {loops : List (Vec × Vec)} : Fit ps loops ↔
    ∀ g : Vec → Vec → ℤ, Anti g → (ps.map fun p => esum g (Piece.rim p)).sum + esum g loops = 0 := by
  unfold Fit
  rw [sameChain_iff]
  have hsum : ∀ (g : Vec → Vec → ℤ), esum g (ps.flatMap Piece.rim) = (ps.map fun p => esum g (Piece.rim p)).sum := by
    intro g
    induction ps with
    | nil => rfl
    | cons p ps ih => rw [List.flatMap_cons, esum_append, List.map_cons, List.sum_cons, ih]
  constructor
  · intro h g hg
    have h1 := h g hg
    rw [esum_append, hsum, esum_nil] at h1
    exact h1
  · intro h g hg
    rw [esum_append, hsum, h g hg, esum_nil]

theorem rim_strip (hg : Anti g) (a b : List Vec) : esum g (Piece.rim (strip a b)) =
    along g a + g (a.getLastD 0) (b.getLastD 0) - along g b - g (a.headD 0) (b.headD 0) := by
  simp only [Piece.rim, strip, Sheet.rim, Prod.map_id, List.map_id, Bool.false_eq_true, if_false]
  rw [esum_append, esum_append, esum_append, esum_flip hg]
  simp only [esum_cons, esum_nil, hg.swap (b.headD 0)]
  unfold along
  abel

theorem rim_closed (hg : Anti g) (a b : List Vec) : esum g (Piece.rim (strip a b true)) = around g a - around g b := by
  simp only [Piece.rim, strip, Sheet.rim, Prod.map_id, List.map_id, Bool.false_eq_true, if_false]
  rw [esum_append, esum_flip hg]
  unfold around
  abel

theorem rim_face (e : List Vec) (holes : List (List Vec)) : esum g (Piece.rim (face e holes)) =
    around g e + (holes.map (around g)).sum := by
  simp only [Piece.rim, face, Sheet.rim, Prod.map_id, List.map_id, Bool.false_eq_true, if_false]
  rw [esum_append]
  congr 1
  induction holes with
  | nil => rfl
  | cons h hs ih => rw [List.flatMap_cons, esum_append, ih, List.map_cons, List.sum_cons]; rfl

theorem rim_neat (hg : Anti g) (e : List Vec) (holes : List (List Vec)) : esum g (Piece.rim (neat e holes)) =
    around g e + (holes.map (around g)).sum := by
  have := rim_face (g := g) e holes
  rw [← this]
  simp [Piece.rim, face, neat, Sheet.rim]

theorem rim_neat_place (hg : Anti g) (e : List Vec) (holes : List (List Vec)) (f : Vec → Vec) :
    esum g (Piece.rim (neat e holes false f)) = around (fun x y => g (f x) (f y)) e + (holes.map (around g)).sum := by
  have h0 := rim_face (g := g) (e.map f) holes
  have h1 : around g (e.map f) = around (fun x y => g (f x) (f y)) e := by
    unfold around
    rw [cyc_map, esum_map]
  rw [← h1, ← h0]
  simp [Piece.rim, face, neat, Sheet.rim, cyc_map]

theorem rim_neat_turned (hg : Anti g) (e : List Vec) (holes : List (List Vec)) (f : Vec → Vec) :
    esum g (Piece.rim (neat e holes true f)) = -around (fun x y => g (f x) (f y)) e + (holes.map (around g)).sum := by
  have hg' : Anti fun x y => g (f x) (f y) := anti_map hg f
  have h0 := rim_face (g := g) ([] : List Vec) holes
  have h2 : around g [] = 0 := rfl
  rw [h2, zero_add] at h0
  rw [← h0]
  simp only [Piece.rim, neat, face, Sheet.rim, if_true, Prod.map_id, List.map_id, Bool.false_eq_true, if_false]
  rw [esum_append, esum_append, esum_map, esum_flip hg']
  have : esum g (cycPairs ([] : List Vec)) = 0 := rfl
  rw [this, zero_add]
  rfl

theorem rim_done (ts : List (Tri Vec)) : esum g (Piece.rim (done ts)) = esum g (meshEdges ts) := by
  simp only [Piece.rim, done, Sheet.rim, Prod.map_id, List.map_id, Bool.false_eq_true, if_false]

theorem rim_moved (f : Vec → Vec) (p : Piece) : esum g (Piece.rim (p.moved f)) =
    esum (fun x y => g (f x) (f y)) (Piece.rim p) := by
  unfold Piece.rim Piece.moved
  dsimp only
  have e : (Sheet.rim p.sheet).map (Prod.map (f ∘ p.place) (f ∘ p.place)) =
      ((Sheet.rim p.sheet).map (Prod.map p.place p.place)).map (Prod.map f f) := by
    rw [List.map_map]; rfl
  rw [e]
  cases p.turned
  · simp only [Bool.false_eq_true, if_false]
    exact esum_map f g _
  · simp only [if_true]
    rw [← esum_map f g]
    congr 1
    unfold flipEdges
    simp only [List.map_map]
    rfl

theorem rim_mirroredY (hg : Anti g) (p : Piece) : esum g (Piece.rim p.mirroredY) =
    -esum (fun x y => g x.mirroredY y.mirroredY) (Piece.rim p) := by
  have hm := rim_moved (g := g) Vec.mirroredY p
  rw [← hm]
  unfold Piece.rim Piece.mirroredY Piece.moved
  dsimp only
  cases p.turned
  · simp only [Bool.not_false, if_true, Bool.false_eq_true, if_false]
    rw [esum_flip hg]
  · simp only [Bool.not_true, if_true, Bool.false_eq_true, if_false]
    rw [esum_flip hg, neg_neg]

theorem around_eq (l : List Vec) (h : l ≠ []) : around g l = along g l + g (l.getLastD 0) (l.headD 0) := by
  unfold around along
  rw [esum_cyc g l h, headD_eq h, getLastD_eq h]

theorem around_nil : around g [] = 0 := rfl

theorem along_append {l m : List Vec} (hl : l ≠ []) (hm : m ≠ []) :
    along g (l ++ m) = along g l + g (l.getLastD 0) (m.headD 0) + along g m := by
  unfold along
  rw [esum_path_append g l m hl hm, headD_eq hm, getLastD_eq hl]

theorem along_one (a : Vec) : along g [a] = 0 := rfl
theorem along_nil : along g [] = 0 := rfl

theorem along_cons (a : Vec) {m : List Vec} (hm : m ≠ []) : along g (a :: m) = g a (m.headD 0) + along g m := by
  have := along_append (g := g) (l := [a]) (by simp) hm
  rw [List.singleton_append] at this
  rw [this, along_one, zero_add]
  rfl

theorem along_cc (a b : Vec) (l : List Vec) : along g (a :: b :: l) = g a b + along g (b :: l) := esum_path_cons2 g a b l

theorem along_reverse (hg : Anti g) (l : List Vec) : along g l.reverse = -along g l := esum_path_reverse hg l

theorem around_reverse (hg : Anti g) (l : List Vec) : around g l.reverse = -around g l := esum_cyc_reverse hg l

theorem along_map (f : Vec → Vec) (l : List Vec) : along g (l.map f) = along (fun x y => g (f x) (f y)) l := by
  unfold along
  rw [pathPairs_map, esum_map]

theorem around_map (f : Vec → Vec) (l : List Vec) : around g (l.map f) = around (fun x y => g (f x) (f y)) l := by
  unfold around
  rw [cyc_map, esum_map]

theorem around_collapsed (hg : Anti g) {e : List Vec} (h : Apart e) : around g (collapsed e (1 / 1000)) = around g e :=
  collapsed_sum hg (by norm_num) h

theorem headD_append {l m : List Vec} (hl : l ≠ []) : (l ++ m).headD 0 = l.headD 0 := by
  cases l with
  | nil => exact absurd rfl hl
  | cons a l => rfl

theorem getLastD_append {l m : List Vec} (hm : m ≠ []) : (l ++ m).getLastD 0 = m.getLastD 0 := by
  rw [getLastD_eq hm, getLastD_eq (by simp [hm]), List.getLast_append_of_ne_nil _ hm]

theorem headD_cons (a : Vec) (l : List Vec) : (a :: l).headD 0 = a := rfl

theorem getLastD_cons (a : Vec) {l : List Vec} (h : l ≠ []) : (a :: l).getLastD 0 = l.getLastD 0 := by
  have := getLastD_append (l := [a]) h
  rwa [List.singleton_append] at this

theorem getLastD_one (a : Vec) : [a].getLastD 0 = a := rfl

theorem headD_reverse (l : List Vec) : l.reverse.headD 0 = l.getLastD 0 := by
  by_cases h : l = []
  · subst h; rfl
  · rw [headD_eq (by simpa), getLastD_eq h, List.head_reverse]

theorem getLastD_reverse (l : List Vec) : l.reverse.getLastD 0 = l.headD 0 := by
  by_cases h : l = []
  · subst h; rfl
  · rw [getLastD_eq (by simpa), headD_eq h, List.getLast_reverse]

theorem headD_map (f : Vec → Vec) {l : List Vec} (h : l ≠ []) : (l.map f).headD 0 = f (l.headD 0) := by
  cases l with
  | nil => exact absurd rfl h
  | cons a l => rfl

theorem getLastD_map (f : Vec → Vec) {l : List Vec} (h : l ≠ []) : (l.map f).getLastD 0 = f (l.getLastD 0) := by
  rw [getLastD_eq (by simpa), getLastD_eq h, List.getLast_map]

theorem keepNe_last {z : Vec} : ∀ {l : List Vec}, l ≠ [] → l.getLastD 0 ≠ z → keepNe z l ≠ [] ∧ (keepNe z l).getLastD 0 = l.getLastD 0
  | [], h, _ => absurd rfl h
  | [x], _, hz => by
    have : x ≠ z := hz
    simp [keepNe, this]
  | x :: y :: l, _, hz => by
    rw [getLastD_cons x (by simp)] at hz ⊢
    have ih := keepNe_last (l := y :: l) (by simp) hz
    unfold keepNe
    split_ifs
    · exact ih
    · exact ⟨by simp, by rw [getLastD_cons _ ih.1]; exact ih.2⟩

/-- Collapsing coinciding points does not change an open chain, unless its ends coincide. -/
theorem along_collapsed (hg : Anti g) {e : List Vec} (h : Apart e) (he : e ≠ []) (hne : e.getLastD 0 ≠ e.headD 0) :
    collapsed e (1 / 1000) ≠ [] ∧ (collapsed e (1 / 1000)).headD 0 = e.headD 0 ∧
    (collapsed e (1 / 1000)).getLastD 0 = e.getLastD 0 ∧ along g (collapsed e (1 / 1000)) = along g e := by
  have h1 := around_collapsed hg h
  have h2 := collapsed_eq_keepNe (by norm_num) h he
  rw [headD_eq he] at hne
  obtain ⟨h3, h4⟩ := keepNe_last he hne
  have h5 := keepNe_head (e.head he) e
  rw [← h2] at h3 h4 h5
  have h6 : (collapsed e (1 / 1000)).headD 0 = e.headD 0 := by
    rw [List.head_append_of_ne_nil h3] at h5
    rw [headD_eq h3, h5, headD_eq he]
    exact List.head_append_of_ne_nil he
  rw [around_eq _ h3, around_eq _ he, h4, h6] at h1
  exact ⟨h3, h6, h4, add_right_cancel h1⟩

end sums

end Chrumm.Part
