import Verif.Part.Cable
import Verif.Props.EncoderPart

/-! C81: the cable hole. -/

namespace Chrumm.Part
open Geo Geo.Spec Spec Classical

section sums
variable {A : Type} [AddCommGroup A] {g : Vec → Vec → A}

theorem sum_stripsUp (hg : Anti g) : ∀ (a : List Vec) (L : List (List Vec)),
    ((stripsUp (a :: L)).map fun p => esum g (Piece.rim p)).sum =
      along g ((a :: L).getLastD []) - along g a - along g ((a :: L).map fun l => l.getLastD 0) +
        along g ((a :: L).map fun l => l.headD 0)
  | a, [] => by simp [stripsUp, along_one, List.getLastD]
  | a, b :: L => by
    have ih := sum_stripsUp hg b L
    have e : (a :: b :: L).getLastD [] = (b :: L).getLastD [] := by
      rw [List.getLastD_eq_getLast?, List.getLastD_eq_getLast?, List.getLast?_cons_cons]
    rw [stripsUp, List.map_cons, List.sum_cons, ih, rim_strip hg, e]
    simp only [List.map_cons, along_cc]
    rw [hg.swap (b.getLastD 0), hg.swap (b.headD 0)]
    abel

theorem sum_stripsDown (hg : Anti g) : ∀ (a : List Vec) (L : List (List Vec)),
    ((stripsDown (a :: L)).map fun p => esum g (Piece.rim p)).sum =
      along g a - along g ((a :: L).getLastD []) + along g ((a :: L).map fun l => l.getLastD 0) -
        along g ((a :: L).map fun l => l.headD 0)
  | a, [] => by simp [stripsDown, along_one, List.getLastD]
  | a, b :: L => by
    have ih := sum_stripsDown hg b L
    have e : (a :: b :: L).getLastD [] = (b :: L).getLastD [] := by
      rw [List.getLastD_eq_getLast?, List.getLastD_eq_getLast?, List.getLast?_cons_cons]
    rw [stripsDown, List.map_cons, List.sum_cons, ih, rim_strip hg, e]
    simp only [List.map_cons, along_cc]
    abel

/-- An edge is a path up to a point, and on from there. -/
theorem along_split (l : List Vec) {k : ℕ} (hk : k < l.length) :
    along g l = along g (l.take (k + 1)) + along g (l.drop k) ∧ (l.take (k + 1)).getLastD 0 = (l.drop k).headD 0 := by
  have h1 : l.take (k + 1) = l.take k ++ [l[k]] := by rw [List.take_append_getElem hk]
  have h2 : l.drop k = l[k] :: l.drop (k + 1) := List.drop_eq_getElem_cons hk
  constructor
  · rw [h1, h2]
    conv_lhs => rw [← List.take_append_drop k l, h2]
    by_cases h0 : l.take k = []
    · rw [h0, List.nil_append, List.nil_append, along_one, zero_add]
    · rw [along_append h0 (List.cons_ne_nil _ _), along_append h0 (List.cons_ne_nil _ _), along_one, headD_cons, headD_cons,
        add_zero]
  · rw [h1, h2, getLastD_append (by simp), getLastD_one, headD_cons]

end sums

theorem mapM_index_last {L : List (List Vec)} {ys : List Vec} (h : (L.mapM fun arc => pyIndex arc (-1)) = .ok ys) :
    ys = L.map fun l => l.getLastD 0 := by
  have := mapM_ok h
  clear h
  induction this with
  | nil => rfl
  | cons h1 _ ih => rw [ih, (index_last h1).2]; rfl

theorem mapM_index_zero {L : List (List Vec)} {ys : List Vec} (h : (L.mapM fun arc => pyIndex arc 0) = .ok ys) :
    ys = L.map fun l => l.headD 0 := by
  have := mapM_ok h
  clear h
  induction this with
  | nil => rfl
  | cons h1 _ ih => rw [ih, (index_zero h1).2]; rfl


theorem mapM_index_ne {L : List (List Vec)} {ys : List Vec} (h : (L.mapM fun arc => pyIndex arc 0) = .ok ys) :
    ∀ l ∈ L, l ≠ [] := by
  have := mapM_ok h
  clear h
  induction this with
  | nil => simp
  | cons h1 _ ih =>
    intro l hl
    rcases List.mem_cons.mp hl with rfl | hl
    · exact (index_zero h1).1
    · exact ih l hl

theorem index_last' {L : List (List Vec)} {x : List Vec} (h : pyIndex L (-1) = .ok x) : L ≠ [] ∧ x = L.getLastD [] := by
  rw [pyIndex_last] at h
  have hl : L ≠ [] := by rintro rfl; simp at h
  refine ⟨hl, ?_⟩
  rw [List.getLastD_eq_getLast?, h]
  rfl

theorem index_zero' {L : List (List Vec)} {x : List Vec} (h : pyIndex L 0 = .ok x) : ∃ m, L = x :: m := by
  rw [pyIndex_zero] at h
  cases L with
  | nil => simp at h
  | cons a l => exact ⟨l, by rw [Option.some.inj h.symm]⟩

theorem translated_ne {l : List Vec} (v : Vec) (h : l ≠ []) : edgeTranslated l v ≠ [] := by
  simpa [edgeTranslated] using h

theorem translated_head {l : List Vec} (v : Vec) (h : l ≠ []) : (edgeTranslated l v).headD 0 = l.headD 0 + v :=
  headD_map _ h

theorem translated_last {l : List Vec} (v : Vec) (h : l ≠ []) : (edgeTranslated l v).getLastD 0 = l.getLastD 0 + v :=
  getLastD_map _ h

theorem sub_add_self (p q : Vec) : q + (p - q) = p := by ext <;> simp

/-- What is known about a successful cable hole: the arcs `H` and `Hs` of the hole, the arcs `G` and `Gs` of the groove,
where the last one is `R`, and the edges `L` and `M` of the bump. -/
theorem cable_data {q : Quality} {taper : Option ℝ} {cfg : CableCfg} {w t : ℝ} {pos : Vec} {c : Cable}
    (h : Cable.make q taper cfg w pos t = .ok c) :
    ∃ (H : List Vec) (Hs : List (List Vec)) (G : List Vec) (Gs : List (List Vec)) (R L M : List Vec),
    H ≠ [] ∧ R ≠ [] ∧ L ≠ [] ∧ M ≠ [] ∧ G ≠ [] ∧
    (G :: Gs).map (fun l => l.headD 0) = (H.drop (H.length / 2)).reverse ∧
    L.headD 0 = G.getLastD 0 ∧
    (∀ l ∈ H :: Hs, l ≠ []) ∧
    c = { pieces := stripsUp (H :: Hs) ++ [strip L M, strip ((G :: Gs ++ [R]).reverse.map fun l => l.getLastD 0) [M.headD 0],
            strip (R ++ M) [R.headD 0]] ++ stripsDown (G :: Gs ++ [R])
          wallEdgeF := H.take (H.length / 2 + 1) ++ [R.headD 0, M.getLastD 0, L.getLastD 0]
          wallEdgeB := ((H :: Hs).getLastD []).reverse
          splitEdgeT := (H :: Hs).reverse.map fun l => l.headD 0
          splitEdgeRaw := L.reverse ++ G.reverse ++ (H :: Hs).map fun l => l.getLastD 0
          splitEdgeG := collapsed (L.reverse ++ G.reverse ++ (H :: Hs).map fun l => l.getLastD 0) (1 / 1000) } := by
  unfold Cable.make at h
  dsimp only at h
  obtain ⟨filletXY, -, h⟩ := bind_ok h
  obtain ⟨holeXY, -, h⟩ := bind_ok h
  obtain ⟨Hs, -, h⟩ := bind_ok h
  obtain ⟨⟨bendXY, taperXY⟩, -, h⟩ := bind_ok h
  generalize eH : edgeTranslated (holeXY.map fun p => (⟨p.y, 0, p.x⟩ : Vec)) (pos + ⟨0, 0, -(cfg.diameter / 2)⟩) = H at h
  generalize eb : (bendXY.map fun p => (⟨0, -p.x, p.y⟩ : Vec)) = bend0 at h
  generalize et : (taperXY.map fun p => (⟨0, -p.x, p.y⟩ : Vec)) = taperYZ at h
  generalize w * (6 / 10) + cfg.diameter / 2 * (4 / 10) = width at h
  obtain ⟨h1, i1, h⟩ := bind_ok h
  obtain ⟨b0, i2, h⟩ := bind_ok h
  generalize ebd : edgeTranslated bend0 (h1 - b0) = bend at h
  obtain ⟨c0, i3, h⟩ := bind_ok h
  obtain ⟨lastArc, i4, h⟩ := bind_ok h
  obtain ⟨lastPoint, i5, h⟩ := bind_ok h
  obtain ⟨G, i6, h⟩ := bind_ok h
  obtain ⟨gEnd, i7, h⟩ := bind_ok h
  obtain ⟨t0, i8, h⟩ := bind_ok h
  generalize eL : edgeTranslated taperYZ (gEnd - t0) = L at h
  generalize eM : edgeTranslated L ⟨width, 0, 0⟩ = M at h
  generalize eR : edgeTranslated lastArc ⟨width - (lastPoint.x - pos.x), 0, 0⟩ = R at h i6
  obtain ⟨B, i9, h⟩ := bind_ok h
  obtain ⟨bump0, i10, h⟩ := bind_ok h
  obtain ⟨bump1, i11, h⟩ := bind_ok h
  obtain ⟨taper1, i12, h⟩ := bind_ok h
  obtain ⟨T, i13, h⟩ := bind_ok h
  obtain ⟨lasts, i14, h⟩ := bind_ok h
  obtain ⟨lastHole, i15, h⟩ := bind_ok h
  obtain ⟨neH, -⟩ := index_last i1
  obtain ⟨neb, e3⟩ := index_zero i3
  obtain ⟨neA, -⟩ := index_last' i4
  obtain ⟨neLA, -⟩ := index_last i5
  obtain ⟨neL, e12⟩ := index_last i12
  have neM : M ≠ [] := by rw [← eM]; exact translated_ne _ neL
  have neR : R ≠ [] := by rw [← eR]; exact translated_ne _ neLA
  have neRM : R ++ M ≠ [] := by simp [neR]
  have e9 := mapM_index_last i9
  have e13 := mapM_index_zero i13
  have e14 := mapM_index_last i14
  have e10 := (index_zero i10).2
  have e11 := (index_last i11).2
  have e15 := (index_last' i15).2
  obtain ⟨Gs', e6⟩ := index_zero' i6
  obtain ⟨neG, e7⟩ := index_last i7
  obtain ⟨neT, e8⟩ := index_zero i8
  rcases hm : (H.drop (H.length / 2)).reverse.map (fun p => edgeTranslated bend (p - c0)) with _ | ⟨G', Gs⟩
  · exact absurd hm neA
  rw [hm, List.cons_append] at e6
  obtain ⟨rfl, -⟩ := List.cons.inj e6
  rw [hm] at h e9
  refine ⟨H, Hs, G', Gs, R, L, M, neH, neR, neL, neM, neG, ?_, ?_, fun l hl => mapM_index_ne i13 l (List.mem_reverse.mpr hl), ?_⟩
  · rw [← hm, List.map_map]
    conv_rhs => rw [← List.map_id ((H.drop (H.length / 2)).reverse)]
    apply List.map_congr_left
    intro p _
    rw [Function.comp_apply, translated_head _ neb, ← e3, sub_add_self]
    rfl
  · rw [← eL, translated_head _ neT, ← e8, sub_add_self, e7]
  · have hM : M.take 1 = [M.headD 0] := by cases M with
      | nil => exact absurd rfl neM
      | cons a l => rfl
    have hR : (R ++ M).take 1 = [R.headD 0] := by cases R with
      | nil => exact absurd rfl neR
      | cons a l => rfl
    rw [hM, hR, e9, e10, e11, e12, e13, e14, e15, headD_append neR, getLastD_append neM] at h
    exact (Except.ok.inj h).symm


/-- **C81** The pieces of a cable hole fit together, except for its edges on the inner and the outer wall and in the split
plane. -/
theorem C81_fit {q : Quality} {taper : Option ℝ} {cfg : CableCfg} {w t : ℝ} {pos : Vec} {c : Cable}
    (h : Cable.make q taper cfg w pos t = .ok c) (hap : Apart c.splitEdgeRaw)
    (hends : c.splitEdgeRaw.getLastD 0 ≠ c.splitEdgeRaw.headD 0) :
    Fit c.pieces (pathPairs c.wallEdgeF ++ pathPairs c.splitEdgeG ++ pathPairs c.wallEdgeB ++ pathPairs c.splitEdgeT) := by
  obtain ⟨H, Hs, G, Gs, R, L, M, neH, neR, neL, neM, neG, hfirst, hLG, -, rfl⟩ := cable_data h
  rw [fit_iff]
  intro g hg
  obtain ⟨-, -, -, hcol⟩ := along_collapsed hg hap (by simp [neL]) hends
  dsimp only at hcol ⊢
  rw [esum_append, esum_append, esum_append]
  change _ + (along g _ + along g _ + along g _ + along g _) = 0
  have neD : H.drop (H.length / 2) ≠ [] := by
    have := List.length_pos_of_ne_nil neH
    simp; omega
  obtain ⟨sp1, sp2⟩ := along_split (g := g) H (k := H.length / 2) (by
    have := List.length_pos_of_ne_nil neH
    omega)
  have neTk : H.take (H.length / 2 + 1) ≠ [] := by simp [neH]
  have hG0 : G.headD 0 = H.getLastD 0 := by
    have := congrArg (fun l => l.headD 0) hfirst
    simp only [List.map_cons, headD_cons, headD_reverse] at this
    rw [this]
    conv_rhs => rw [← List.take_append_drop (H.length / 2) H]
    rw [getLastD_append neD]
  rw [List.map_append, List.map_append, List.sum_append, List.sum_append, sum_stripsUp hg]
  have eD : stripsDown (G :: Gs ++ [R]) = stripsDown (G :: (Gs ++ [R])) := rfl
  rw [eD, sum_stripsDown hg, hcol]
  have eGl : (G :: (Gs ++ [R])).getLastD [] = R := by
    rw [List.getLastD_eq_getLast?, ← List.cons_append, List.getLast?_append]; rfl
  have eGh : along g ((G :: (Gs ++ [R])).map fun l => l.headD 0) = -along g (H.drop (H.length / 2)) +
      g ((H.drop (H.length / 2)).headD 0) (R.headD 0) := by
    rw [← List.cons_append, List.map_append, hfirst, List.map_cons, List.map_nil, along_append (by simpa using neD) (by simp),
      along_one, add_zero, along_reverse hg, getLastD_reverse, headD_cons]
  rw [eGl, eGh]
  have nl : (H :: Hs).map (fun l => l.getLastD 0) ≠ [] := by simp
  have neLr : L.reverse ≠ [] := by simpa using neL
  have neGr : G.reverse ≠ [] := by simpa using neG
  rw [along_append (by simp [neL]) nl, along_append neLr neGr, getLastD_append neGr]
  simp only [getLastD_reverse, headD_reverse, along_reverse hg, List.map_reverse]
  rw [hLG, hG0]
  have e1 : ((H :: Hs).map (fun l => l.getLastD 0)).headD 0 = H.getLastD 0 := rfl
  rw [e1, hg.self, hg.self]
  rw [along_append neTk (by simp)]
  simp only [List.map_cons, List.map_nil, List.sum_cons, List.sum_nil, rim_strip hg, along_cc, along_one, getLastD_one,
    headD_cons, headD_append neR, getLastD_append neM, along_append neR neM, List.map_append, headD_reverse,
    getLastD_reverse, List.cons_append, along_reverse hg, hg.self, hLG]
  have e2 : (G.getLastD 0 :: (Gs.map (fun l => l.getLastD 0) ++ [R.getLastD 0])).getLastD 0 = R.getLastD 0 := by
    rw [← List.cons_append, getLastD_append (by simp), getLastD_one]
  rw [e2, sp1, sp2]
  have s1 := hg.swap (R.headD 0) (M.getLastD 0)
  have s2 := hg.swap (L.getLastD 0) (M.getLastD 0)
  linarith

/-- **C81** The triangles of a cable hole close the gap that it leaves in the walls and the split plane. -/
theorem C81_closes {q : Quality} {taper : Option ℝ} {cfg : CableCfg} {w t : ℝ} {pos : Vec} {c : Cable}
    (h : Cable.make q taper cfg w pos t = .ok c) (hap : Apart c.splitEdgeRaw)
    (hends : c.splitEdgeRaw.getLastD 0 ≠ c.splitEdgeRaw.headD 0) {tss : List (List (Tri Vec))} (ht : SoundMesh c.pieces tss) :
    Closes tss.flatten
      (pathPairs c.wallEdgeF ++ pathPairs c.splitEdgeG ++ pathPairs c.wallEdgeB ++ pathPairs c.splitEdgeT) :=
  closes_of_fit (C81_fit h hap hends) ht

end Chrumm.Part
