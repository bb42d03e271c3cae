import Verif.Part.Bracket
import Verif.Props.Cable

/-! C82: brackets. -/

namespace Chrumm.Part
open Geo Geo.Spec Spec Classical

section
variable {A : Type} [AddCommGroup A] {g : Vec → Vec → A}

/-- The sum of all boundaries. -/
noncomputable def total (g : Vec → Vec → A) (ps : List Piece) : A := (ps.map fun p => esum g (Piece.rim p)).sum

theorem total_nil : total g [] = 0 := rfl
theorem total_cons (p : Piece) (ps : List Piece) : total g (p :: ps) = esum g (Piece.rim p) + total g ps := by
  simp [total]
theorem total_append (ps qs : List Piece) : total g (ps ++ qs) = total g ps + total g qs := by
  simp [total]
theorem total_moved (f : Vec → Vec) (ps : List Piece) :
    total g (ps.map (Piece.moved f)) = total (fun x y => g (f x) (f y)) ps := by
  unfold total
  rw [List.map_map]
  congr 1
  exact List.map_congr_left fun p _ => rim_moved f p
theorem total_mirroredY (hg : Anti g) (ps : List Piece) :
    total g (ps.map Piece.mirroredY) = -total (fun x y => g x.mirroredY y.mirroredY) ps := by
  induction ps with
  | nil => simp [total]
  | cons p ps ih => rw [List.map_cons, total_cons, total_cons, ih, rim_mirroredY hg]; abel

end

theorem rim_turned {g : Vec → Vec → ℤ} (hg : Anti g) (e : List Vec) (holes : List (List Vec)) :
    esum g (Piece.rim (neat e holes true)) = -around g e + (holes.map (around g)).sum := rim_neat_turned hg e holes id

theorem fit_total {ps : List Piece} {loops : List (Vec × Vec)} : Fit ps loops ↔
    ∀ g : Vec → Vec → ℤ, Anti g → total g ps + esum g loops = 0 := fit_iff

theorem screwHole_total {q : Quality} {taper : Option ℝ} {cfg : BracketCfg} {c : Vec} {n u : Bool} {ps : List Piece}
    {holeL boreR : List Vec} (h : screwHole q taper cfg c n u = .ok (ps, holeL, boreR)) {g : Vec → Vec → ℤ} (hg : Anti g) :
    total g ps = around g holeL - around g boreR := by
  unfold screwHole at h
  dsimp only at h
  obtain ⟨hole, -, h⟩ := bind_ok h
  obtain ⟨bore, -, h⟩ := bind_ok h
  have := Except.ok.inj h
  simp only [Prod.mk.injEq] at this
  obtain ⟨rfl, rfl, rfl⟩ := this
  simp only [total_cons, total_nil, rim_face, rim_closed hg, around_reverse hg, List.map_cons, List.map_nil, List.sum_cons,
    List.sum_nil]
  abel

/-! ### Corner brackets -/

/-- The boundary of the ziptie. -/
theorem cornerZip_total {q : Quality} {cfg : BracketCfg} {cable : CableCfg} {s : CornerSketch} {archL archR : List Vec}
    {aR : Vec} {zip : List Piece} {newR newL split roof hole : List Vec}
    (h : cornerZip q cfg cable s archL archR aR = .ok (zip, newR, newL, split, roof, hole)) (hR : archR ≠ [])
    {g : Vec → Vec → ℤ} (hg : Anti g) :
    total g (zip ++ [strip newR newL]) = g (archL.headD 0) (archR.headD 0) + along g archR + g (archR.getLastD 0) aR
      + along g roof - along g split - around g hole ∧ roof ≠ [] ∧ split.headD 0 = archL.headD 0 ∧
      roof.headD 0 = aR ∧ split ≠ [] ∧ split.getLastD 0 = roof.getLastD 0 := by
  unfold cornerZip at h
  dsimp only at h
  obtain ⟨⟨H, f1, f2⟩, -, h⟩ := bind_ok h
  dsimp only at h
  obtain ⟨Z, -, h⟩ := bind_ok h
  generalize (⟨cable.gripHumpWidth / 2, 0, 0⟩ : Vec) = m at h
  generalize s.archLFT + m = p at h
  obtain ⟨l0, i1, h⟩ := bind_ok h
  obtain ⟨hL0, i2, h⟩ := bind_ok h
  obtain ⟨hL1, i3, h⟩ := bind_ok h
  obtain ⟨hR0, i4, h⟩ := bind_ok h
  obtain ⟨hR1, i5, h⟩ := bind_ok h
  obtain ⟨z0, i6, h⟩ := bind_ok h
  obtain ⟨z1, i7, h⟩ := bind_ok h
  obtain ⟨r1, i8, h⟩ := bind_ok h
  have := Except.ok.inj h
  simp only [Prod.mk.injEq] at this
  obtain ⟨rfl, rfl, rfl, rfl, rfl, rfl⟩ := this
  obtain ⟨nL, rfl⟩ := index_zero i1
  obtain ⟨nH, rfl⟩ := index_zero i2
  obtain ⟨-, rfl⟩ := index_last i3
  obtain ⟨nHR, rfl⟩ := index_zero i4
  obtain ⟨-, rfl⟩ := index_last i5
  obtain ⟨nZ, rfl⟩ := index_zero i6
  obtain ⟨-, rfl⟩ := index_last i7
  obtain ⟨-, rfl⟩ := index_last i8
  clear i1 i2 i3 i4 i5 i6 i7 i8 h
  generalize edgeTranslated H m = HR at *
  generalize edgeTranslated Z m = ZR at *
  generalize edgeTranslated s.arcL m = C at *
  have e1 : around g (HR ++ C ++ ZR ++ [p]) = along g HR + along g ([HR.getLastD 0] ++ C ++ [ZR.headD 0]) + along g ZR +
      g (ZR.getLastD 0) p + g p (HR.headD 0) := by
    have ne : HR ++ C ++ ZR ≠ [] := by simp [nHR]
    rw [around_eq _ (by simp), along_append ne (by simp), getLastD_append nZ, getLastD_append (List.cons_ne_nil p []),
      List.append_assoc, List.append_assoc, List.append_assoc, headD_append nHR]
    by_cases hC : C = []
    · subst hC
      simp only [List.nil_append, List.append_nil]
      rw [along_append nHR nZ]
      simp only [List.singleton_append, along_cc, along_one, getLastD_one, headD_cons]
      ring
    · rw [along_append nHR (by simp [hC]), along_append hC nZ, headD_append hC, List.append_assoc,
        along_append (by simp) (by simp), along_append hC (by simp), headD_append hC]
      simp only [along_one, getLastD_one, headD_cons]
      ring
  have e2 : along g ([H.getLastD 0, HR.getLastD 0] ++ C ++ [ZR.headD 0, ZR.getLastD 0, p]) =
      g (H.getLastD 0) (HR.getLastD 0) + along g ([HR.getLastD 0] ++ C ++ [ZR.headD 0]) + g (ZR.headD 0) (ZR.getLastD 0) +
      g (ZR.getLastD 0) p := by
    have : [H.getLastD 0, HR.getLastD 0] ++ C ++ [ZR.headD 0, ZR.getLastD 0, p] =
      [H.getLastD 0] ++ (([HR.getLastD 0] ++ C ++ [ZR.headD 0]) ++ [ZR.getLastD 0, p]) := by simp
    rw [this, along_append (by simp) (by simp), along_append (by simp) (by simp), headD_append (by simp), headD_append (by simp),
      headD_append (by simp), getLastD_append (by simp)]
    simp only [along_cc, along_one, getLastD_one, headD_cons]
    ring
  refine ⟨?_, List.cons_ne_nil _ _, ?_, rfl, by simp, ?_⟩
  · simp only [List.cons_append, List.nil_append, total_cons, total_nil, rim_strip hg, rim_closed hg, rim_neat hg, List.map_nil,
      List.sum_nil, around_reverse hg, along_reverse hg]
    simp only [List.cons_append, List.nil_append] at e1 e2
    rw [e1, e2, around_eq ZR nZ, along_append nH (by simp), along_cons _ hR, getLastD_cons _ hR]
    have e3 : (H.getLastD 0 :: HR.getLastD 0 :: (C ++ [ZR.headD 0, ZR.getLastD 0, p])).getLastD 0 = p := by
      rw [getLastD_cons _ (by simp), getLastD_cons _ (by simp), getLastD_append (by simp)]; rfl
    rw [e3]
    simp only [along_cc, along_one, headD_cons]
    have s1 := hg.swap (ZR.headD 0) (ZR.getLastD 0)
    have s2 := hg.swap (H.headD 0) (HR.headD 0)
    have s3 := hg.swap (archL.headD 0) (H.getLastD 0)
    have s4 := hg.swap (archR.getLastD 0) aR
    linarith
  · rw [headD_reverse, getLastD_append (by simp)]; rfl
  · rw [getLastD_reverse, headD_append nH]; rfl

/-- The corner bracket from back to front. -/
theorem cornerForward_total {q : Quality} {taper : Option ℝ} {cfg : BracketCfg} {zip : Option CableCfg} {a b c : Vec}
    {x y : ℝ} {n : Bool} {k : CornerBracket} (h : cornerForward q taper cfg zip a b c x y n = .ok k) :
    k.wallEdge ≠ [] ∧ k.roofEdge ≠ [] ∧ k.splitEdge ≠ [] ∧
    k.splitEdge.headD 0 = k.wallEdge.headD 0 ∧ k.splitEdge.getLastD 0 = k.roofEdge.getLastD 0 ∧
    k.wallEdge.getLastD 0 = c + ⟨cfg.holeLength + cfg.counterboreLength, 0, 0⟩ ∧
    k.roofEdge.headD 0 = a + ⟨cfg.holeLength + cfg.counterboreLength, 0, 0⟩ ∧
    ∀ g : Vec → Vec → ℤ, Anti g → total g k.pieces =
      along g (k.wallEdge ++ k.roofEdge) - along g k.splitEdge - (k.splitHoles.map (around g)).sum := by
  unfold cornerForward at h
  dsimp only at h
  obtain ⟨s, -, h⟩ := bind_ok h
  generalize eL : [s.archLBG] ++ s.arcL ++ [s.archLFT] = L at h
  generalize (⟨cfg.holeLength + cfg.counterboreLength, 0, 0⟩ : Vec) = m at h ⊢
  generalize eR : edgeTranslated L m = R at h
  obtain ⟨l0, i1, h⟩ := bind_ok h
  obtain ⟨l1, i2, h⟩ := bind_ok h
  obtain ⟨r0, i3, h⟩ := bind_ok h
  obtain ⟨r1, i4, h⟩ := bind_ok h
  obtain ⟨⟨hp, holeL, holeR⟩, i5, h⟩ := bind_ok h
  dsimp only at h
  obtain ⟨nL, rfl⟩ := index_zero i1
  obtain ⟨-, rfl⟩ := index_last i2
  obtain ⟨nR, rfl⟩ := index_zero i3
  obtain ⟨-, rfl⟩ := index_last i4
  clear i1 i2 i3 i4
  have base : ∀ g : Vec → Vec → ℤ, Anti g → total g (hp ++ [neat (R ++ [a + m, c + m]) [holeR] true]) =
      around g holeL - along g R - g (R.getLastD 0) (a + m) - g (a + m) (c + m) - g (c + m) (R.headD 0) := by
    intro g hg
    rw [total_append, total_cons, total_nil, screwHole_total i5 hg, rim_turned hg]
    simp only [List.map_cons, List.map_nil, List.sum_cons, List.sum_nil]
    rw [around_eq (R ++ _) (by simp), along_append nR (by simp), getLastD_append (List.cons_ne_nil _ _), headD_append nR]
    simp only [along_cc, along_one, headD_cons, getLastD_cons _ (List.cons_ne_nil _ _), getLastD_one]
    ring
  cases zip with
  | none =>
    unfold cornerFinish at h
    obtain rfl := Except.ok.inj h
    refine ⟨List.cons_ne_nil _ _, List.cons_ne_nil _ _, nL, rfl, rfl, rfl, rfl, ?_⟩
    intro g hg
    dsimp only
    rw [total_append, base g hg]
    simp only [total_cons, total_nil, rim_strip hg, List.cons_append, List.nil_append, along_cc, along_one, List.map_cons,
      List.map_nil, List.sum_cons, List.sum_nil, around_reverse hg]
    have s1 := hg.swap (R.getLastD 0) (a + m)
    have s2 := hg.swap (a + m) (c + m)
    have s3 := hg.swap (c + m) (R.headD 0)
    have s4 := hg.swap (R.headD 0) (L.headD 0)
    linarith
  | some cable =>
    unfold cornerFinish at h
    dsimp only at h
    obtain ⟨⟨zp, newR, newL, split, roof, hole⟩, i6, h⟩ := bind_ok h
    obtain rfl := Except.ok.inj h
    have z := fun (g : Vec → Vec → ℤ) (hg : Anti g) => cornerZip_total i6 nR hg
    obtain ⟨-, z2, z3, z4, z5, z6⟩ := z (fun _ _ => 0) ⟨fun _ _ => by simp, fun _ => rfl⟩
    refine ⟨List.cons_ne_nil _ _, z2, z5, z3, z6, rfl, z4, ?_⟩
    intro g hg
    dsimp only
    rw [List.append_assoc, total_append, base g hg, (z g hg).1, along_append (List.cons_ne_nil _ _) z2, z4]
    simp only [along_cc, along_one, getLastD_cons _ (List.cons_ne_nil _ _), getLastD_one, List.map_append, List.map_cons,
      List.map_nil, List.sum_append, List.sum_cons, List.sum_nil, around_reverse hg]
    have s2 := hg.swap (a + m) (c + m)
    have s3 := hg.swap (c + m) (R.headD 0)
    linarith

end Chrumm.Part
