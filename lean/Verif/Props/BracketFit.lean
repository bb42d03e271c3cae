import Verif.Props.BracketFlat

/-! C82: brackets fit together. -/

namespace Chrumm.Part
open Geo Geo.Spec Spec Classical

theorem esum_flatMap_cyc {g : Vec → Vec → ℤ} (hs : List (List Vec)) :
    esum g (hs.flatMap cycPairs) = (hs.map (around g)).sum := by
  induction hs with
  | nil => rfl
  | cons h hs ih => rw [List.flatMap_cons, esum_append, ih, List.map_cons, List.sum_cons]; rfl

theorem sum_map_neg' {α : Type} (f : α → ℤ) (l : List α) : (l.map fun a => -f a).sum = -(l.map f).sum := by
  induction l with
  | nil => rfl
  | cons a l ih => simp only [List.map_cons, List.sum_cons, ih]; ring

/-- How far the bracket reaches into its half. -/
def BracketCfg.depth (cfg : BracketCfg) : Vec := ⟨cfg.holeLength + cfg.counterboreLength, 0, 0⟩

/-- **C82** A corner bracket leaves its wall and roof edge, its split edge and its split holes. -/
theorem C82_corner_fit {q : Quality} {taper : Option ℝ} {cfg : BracketCfg} {cable : Option CableCfg} {a b c : Vec}
    {n : Bool} {k : CornerBracket} (h : CornerBracket.make q taper cfg cable a b c n = .ok k) :
    Fit k.pieces ((if a.y < b.y then pathPairs (k.wallEdge ++ k.roofEdge) else flipEdges (pathPairs (k.wallEdge ++ k.roofEdge)))
      ++ pathPairs k.splitEdge ++ k.splitHoles.flatMap cycPairs) ∧
    k.wallEdge ≠ [] ∧ k.roofEdge ≠ [] ∧ k.splitEdge ≠ [] ∧
    k.wallEdge.getLastD 0 = c.yz + cfg.depth ∧ k.roofEdge.headD 0 = a.yz + cfg.depth ∧
    (if a.y < b.y then k.splitEdge.getLastD 0 = k.wallEdge.headD 0 ∧ k.splitEdge.headD 0 = k.roofEdge.getLastD 0
      else k.splitEdge.headD 0 = k.wallEdge.headD 0 ∧ k.splitEdge.getLastD 0 = k.roofEdge.getLastD 0) ∧
    (∀ p ∈ k.splitEdge, p.x = 0) ∧ ∀ e ∈ k.splitHoles, ∀ p ∈ e, p.x = 0 := by
  unfold CornerBracket.make at h
  dsimp only at h
  have e1 : a.yz.y < b.yz.y ↔ a.y < b.y := Iff.rfl
  by_cases hab : a.y < b.y
  · rw [if_pos (e1.mpr hab)] at h
    obtain ⟨f, hf, h⟩ := bind_ok h
    obtain rfl := Except.ok.inj h
    obtain ⟨h1, h2, h3, h4, h5, h6, h7, h8⟩ := cornerForward_total hf
    obtain ⟨x1, x2⟩ := cornerForward_x hf rfl rfl rfl
    rw [if_pos hab, if_pos hab]
    unfold CornerBracket.mirrored
    dsimp only
    refine ⟨fit_total.mpr fun g hg => ?_, by simpa using h1, by simpa using h2, by simpa using h3, ?_, ?_, ⟨?_, ?_⟩, ?_, ?_⟩
    · rw [total_mirroredY hg, h8 _ (anti_map hg _), esum_append, esum_append, esum_flatMap_cyc]
      change _ + (along g _ + along g _ + _) = 0
      rw [along_reverse hg, along_map, ← List.map_append, along_map, List.map_map]
      have : f.splitHoles.map (around g ∘ fun h => (h.map Vec.mirroredY).reverse) =
          f.splitHoles.map fun h => -around (fun x y => g x.mirroredY y.mirroredY) h :=
        List.map_congr_left fun h _ => by rw [Function.comp, around_reverse hg, around_map]
      rw [this, sum_map_neg' _ f.splitHoles]
      ring
    · rw [getLastD_map _ h1, h6]; ext <;> simp [Vec.mirroredY, Vec.yz, BracketCfg.depth]
    · rw [headD_map _ h2, h7]; ext <;> simp [Vec.mirroredY, Vec.yz, BracketCfg.depth]
    · rw [getLastD_reverse, headD_map _ h3, headD_map _ h1, h4]
    · rw [headD_reverse, getLastD_map _ h3, getLastD_map _ h2, h5]
    · exact onSplit_reverse (onSplit_mirroredY x1)
    · intro e he
      obtain ⟨e', he', rfl⟩ := List.mem_map.mp he
      exact onSplit_reverse (onSplit_mirroredY (x2 e' he'))
  · rw [if_neg (fun hh => hab (e1.mp hh))] at h
    obtain ⟨h1, h2, h3, h4, h5, h6, h7, h8⟩ := cornerForward_total h
    obtain ⟨x1, x2⟩ := cornerForward_x h rfl rfl rfl
    rw [if_neg hab, if_neg hab]
    refine ⟨fit_total.mpr fun g hg => ?_, h1, h2, h3, h6, h7, ⟨h4, h5⟩, x1, x2⟩
    rw [h8 g hg, esum_append, esum_append, esum_flatMap_cyc, esum_flip hg]
    change _ + (-along g _ + along g _ + _) = 0
    ring

/-! ### Roof brackets -/

theorem mountBoss_total {q : Quality} {taper : Option ℝ} {m : MountBoss} {φ i : ℝ} {M : Mat} {ps : List Piece}
    {fg ft bg bt : Vec} (h : mountBoss q taper m φ i M = .ok (ps, fg, ft, bg, bt)) {g : Vec → Vec → ℤ} (hg : Anti g) :
    total g ps = g bg bt + g bt ft + g ft fg + g fg bg := by
  unfold mountBoss at h
  dsimp only at h
  obtain ⟨hole, -, h⟩ := bind_ok h
  obtain ⟨arc, -, h⟩ := bind_ok h
  generalize edgeTransformed (edgeTranslated (edgeTransformed hole _) _) M = HG at h
  generalize edgeTransformed (edgeTranslated (edgeTransformed (edgeTranslated hole _) _) _) M = HT at h
  generalize edgeTransformed (edgeTranslated (edgeTransformed (_ ++ arc ++ _) _) _) M = EG at h
  generalize edgeTransformed (edgeTranslated (edgeTransformed (_ ++ edgeTranslated arc _ ++ _) _) _) M = ET at h
  obtain ⟨g0, i1, h⟩ := bind_ok h
  obtain ⟨t0, i2, h⟩ := bind_ok h
  obtain ⟨g1, i3, h⟩ := bind_ok h
  obtain ⟨t1, i4, h⟩ := bind_ok h
  have := Except.ok.inj h
  simp only [Prod.mk.injEq] at this
  obtain ⟨rfl, rfl, rfl, rfl, rfl⟩ := this
  obtain ⟨nG, rfl⟩ := index_zero i1
  obtain ⟨nT, rfl⟩ := index_zero i2
  obtain ⟨-, rfl⟩ := index_last i3
  obtain ⟨-, rfl⟩ := index_last i4
  simp only [total_cons, total_nil, rim_face, rim_closed hg, rim_strip hg, around_reverse hg, List.map_cons, List.map_nil,
    List.sum_cons, List.sum_nil]
  rw [around_eq ET nT, around_eq EG nG]
  have s1 := hg.swap (EG.getLastD 0) (EG.headD 0)
  have s2 := hg.swap (EG.headD 0) (ET.headD 0)
  linarith

theorem roofFinish_total {q : Quality} {taper : Option ℝ} {cfg : BracketCfg} {n : Bool} {M : Mat}
    {L R F E : List Vec} {ps : List Piece} {k : RoofBracket} (h : roofFinish q taper cfg n M L R F E ps = .ok k) :
    k.roofEdge = E ∧ k.splitEdge = L.reverse ∧ ((∀ v : Vec, (v.transformed M).x = v.x) → OnSplit k.splitHole) ∧
    ∀ g : Vec → Vec → ℤ, Anti g → total g k.pieces = total g ps - around g k.splitHole + around g F + along g L +
      g (L.getLastD 0) (R.getLastD 0) - along g R - g (L.headD 0) (R.headD 0) := by
  unfold roofFinish at h
  dsimp only at h
  obtain ⟨⟨hp, holeL, holeR⟩, i1, h⟩ := bind_ok h
  have h0 := Except.ok.inj h
  subst h0
  refine ⟨rfl, rfl, fun hM => onSplit_reverse (onSplit_map fun v hv => ?_), fun g hg => ?_⟩
  · rw [hM, screwHole_x i1 rfl v hv]
  · dsimp only
    rw [total_append, total_append, total_moved, screwHole_total i1 (anti_map hg _)]
    simp only [total_cons, total_nil, rim_face, rim_strip hg, around_reverse hg, List.map_cons, List.map_nil, List.sum_cons,
      List.sum_nil]
    unfold edgeTransformed
    simp only [around_map]
    ring

theorem m1_back {p : Vec} (d : ℝ) (h : p.x = 0) (b : Vec) :
    b + ((p + (⟨d, 0, 0⟩ : Vec)).yz - b) + ⟨d, 0, 0⟩ = p + ⟨d, 0, 0⟩ := by
  ext <;> simp [Vec.yz, h]

/-- **C82** A roof bracket, with or without a mount for the circuit board, leaves its roof edge, its split edge and
its split hole. -/
theorem C82_roof_fit {q : Quality} {taper : Option ℝ} {cfg : BracketCfg} {mount : Option MountBoss} {φ i : ℝ} {a b : Vec}
    {M : Mat} {n : Bool} {k : RoofBracket} (h : RoofBracket.make q taper cfg mount φ i a b M n = .ok k) :
    Fit k.pieces (pathPairs k.roofEdge ++ pathPairs k.splitEdge ++ cycPairs k.splitHole) ∧
    k.roofEdge ≠ [] ∧ k.splitEdge ≠ [] ∧
    k.splitEdge.headD 0 = k.roofEdge.getLastD 0 ∧ k.splitEdge.getLastD 0 = k.roofEdge.headD 0 ∧
    (∀ p ∈ k.splitEdge, p.x = 0) ∧ ∀ p ∈ k.splitHole, p.x = 0 := by
  unfold RoofBracket.make at h
  dsimp only at h
  obtain ⟨⟨LF, LB, pT, pG⟩, i1, h⟩ := bind_ok h
  obtain ⟨x1, x2, x3, x4⟩ := roofSketch_x i1
  dsimp only at h
  obtain ⟨d, i2, h⟩ := bind_ok h
  have xd := normalized_x i2 (by simp [Vec.yz])
  generalize angle2D _ = ω at h
  cases mount with
  | none =>
    dsimp only at h
    unfold roofPlain at h
    dsimp only at h
    obtain ⟨_, -, h⟩ := bind_ok h
    obtain ⟨_, -, h⟩ := bind_ok h
    obtain ⟨l0, j1, h⟩ := bind_ok h
    obtain ⟨l1, j2, h⟩ := bind_ok h
    obtain ⟨r0, j3, h⟩ := bind_ok h
    obtain ⟨r1, j4, h⟩ := bind_ok h
    have hp : ∀ s : ℝ, (a.yz + d * s).x = 0 := fun s => by simp [Vec.yz, xd]
    have hM := fun (s : ℝ) (v : Vec) => roofAlign_x pT (a.yz + d * s) v ω x3 (hp s)
    generalize (85 / 100 * _ + _ : ℝ) = s at h j1 j2 j3 j4
    have hL : OnSplit (edgeTransformed (LF ++ LB) ((((1 : Mat).translated (-pT)).rotatedX ω).translated (a.yz + d * s))) :=
      onSplit_map fun v hv => by rw [hM s]; exact onSplit_append x1 x2 v hv
    generalize edgeTransformed (LF ++ LB) _ = L at h j1 j2 j3 j4 hL
    generalize edgeTranslated L _ = R at h j3 j4
    obtain ⟨h1, h2, h3, h4⟩ := roofFinish_total h
    obtain ⟨nL, rfl⟩ := index_zero j1
    obtain ⟨-, rfl⟩ := index_last j2
    obtain ⟨nR, rfl⟩ := index_zero j3
    obtain ⟨-, rfl⟩ := index_last j4
    rw [h1, h2]
    refine ⟨fit_total.mpr fun g hg => ?_, List.cons_ne_nil _ _, by simpa using nL, ?_, ?_, onSplit_reverse hL, h3 (hM s)⟩
    · rw [h4 g hg, esum_append, esum_append]
      change _ + (along g _ + along g _ + around g _) = 0
      rw [along_reverse hg, around_eq R nR, total_nil]
      simp only [along_cc, along_one]
      have s1 := hg.swap (L.getLastD 0) (R.getLastD 0)
      have s2 := hg.swap (R.getLastD 0) (R.headD 0)
      linarith
    · rw [headD_reverse]; rfl
    · rw [getLastD_reverse]; rfl
  | some m =>
    dsimp only at h
    unfold roofMounted at h
    dsimp only at h
    obtain ⟨⟨bp, fg, ft, bg, bt⟩, j0, h⟩ := bind_ok h
    have hb := fun (g : Vec → Vec → ℤ) (hg : Anti g) => mountBoss_total j0 hg
    dsimp only at h
    obtain ⟨bd, j1, h⟩ := bind_ok h
    have y1 := normalized_x j1 (by simp [Vec.yz])
    obtain ⟨rL, j2, h⟩ := bind_ok h
    have y2 := line0_make j2 rfl xd
    obtain ⟨aL, j3, h⟩ := bind_ok h
    have y3 := line0_make j3 (by simp [Vec.yz]) xd
    obtain ⟨aF, j4, h⟩ := bind_ok h
    have y4 := line0_make j4 rfl y1
    obtain ⟨aB, j5, h⟩ := bind_ok h
    have y5 := line0_make j5 rfl y1
    obtain ⟨aO, j6, h⟩ := bind_ok h
    have y6 := line0_make j6 (by simp [Vec.yz]) y1
    obtain ⟨rP, j7, h⟩ := bind_ok h
    have y7 := line0_intersect j7 y2 y6
    have hM := fun (v : Vec) => roofAlign_x pT rP v ω x3 y7
    have hLF : OnSplit (edgeTransformed LF ((((1 : Mat).translated (-pT)).rotatedX ω).translated rP)) :=
      onSplit_map fun v hv => by rw [hM]; exact x1 v hv
    have hLB : OnSplit (edgeTransformed LB ((((1 : Mat).translated (-pT)).rotatedX ω).translated rP)) :=
      onSplit_map fun v hv => by rw [hM]; exact x2 v hv
    have nLF : edgeTransformed LF ((((1 : Mat).translated (-pT)).rotatedX ω).translated rP) ≠ [] := by
      unfold roofSketch at i1
      dsimp only at i1
      iterate 10 (obtain ⟨_, -, i1⟩ := bind_ok i1)
      have := Except.ok.inj i1
      simp only [Prod.mk.injEq] at this
      obtain ⟨rfl, -⟩ := this
      exact List.cons_ne_nil _ _
    generalize edgeTransformed LF _ = F at h hLF nLF
    generalize edgeTransformed LB _ = B at h hLB
    generalize cfg.counterboreLength + cfg.holeLength = w at h
    obtain ⟨a0, k0, h⟩ := bind_ok h
    obtain ⟨a1, k1, h⟩ := bind_ok h
    have z1 := line0_intersect k1 y3 y5
    obtain ⟨a2, k2, h⟩ := bind_ok h
    obtain ⟨a3, k3, h⟩ := bind_ok h
    obtain ⟨b0, k4, h⟩ := bind_ok h
    have z2 := onSplit_index k4 hLB
    obtain ⟨nB, rfl⟩ := index_zero k4
    have hB' : OnSplit (edgeTranslated B ((a1 + ⟨w, 0, 0⟩ : Vec).yz - B.headD 0)) :=
      onSplit_translated hLB (by simp only [Vec.sub_x, Vec.yz, z2]; norm_num)
    have nB' := translated_ne ((a1 + ⟨w, 0, 0⟩ : Vec).yz - B.headD 0) nB
    have hB0 : (edgeTranslated (edgeTranslated B ((a1 + ⟨w, 0, 0⟩ : Vec).yz - B.headD 0)) ⟨w, 0, 0⟩).headD 0 = a1 + ⟨w, 0, 0⟩ := by
      rw [translated_head _ nB', translated_head _ nB, m1_back w z1]
    have nRB := translated_ne (⟨w, 0, 0⟩ : Vec) nB'
    generalize edgeTranslated (edgeTranslated B _) _ = RB at h hB0 nRB
    generalize edgeTranslated B _ = B' at h hB' nB'
    have nRF := translated_ne (⟨w, 0, 0⟩ : Vec) nLF
    generalize edgeTranslated F _ = RF at h nRF
    have hx2 : ((a2 + ⟨w, 0, 0⟩ : Vec).yz).x = 0 := rfl
    generalize (a2 + ⟨w, 0, 0⟩ : Vec).yz = m2' at h hx2
    generalize (a0 + ⟨w, 0, 0⟩ : Vec) = m0 at h
    generalize (a1 + ⟨w, 0, 0⟩ : Vec) = m1 at h hB0
    generalize (a2 + ⟨w, 0, 0⟩ : Vec) = m2 at h
    generalize (a3 + ⟨w, 0, 0⟩ : Vec) = m3 at h
    have xL : OnSplit (F ++ [m2'] ++ B') := onSplit_append (onSplit_append hLF (onSplit_one hx2)) hB'
    obtain ⟨l0, q1, h⟩ := bind_ok h
    obtain ⟨l1, q2, h⟩ := bind_ok h
    obtain ⟨r0, q3, h⟩ := bind_ok h
    obtain ⟨r1, q4, h⟩ := bind_ok h
    generalize eL : F ++ [m2'] ++ B' = L at *
    generalize eR : RF ++ [m2] ++ RB = R at *
    have eR0 : R.headD 0 = RF.headD 0 := by rw [← eR, List.append_assoc, headD_append nRF]
    have eR1 : R.getLastD 0 = RB.getLastD 0 := by rw [← eR, getLastD_append nRB]
    obtain ⟨h1, h2, h3, h4⟩ := roofFinish_total h
    obtain ⟨nL, rfl⟩ := index_zero q1
    obtain ⟨-, rfl⟩ := index_last q2
    obtain ⟨nR, rfl⟩ := index_zero q3
    obtain ⟨-, rfl⟩ := index_last q4
    rw [h1, h2]
    refine ⟨fit_total.mpr fun g hg => ?_, List.cons_ne_nil _ _, by simpa using nL, ?_, ?_, onSplit_reverse xL, h3 hM⟩
    · rw [h4 g hg, esum_append, esum_append, total_append, hb g hg]
      change _ + (along g _ + along g _ + around g _) = 0
      have e1 : along g R = along g RF + g (RF.getLastD 0) m2 + g m2 m1 + along g RB := by
        rw [← eR, List.append_assoc, along_append nRF (by simp), along_append (by simp) nRB, headD_append (by simp), hB0]
        simp only [along_one, headD_cons, getLastD_one]
        ring
      have e2 : around g (RF ++ [m2, m3]) = along g RF + g (RF.getLastD 0) m2 + g m2 m3 + g m3 (RF.headD 0) := by
        rw [around_eq (RF ++ _) (by simp), along_append nRF (by simp), getLastD_append (List.cons_ne_nil _ _), headD_append nRF]
        simp only [along_cc, along_one, headD_cons, getLastD_cons _ (List.cons_ne_nil _ _), getLastD_one]
        ring
      have e3 : ∀ a b c d : Vec, around g [a, b, c, d] = g a b + g b c + g c d + g d a := fun a b c d => by
        rw [around_eq _ (List.cons_ne_nil _ _)]
        simp only [along_cc, along_one, headD_cons, getLastD_cons _ (List.cons_ne_nil _ _), getLastD_one]
        ring
      simp only [total_cons, total_nil, rim_closed hg, rim_strip hg]
      rw [e2, e3, e3]
      simp only [along_reverse hg, headD_reverse, getLastD_reverse, hB0]
      simp only [along_cc, along_one, headD_cons, getLastD_cons _ (List.cons_ne_nil _ _), getLastD_one]
      rw [e1, eR0, eR1]
      have s0 := hg.swap m1 m1
      have s1 := hg.swap bg bt
      have s2 := hg.swap bt ft
      have s3 := hg.swap ft fg
      have s4 := hg.swap fg bg
      have s5 := hg.swap m3 (RF.headD 0)
      have s6 := hg.swap m0 m3
      have s7 := hg.swap (L.getLastD 0) (RB.getLastD 0)
      have s8 := hg.swap m1 m2
      have s9 := hg.swap m2 m3
      linarith
    · rw [headD_reverse]; rfl
    · rw [getLastD_reverse]; rfl

/-! ### Floor brackets -/

theorem around_ring {g : Vec → Vec → ℤ} {S : List Vec} (hS : S ≠ []) {t u a c d e : Vec} :
    around g (S ++ [t, u] ++ [a, c, d, e]) = along g S + g (S.getLastD 0) t + g t u + g u a + g a c + g c d + g d e +
      g e (S.headD 0) := by
  rw [around_eq _ (by simp), List.append_assoc, along_append hS (by simp), headD_append hS,
    getLastD_append (l := S) (by simp)]
  simp only [along_cc, along_one, List.cons_append, List.nil_append, headD_cons, getLastD_one,
    getLastD_cons _ (List.cons_ne_nil _ _)]
  ring

theorem floorForward_total {q : Quality} {taper : Option ℝ} {cfg : BracketCfg} {a c d e : Vec} {m : ℝ} {n : Bool}
    {k : FloorBracket} (h : floorForward q taper cfg a c d e m n = .ok k) :
    k.lipEdge = [e + cfg.depth, d + cfg.depth, c + cfg.depth, a + cfg.depth] ∧ k.splitEdge ≠ [] ∧
    k.taperEdge.length = 2 ∧ k.splitEdge.getLastD 0 = k.taperEdge.headD 0 ∧
    k.taperEdge.getLastD 0 = k.taperEdge.headD 0 + cfg.depth ∧ (k.splitEdge.headD 0 = e ∨ (k.splitEdge.headD 0).isClose e) ∧
    (k.splitEdge.headD 0 = e → ∀ g : Vec → Vec → ℤ, Anti g → total g k.pieces +
      (around g (k.splitEdge ++ k.taperEdge ++ k.lipEdge.reverse) + around g k.splitHole) = 0) := by
  unfold floorForward at h
  dsimp only at h
  obtain ⟨⟨A, z⟩, -, h⟩ := bind_ok h
  dsimp only at h
  obtain ⟨a1, j0, h⟩ := bind_ok h
  obtain ⟨nA, -⟩ := index_last j0
  generalize floorCenterY cfg m d e a1 = y at h
  have hm : (⟨cfg.counterboreLength + cfg.holeLength, 0, 0⟩ : Vec) = cfg.depth := by
    unfold BracketCfg.depth; rw [add_comm]
  rw [hm] at h
  generalize cfg.depth = w at *
  have nL := translated_ne (Vec.xy ⟨0, y, z⟩) nA
  generalize edgeTranslated A _ = L at h nL
  have eF : edgeTranslated (L ++ [d, c, a]) w = edgeTranslated L w ++ [d + w, c + w, a + w] := by
    unfold edgeTranslated; rw [List.map_append]; rfl
  rw [eF] at h
  have eR1 := translated_last w nL
  have eR0 := translated_head w nL
  have nR := translated_ne w nL
  generalize edgeTranslated L w = R at *
  obtain ⟨⟨hp, holeL, holeR⟩, j1, h⟩ := bind_ok h
  dsimp only at h
  obtain ⟨l1, j2, h⟩ := bind_ok h
  obtain ⟨-, rfl⟩ := index_last j2
  have base : ∀ g : Vec → Vec → ℤ, Anti g → ∀ X Y, total g ([strip X Y, neat (R ++ [d + w, c + w, a + w]) [holeR]] ++ hp) =
      along g X + g (X.getLastD 0) (Y.getLastD 0) - along g Y - g (X.headD 0) (Y.headD 0) + along g R +
        g (R.getLastD 0) (d + w) + g (d + w) (c + w) + g (c + w) (a + w) + g (a + w) (R.headD 0) + around g holeL := by
    intro g hg X Y
    rw [total_append, screwHole_total j1 hg]
    simp only [total_cons, total_nil, rim_strip hg, rim_neat hg, List.map_cons, List.map_nil, List.sum_cons, List.sum_nil]
    rw [around_eq (R ++ _) (by simp), along_append nR (by simp), getLastD_append (List.cons_ne_nil _ _), headD_append nR]
    simp only [along_cc, along_one, headD_cons, getLastD_cons _ (List.cons_ne_nil _ _), getLastD_one]
    ring
  by_cases hc : (L.getLastD 0).isClose e
  · simp only [if_pos hc] at h
    obtain ⟨l0, j3, h⟩ := bind_ok h
    obtain ⟨r0, j4, h⟩ := bind_ok h
    obtain ⟨-, rfl⟩ := index_zero j3
    obtain ⟨-, rfl⟩ := index_zero j4
    obtain rfl := Except.ok.inj h
    refine ⟨rfl, by simpa using nL, rfl, by rw [getLastD_reverse]; rfl, eR0, Or.inr (by rw [headD_reverse]; exact hc), ?_⟩
    dsimp only
    rw [headD_reverse]
    intro he g hg
    rw [base g hg]
    change _ + (around g (L.reverse ++ [_, _] ++ [a + w, c + w, d + w, e + w]) + _) = 0
    rw [around_ring (by simpa using nL), headD_reverse, along_reverse hg, getLastD_reverse, around_reverse hg]
    rw [eR1, he]
    have s1 := hg.swap (d + w) (e + w)
    have s2 := hg.swap (c + w) (d + w)
    have s3 := hg.swap (a + w) (c + w)
    have s4 := hg.swap (a + w) (R.headD 0)
    have s5 := hg.swap e (e + w)
    have s6 := hg.swap (L.headD 0) (L.headD 0)
    linarith
  · simp only [if_neg hc] at h
    obtain ⟨l0, j3, h⟩ := bind_ok h
    obtain ⟨r0, j4, h⟩ := bind_ok h
    obtain ⟨-, rfl⟩ := index_zero j3
    obtain ⟨-, rfl⟩ := index_zero j4
    obtain rfl := Except.ok.inj h
    refine ⟨rfl, by simp, rfl, by rw [getLastD_reverse]; rfl, ?_, Or.inl (by rw [headD_reverse, getLastD_append (by simp)]; rfl), ?_⟩
    · change (R ++ _).headD 0 = (L ++ _).headD 0 + w
      rw [headD_append nR, headD_append nL, eR0]
    dsimp only
    intro _ g hg
    rw [base g hg]
    change _ + (around g ((L ++ [e]).reverse ++ [_, _] ++ [a + w, c + w, d + w, e + w]) + _) = 0
    rw [around_ring (by simp), headD_reverse, along_reverse hg, getLastD_reverse, around_reverse hg,
      along_append nL (List.cons_ne_nil _ _), along_append nR (List.cons_ne_nil _ _), getLastD_append (List.cons_ne_nil _ _),
      getLastD_append (List.cons_ne_nil _ _), headD_append nL, headD_append nR]
    simp only [along_cc, along_one, headD_cons, getLastD_one, getLastD_cons _ (List.cons_ne_nil _ _)]
    have s1 := hg.swap (d + w) (e + w)
    have s2 := hg.swap (c + w) (d + w)
    have s3 := hg.swap (a + w) (c + w)
    have s4 := hg.swap (a + w) (R.headD 0)
    have s5 := hg.swap e (e + w)
    have s6 := hg.swap (L.headD 0) (L.headD 0)
    linarith

/-- **C82** A floor bracket leaves a single loop of its split edge, its taper edge and its lip edge, and its split hole,
provided that its split edge reaches the given end. -/
theorem C82_floor_fit {q : Quality} {taper : Option ℝ} {cfg : BracketCfg} {a b c d e : Vec} {n : Bool} {k : FloorBracket}
    (h : FloorBracket.make q taper cfg a b c d e n = .ok k)
    (he : (if a.y > b.y then k.splitEdge.getLastD 0 else k.splitEdge.headD 0) = e.yz) :
    Fit k.pieces ((if a.y > b.y then cycPairs (k.lipEdge ++ k.taperEdge ++ k.splitEdge)
      else cycPairs (k.splitEdge ++ k.taperEdge ++ k.lipEdge.reverse)) ++ cycPairs k.splitHole) := by
  unfold FloorBracket.make at h
  dsimp only at h
  have e1 : a.yz.y > b.yz.y ↔ a.y > b.y := Iff.rfl
  by_cases hab : a.y > b.y
  · rw [if_pos (e1.mpr hab)] at h
    rw [if_pos hab] at he ⊢
    obtain ⟨f, hf, h⟩ := bind_ok h
    obtain rfl := Except.ok.inj h
    obtain ⟨h1, h2, h3, h4, h5, h6, h7⟩ := floorForward_total hf
    unfold FloorBracket.mirrored at *
    dsimp only at *
    rw [getLastD_reverse, headD_map _ h2] at he
    have he' : f.splitEdge.headD 0 = e.yz.mirroredY := by rw [← he]; ext <;> simp [Vec.mirroredY]
    refine fit_total.mpr fun g hg => ?_
    rw [total_mirroredY hg, esum_append]
    change _ + (around g _ + around g _) = 0
    have := h7 he' _ (anti_map hg Vec.mirroredY)
    have e2 : f.lipEdge.map Vec.mirroredY ++ (f.taperEdge.map Vec.mirroredY).reverse ++ (f.splitEdge.map Vec.mirroredY).reverse
        = ((f.splitEdge ++ f.taperEdge ++ f.lipEdge.reverse).map Vec.mirroredY).reverse := by
      simp
    rw [e2, around_reverse hg, around_map, around_reverse hg, around_map]
    linarith
  · rw [if_neg (fun hh => hab (e1.mp hh))] at h
    rw [if_neg hab] at he ⊢
    refine fit_total.mpr fun g hg => ?_
    rw [esum_append]
    exact (floorForward_total h).2.2.2.2.2.2 he g hg

/-- **C82** The edges of a floor bracket: the lip edge repeats the given profile, the taper edge connects both sides,
and the split edge leads between the taper edge and the given end, where it may miss it by less than 0.000001. -/
theorem C82_floor_edges {q : Quality} {taper : Option ℝ} {cfg : BracketCfg} {a b c d e : Vec} {n : Bool} {k : FloorBracket}
    (h : FloorBracket.make q taper cfg a b c d e n = .ok k) :
    k.lipEdge = [e.yz + cfg.depth, d.yz + cfg.depth, c.yz + cfg.depth, a.yz + cfg.depth] ∧ k.splitEdge ≠ [] ∧
    (if a.y > b.y then
      k.taperEdge = [k.splitEdge.headD 0 + cfg.depth, k.splitEdge.headD 0] ∧
        (k.splitEdge.getLastD 0 = e.yz ∨ (k.splitEdge.getLastD 0).isClose e.yz)
      else k.taperEdge = [k.splitEdge.getLastD 0, k.splitEdge.getLastD 0 + cfg.depth] ∧
        (k.splitEdge.headD 0 = e.yz ∨ (k.splitEdge.headD 0).isClose e.yz)) ∧
    (∀ p ∈ k.splitEdge, p.x = 0) ∧ ∀ p ∈ k.splitHole, p.x = 0 := by
  unfold FloorBracket.make at h
  dsimp only at h
  have e1 : a.yz.y > b.yz.y ↔ a.y > b.y := Iff.rfl
  have two : ∀ {l : List Vec}, l.length = 2 → l = [l.headD 0, l.getLastD 0] := by
    intro l hl
    match l, hl with
    | [x, y], _ => rfl
  by_cases hab : a.y > b.y
  · rw [if_pos (e1.mpr hab)] at h
    rw [if_pos hab]
    obtain ⟨f, hf, h⟩ := bind_ok h
    obtain rfl := Except.ok.inj h
    obtain ⟨h1, h2, h3, h4, h5, h6, -⟩ := floorForward_total hf
    obtain ⟨x1, x2⟩ := floorForward_x hf rfl
    unfold FloorBracket.mirrored
    dsimp only
    have ne : (f.splitEdge.map Vec.mirroredY) ≠ [] := by simpa using h2
    refine ⟨?_, by simpa using h2, ⟨?_, ?_⟩, onSplit_reverse (onSplit_mirroredY x1), onSplit_reverse (onSplit_mirroredY x2)⟩
    · rw [h1]
      simp [Vec.mirroredY, Vec.yz, BracketCfg.depth, Vec.ext_iff]
    · rw [two h3, headD_reverse, getLastD_map _ h2, h4, h5]
      simp [Vec.mirroredY, BracketCfg.depth, Vec.ext_iff]
    · rw [getLastD_reverse, headD_map _ h2]
      rcases h6 with h6 | h6
      · left; rw [h6]; ext <;> simp [Vec.mirroredY]
      · right
        unfold Vec.isClose at h6 ⊢
        unfold isZero at *
        have : (f.splitEdge.headD 0).mirroredY.y - e.yz.y = -((f.splitEdge.headD 0).y - e.yz.mirroredY.y) := by
          simp only [Vec.mirroredY]; ring
        rw [this]
        exact ⟨h6.1, by rw [abs_neg]; exact h6.2.1, h6.2.2⟩
  · rw [if_neg (fun hh => hab (e1.mp hh))] at h
    rw [if_neg hab]
    obtain ⟨h1, h2, h3, h4, h5, h6, -⟩ := floorForward_total h
    obtain ⟨x1, x2⟩ := floorForward_x h rfl
    refine ⟨h1, h2, ⟨?_, h6⟩, x1, x2⟩
    conv_lhs => rw [two h3]
    rw [h5, h4]

/-- **C82** The triangles of a corner bracket close the gap that it leaves in the inner wall, the inner roof and the split
plane. -/
theorem C82_corner_closes {q : Quality} {taper : Option ℝ} {cfg : BracketCfg} {cable : Option CableCfg} {a b c : Vec}
    {n : Bool} {k : CornerBracket} (h : CornerBracket.make q taper cfg cable a b c n = .ok k) {tss : List (List (Tri Vec))}
    (ht : SoundMesh k.pieces tss) : Closes tss.flatten
      ((if a.y < b.y then pathPairs (k.wallEdge ++ k.roofEdge) else flipEdges (pathPairs (k.wallEdge ++ k.roofEdge)))
        ++ pathPairs k.splitEdge ++ k.splitHoles.flatMap cycPairs) :=
  closes_of_fit (C82_corner_fit h).1 ht

/-- **C82** The triangles of a roof bracket close the gap that it leaves in the inner roof and the split plane. -/
theorem C82_roof_closes {q : Quality} {taper : Option ℝ} {cfg : BracketCfg} {mount : Option MountBoss} {φ i : ℝ} {a b : Vec}
    {M : Mat} {n : Bool} {k : RoofBracket} (h : RoofBracket.make q taper cfg mount φ i a b M n = .ok k)
    {tss : List (List (Tri Vec))} (ht : SoundMesh k.pieces tss) :
    Closes tss.flatten (pathPairs k.roofEdge ++ pathPairs k.splitEdge ++ cycPairs k.splitHole) :=
  closes_of_fit (C82_roof_fit h).1 ht

/-- **C82** The triangles of a floor bracket close the gap between the floor and the split plane. -/
theorem C82_floor_closes {q : Quality} {taper : Option ℝ} {cfg : BracketCfg} {a b c d e : Vec} {n : Bool} {k : FloorBracket}
    (h : FloorBracket.make q taper cfg a b c d e n = .ok k)
    (he : (if a.y > b.y then k.splitEdge.getLastD 0 else k.splitEdge.headD 0) = e.yz) {tss : List (List (Tri Vec))}
    (ht : SoundMesh k.pieces tss) : Closes tss.flatten
      ((if a.y > b.y then cycPairs (k.lipEdge ++ k.taperEdge ++ k.splitEdge)
        else cycPairs (k.splitEdge ++ k.taperEdge ++ k.lipEdge.reverse)) ++ cycPairs k.splitHole) :=
  closes_of_fit (C82_floor_fit h he) ht

end Chrumm.Part
