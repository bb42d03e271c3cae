import Verif.Props.Knob
import Verif.Props.FloorMake
import Verif.Spec.Palm

/-! C87: the palm rest is watertight. -/

namespace Chrumm.Part
open Geo Geo.Spec Spec Classical

theorem grooveEdge_ok {plane : Plane} {spine : List Line} {o : Vec} {e : List Vec} (h : grooveEdge plane spine o = .ok e) :
    ∃ a m b, m ≠ [] ∧ e = a :: (m ++ [b]) := by
  unfold grooveEdge at h
  obtain ⟨m, -, h1⟩ := bind_ok h
  obtain ⟨f, h2, h3⟩ := bind_ok h1
  obtain ⟨l, -, h5⟩ := bind_ok h3
  obtain ⟨n, -⟩ := index_zero h2
  exact ⟨_, m, _, n, (Except.ok.inj h5).symm⟩

theorem groove_second {a b v : Vec} {m : List Vec} (hm : m ≠ []) (h : pyIndex (a :: (m ++ [b])) 1 = .ok v) : v = m.headD 0 := by
  match m, hm with
  | x :: m, _ => exact (Except.ok.inj h).symm

theorem groove_index {a b v : Vec} {m : List Vec} (hm : m ≠ []) (h : pyIndex (a :: (m ++ [b])) (-2) = .ok v) : v = m.getLastD 0 := by
  obtain ⟨l, x, rfl⟩ : ∃ l x, m = l ++ [x] := ⟨_, _, (List.dropLast_append_getLast hm).symm⟩
  rw [getLastD_append (List.cons_ne_nil _ _), getLastD_one]
  unfold pyIndex at h
  have e : ((-2 : ℤ) + ((a :: (l ++ [x] ++ [b])).length : ℕ)).toNat = l.length + 1 := by
    simp only [List.length_cons, List.length_append, List.length_nil]
    push_cast
    omega
  rw [if_neg (by norm_num), if_pos (by simp only [List.length_cons, List.length_append, List.length_nil]; push_cast; omega), e] at h
  unfold pyGet at h
  have e2 : (a :: (l ++ [x] ++ [b]))[l.length + 1]? = some x := by simp
  rw [e2] at h
  exact (Except.ok.inj h).symm

theorem middle_ok (a b : Vec) (m : List Vec) : middlePart (a :: (m ++ [b])) = m := by
  unfold middlePart
  rw [← List.cons_append, List.dropLast_concat]
  rfl

theorem clamp_total {size : ℝ} {a b c d : Vec} {p : Piece} (h : clamp size a b c d = .ok p) {g : Vec → Vec → ℤ} (hg : Anti g) :
    esum g (Piece.rim p) = g a b + g b c + g c d + g d a := by
  unfold clamp at h
  obtain ⟨dir, -, h1⟩ := bind_ok h
  obtain rfl := Except.ok.inj h1
  rw [rim_closed hg]
  rw [around_eq _ (List.cons_ne_nil _ _), around_eq _ (List.cons_ne_nil _ _)]
  simp only [along_cc, along_one, headD_cons, getLastD_cons _ (List.cons_ne_nil _ _), getLastD_one, hg.self]
  clear * - hg
  anti hg

/-- What the grooves contribute to the boundaries. -/
structure GrooveFits (g : Vec → Vec → ℤ) (place : Vec → Vec) (p : GrooveParts) : Prop where
  sum : total g p.faces + total (fun x y => g (place x) (place y)) p.pieces =
    along (fun x y => g (place x) (place y)) p.LT - along (fun x y => g (place x) (place y)) p.LG -
      along (fun x y => g (place x) (place y)) p.RT - along (fun x y => g (place x) (place y)) p.RG
  ends : p.LT = [] ∧ p.LG = [] ∧ p.RT = [] ∧ p.RG = [] ∨ p.LT ≠ [] ∧ p.LG ≠ [] ∧ p.RT ≠ [] ∧ p.RG ≠ [] ∧
    p.LG.headD 0 = p.LT.headD 0 ∧ p.LG.getLastD 0 = p.LT.getLastD 0 ∧ p.RG.headD 0 = p.RT.getLastD 0 ∧ p.RG.getLastD 0 = p.RT.headD 0

theorem ground_total {size : ℝ} {gr : Groove} {b : Bool} {ps : List Piece} (h : grooveGround size gr b = .ok ps)
    (hLGO : ∃ a m b, m ≠ [] ∧ gr.LGO = a :: (m ++ [b])) (hLGI : ∃ a m b, m ≠ [] ∧ gr.LGI = a :: (m ++ [b]))
    (hRGO : ∃ a m b, m ≠ [] ∧ gr.RGO = a :: (m ++ [b])) (hRGI : ∃ a m b, m ≠ [] ∧ gr.RGI = a :: (m ++ [b]))
    {g : Vec → Vec → ℤ} (hg : Anti g) : total g ps = esum g (Piece.rim (strip gr.LGO gr.LGI)) + esum g (Piece.rim (strip gr.RGI gr.RGO)) := by
  cases b with
  | false =>
    obtain rfl := Except.ok.inj h
    simp only [total_cons, total_nil, add_zero]
  | true =>
    obtain ⟨a1, m1, b1, n1, e1⟩ := hLGO
    obtain ⟨a2, m2, b2, n2, e2⟩ := hLGI
    obtain ⟨a3, m3, b3, n3, e3⟩ := hRGO
    obtain ⟨a4, m4, b4, n4, e4⟩ := hRGI
    unfold grooveGround at h
    rw [e1, e2, e3, e4] at h
    obtain ⟨_, i1, h1⟩ := bind_ok h
    obtain ⟨_, i2, h2⟩ := bind_ok h1
    obtain ⟨_, i3, h3⟩ := bind_ok h2
    obtain ⟨_, i4, h4⟩ := bind_ok h3
    obtain ⟨c1, k1, h5⟩ := bind_ok h4
    obtain ⟨_, i5, h6⟩ := bind_ok h5
    obtain ⟨_, i6, h7⟩ := bind_ok h6
    obtain ⟨_, i7, h8⟩ := bind_ok h7
    obtain ⟨_, i8, h9⟩ := bind_ok h8
    obtain ⟨c2, k2, h10⟩ := bind_ok h9
    obtain ⟨_, j1, h11⟩ := bind_ok h10
    obtain ⟨_, j2, h12⟩ := bind_ok h11
    obtain ⟨_, j3, h13⟩ := bind_ok h12
    obtain ⟨_, j4, h14⟩ := bind_ok h13
    obtain ⟨c3, k3, h15⟩ := bind_ok h14
    obtain ⟨_, j5, h16⟩ := bind_ok h15
    obtain ⟨_, j6, h17⟩ := bind_ok h16
    obtain ⟨_, j7, h18⟩ := bind_ok h17
    obtain ⟨_, j8, h19⟩ := bind_ok h18
    obtain ⟨c4, k4, h20⟩ := bind_ok h19
    obtain rfl := Except.ok.inj h20
    obtain ⟨-, rfl⟩ := index_zero i1
    obtain rfl := groove_second n1 i2
    obtain rfl := groove_second n2 i3
    obtain ⟨-, rfl⟩ := index_zero i4
    obtain ⟨-, rfl⟩ := index_zero i5
    obtain rfl := groove_second n4 i6
    obtain rfl := groove_second n3 i7
    obtain ⟨-, rfl⟩ := index_zero i8
    obtain ⟨-, rfl⟩ := index_last j1
    obtain rfl := groove_index n2 j2
    obtain rfl := groove_index n1 j3
    obtain ⟨-, rfl⟩ := index_last j4
    obtain ⟨-, rfl⟩ := index_last j5
    obtain rfl := groove_index n3 j6
    obtain rfl := groove_index n4 j7
    obtain ⟨-, rfl⟩ := index_last j8
    rw [middle_ok, middle_ok, middle_ok, middle_ok, e1, e2, e3, e4]
    simp only [total_cons, total_nil, clamp_total k1 hg, clamp_total k2 hg, clamp_total k3 hg, clamp_total k4 hg, rim_strip hg, headD_cons]
    have al : ∀ (a b : Vec) {m : List Vec}, m ≠ [] → along g (a :: (m ++ [b])) = g a (m.headD 0) + along g m + g (m.getLastD 0) b := by
      intro a b m hm
      rw [along_cons _ (by simp), headD_append hm, along_append hm (by simp), along_one, headD_cons]
      ring
    have la : ∀ (a b : Vec) {m : List Vec}, m ≠ [] → (a :: (m ++ [b])).getLastD 0 = b := by
      intro a b m hm
      rw [getLastD_cons _ (by simp), getLastD_append (by simp), getLastD_one]
    rw [al _ _ n1, al _ _ n2, al _ _ n3, al _ _ n4, la _ _ n1, la _ _ n2, la _ _ n3, la _ _ n4]
    clear * - hg
    anti hg

theorem grooveMake_ok {q : Quality} {palm : PalmCfg} {fh : ℝ} {s : PalmShape} {gc : GrooveCfg} {gr : Groove}
    (h : Groove.make q palm fh s gc = .ok gr) : ∀ e ∈ [gr.LTO, gr.LGO, gr.RTO, gr.RGO, gr.LTI, gr.LGI, gr.RTI, gr.RGI],
      ∃ a m b, m ≠ [] ∧ e = a :: (m ++ [b]) := by
  unfold Groove.make at h
  split_ifs at h
  obtain ⟨_, -, h1⟩ := bind_ok h
  obtain ⟨_, -, h2⟩ := bind_ok h1
  obtain ⟨_, -, h3⟩ := bind_ok h2
  obtain ⟨_, -, h4⟩ := bind_ok h3
  obtain ⟨_, -, h5⟩ := bind_ok h4
  obtain ⟨_, -, h6⟩ := bind_ok h5
  obtain ⟨_, k1, g1⟩ := bind_ok h6
  obtain ⟨_, k2, g2⟩ := bind_ok g1
  obtain ⟨_, k3, g3⟩ := bind_ok g2
  obtain ⟨_, k4, g4⟩ := bind_ok g3
  obtain ⟨_, k5, g5⟩ := bind_ok g4
  obtain ⟨_, k6, g6⟩ := bind_ok g5
  obtain ⟨_, k7, g7⟩ := bind_ok g6
  obtain ⟨_, k8, g8⟩ := bind_ok g7
  obtain rfl := Except.ok.inj g8
  intro e he
  simp only [List.mem_cons, List.not_mem_nil, or_false] at he
  rcases he with rfl | rfl | rfl | rfl | rfl | rfl | rfl | rfl
  · exact grooveEdge_ok k1
  · exact grooveEdge_ok k2
  · exact grooveEdge_ok k3
  · exact grooveEdge_ok k4
  · exact grooveEdge_ok k5
  · exact grooveEdge_ok k6
  · exact grooveEdge_ok k7
  · exact grooveEdge_ok k8

theorem groove_fits {q : Quality} {palm : PalmCfg} {fh : ℝ} {s : PalmShape} {place : Vec → Vec} {og : Option GrooveCfg} {p : GrooveParts}
    (h : grooveParts q palm fh s place og = .ok p) {g : Vec → Vec → ℤ} (hg : Anti g) : GrooveFits g place p := by
  cases og with
  | none =>
    obtain rfl := Except.ok.inj h
    exact ⟨by simp [total_nil, along_nil], .inl ⟨rfl, rfl, rfl, rfl⟩⟩
  | some gc =>
    unfold grooveParts at h
    obtain ⟨gr, h1, h2⟩ := bind_ok h
    obtain ⟨ground, h3, h4⟩ := bind_ok h2
    obtain ⟨⟨LG, RG⟩, h5, h6⟩ := bind_ok h4
    obtain rfl := Except.ok.inj h6
    unfold grooveEnds at h5
    obtain ⟨_, k1, h7⟩ := bind_ok h5
    obtain ⟨_, k2, h8⟩ := bind_ok h7
    obtain ⟨_, k3, h9⟩ := bind_ok h8
    obtain ⟨_, k4, h10⟩ := bind_ok h9
    obtain ⟨-, rfl⟩ := lasts_ok k1
    obtain ⟨-, rfl⟩ := heads_ok k2
    obtain ⟨-, rfl⟩ := heads_ok k3
    obtain ⟨-, rfl⟩ := lasts_ok k4
    have e := Except.ok.inj h10
    rw [Prod.mk.injEq] at e
    obtain ⟨rfl, rfl⟩ := e
    have hG : Anti fun x y => g (place x) (place y) := anti_map hg place
    have all := grooveMake_ok h1
    have gt := ground_total h3 (all _ (by simp)) (all _ (by simp)) (all _ (by simp)) (all _ (by simp)) hG
    have ne : ∀ e ∈ [gr.LTO, gr.LGO, gr.RTO, gr.RGO, gr.LTI, gr.LGI, gr.RTI, gr.RGI], e ≠ [] := by
      intro e he
      obtain ⟨a, m, b, -, rfl⟩ := all e he
      simp
    have n1 := ne gr.LTO (by simp)
    have n2 := ne gr.LGO (by simp)
    have n3 := ne gr.RTO (by simp)
    have n4 := ne gr.RGO (by simp)
    have n5 := ne gr.LTI (by simp)
    have n6 := ne gr.LGI (by simp)
    have n7 := ne gr.RTI (by simp)
    have n8 := ne gr.RGI (by simp)
    clear ne all k1 k2 k3 k4 h h1 h2 h3 h4 h5 h6 h7 h8 h9 h10
    obtain ⟨LTO, LGO, RTO, RGO, LTI, LGI, RTI, RGI⟩ := gr
    dsimp only at *
    refine ⟨?_, .inr ⟨by simpa using n1, by simp, by simpa using n3, by simp, ?_, ?_, ?_, ?_⟩⟩
    · dsimp only
      simp only [total_append, total_cons, total_nil, rim_face, around_map, List.map_nil, List.sum_nil, add_zero]
      rw [gt]
      generalize hGd : (fun x y => g (place x) (place y)) = G at *
      have r5 : LTI.reverse ≠ [] := by simpa using n5
      have r8 : RGI.reverse ≠ [] := by simpa using n8
      rw [around_eq (LGI ++ _) (by simp [n6]), around_eq (RTI ++ _) (by simp [n7]), around_eq LGO.reverse (by simpa using n2), around_eq RGO n4,
        along_append n6 r5, along_append n7 r8]
      simp only [along_reverse hG, headD_append n6, headD_append n7, getLastD_append r5, getLastD_append r8, headD_reverse, getLastD_reverse, rim_strip hG,
        List.map_cons, List.map_nil, List.cons_append, List.nil_append, along_cc, along_one]
      clear * - hG
      anti hG
    · rw [headD_reverse]; rfl
    · rw [getLastD_reverse]; rfl
    · rw [getLastD_reverse]; rfl
    · rw [headD_reverse]; rfl

theorem palmBumpers_total {q : Quality} {fh : ℝ} {palm : PalmCfg} {s : PalmShape} {ob : Option BumperCfg} {bs : List Bumper}
    (h : palmBumpers q fh palm s ob = .ok bs) (hq : SaneQuality q) (hb : ∀ c ∈ ob, 1 ≤ c.diameter ∧ 1 / 1000 ≤ |c.height|)
    {g : Vec → Vec → ℤ} (hg : Anti g) : total g (bs.map fun b => done b.triangles) + (bs.map fun b => around g b.floorEdge).sum = 0 := by
  have all : ∀ b ∈ bs, Closes b.triangles (cycPairs b.floorEdge) := by
    cases ob with
    | none =>
      obtain rfl := Except.ok.inj h
      simp
    | some bc =>
      obtain ⟨d1, d2⟩ := hb bc rfl
      unfold palmBumpers at h
      obtain ⟨ps, -, h1⟩ := bind_ok h
      intro b hm
      replace h1 := mapM_ok h1
      obtain ⟨pos, h2⟩ := forall₂_right h1 hm
      exact (C59_full _ _ _ _ _ hq d1 d2 h2).1
  clear h
  induction bs with
  | nil => rfl
  | cons b bs ih =>
    have ih := ih fun b hb => all b (by simp [hb])
    have c := sameChain_iff.mp (all b (by simp)) g hg
    rw [esum_append, esum_nil] at c
    change _ + around g _ = 0 at c
    simp only [List.map_cons, total_cons, List.sum_cons, rim_done]
    linarith

/-- The outlines of the palm rest cancel. -/
theorem palm_sum {G : Vec → Vec → ℤ} (hG : Anti G) {RB R L LB fRG fRT fLT fLG eT eG LT LG RT RG : List Vec} (nRB : RB ≠ []) (nR : R ≠ [])
    (nL : L ≠ []) (nLB : LB ≠ []) (nRG : fRG ≠ []) (nRT : fRT ≠ []) (nLT : fLT ≠ []) (nLG : fLG ≠ []) (nT : eT ≠ []) (nG : eG ≠ [])
    (hT0 : eT.headD 0 = fRT.headD 0) (hT1 : eT.getLastD 0 = fLT.headD 0) (hG0 : eG.headD 0 = fRG.headD 0) (hG1 : eG.getLastD 0 = fLG.headD 0)
    (ends : LT = [] ∧ LG = [] ∧ RT = [] ∧ RG = [] ∨ LT ≠ [] ∧ LG ≠ [] ∧ RT ≠ [] ∧ RG ≠ [] ∧
      LG.headD 0 = LT.headD 0 ∧ LG.getLastD 0 = LT.getLastD 0 ∧ RG.headD 0 = RT.getLastD 0 ∧ RG.getLastD 0 = RT.headD 0) :
    around G (eG.reverse ++ [RB.headD 0] ++ RG ++ [R.getLastD 0, L.getLastD 0] ++ LG ++ [LB.headD 0]) + around G (RB ++ R ++ RT) -
      around G (LB ++ L ++ LT) + around G eT + esum G (Piece.rim (strip L R)) +
      esum G (Piece.rim (strip [LB.getLastD 0, L.headD 0, R.headD 0, RB.getLastD 0] [fLG.getLastD 0, fLT.getLastD 0, fRT.getLastD 0, fRG.getLastD 0])) +
      esum G (Piece.rim (strip eG eT)) + esum G (Piece.rim (strip LB fLG)) + esum G (Piece.rim (strip fLG fLT)) +
      esum G (Piece.rim (strip fLT fRT)) + esum G (Piece.rim (strip fRT fRG)) + esum G (Piece.rim (strip fRG RB)) +
      (along G LT - along G LG - along G RT - along G RG) = 0 := by
  have rG : eG.reverse ≠ [] := by simpa using nG
  rcases ends with ⟨rfl, rfl, rfl, rfl⟩ | ⟨n1, n2, n3, n4, e1, e2, e3, e4⟩
  · simp only [List.append_nil, rim_strip hG, List.append_assoc, List.cons_append, List.nil_append]
    rw [around_eq (eG.reverse ++ _) (by simp [rG]), around_eq (RB ++ _) (by simp [nRB]), around_eq (LB ++ _) (by simp [nLB]), around_eq eT nT,
      along_append rG (by simp), along_append nRB nR, along_append nLB nL]
    simp only [along_reverse hG, headD_append rG, headD_append nRB, headD_append nLB, getLastD_append (List.cons_ne_nil _ _), getLastD_append nR,
      getLastD_append nL, headD_reverse, getLastD_reverse, along_cc, along_one, along_nil, headD_cons, getLastD_cons _ (List.cons_ne_nil _ _),
      getLastD_one, hT0, hT1, hG0, hG1]
    clear * - hG
    anti hG
  · simp only [rim_strip hG, List.append_assoc, List.cons_append, List.nil_append]
    rw [around_eq (eG.reverse ++ _) (by simp [rG]), around_eq (RB ++ _) (by simp [nRB]), around_eq (LB ++ _) (by simp [nLB]), around_eq eT nT,
      along_append rG (by simp), along_append nRB (by simp [nR]), along_append nLB (by simp [nL]), along_append nR n3, along_append nL n1,
      along_cons _ (m := RG ++ _) (by simp [n4]), along_append n4 (by simp), along_cc, along_cons _ (m := LG ++ _) (by simp [n2]),
      along_append n2 (by simp)]
    simp only [along_reverse hG, headD_append rG, headD_append nRB, headD_append nLB, headD_append nR, headD_append nL, headD_append n1,
      headD_append n2, headD_append n3, headD_append n4, getLastD_append (List.cons_ne_nil _ _),
      getLastD_append (List.append_ne_nil_of_left_ne_nil nR _), getLastD_append (List.append_ne_nil_of_left_ne_nil nL _),
      getLastD_append (List.append_ne_nil_of_left_ne_nil n4 _), getLastD_append (List.append_ne_nil_of_left_ne_nil n2 _), getLastD_append n3,
      getLastD_append n1,
      getLastD_cons _ (List.append_ne_nil_of_left_ne_nil n4 _), getLastD_cons _ (List.append_ne_nil_of_left_ne_nil n2 _),
      headD_reverse, getLastD_reverse, along_cc, along_one, along_nil, headD_cons, getLastD_cons _ (List.cons_ne_nil _ _),
      getLastD_one, hT0, hT1, hG0, hG1, e1, e2, e3, e4]
    clear * - hG
    anti hG

/-- **C87** The pieces of a palm rest fit together, without a gap: with or without grooves, clamps and bumpers. The threads of the
screws have to be closed by their own triangles (C78). -/
theorem C87_fit {cfg : KeyboardCfg} {pc : PalmCfg} {points : Points} {hi : Hitch} {palm : Palm} (h : Palm.make cfg pc points hi = .ok palm)
    (hq : SaneQuality cfg.quality) (hbump : ∀ c ∈ cfg.bumper, 1 ≤ c.diameter ∧ 1 / 1000 ≤ |c.height|)
    (hl : Closes hi.bossL.threadTriangles (cycPairs hi.bossL.threadHole)) (hr : Closes hi.bossR.threadTriangles (cycPairs hi.bossR.threadHole)) :
    Fit (palm.faces ++ palm.pieces) [] := by
  unfold Palm.make at h
  dsimp only at h
  obtain ⟨matrix, -, h1⟩ := bind_ok h
  obtain ⟨s, -, h2⟩ := bind_ok h1
  obtain ⟨n, hn, h3⟩ := bind_ok h2
  obtain ⟨gp, hgp, h4⟩ := bind_ok h3
  obtain ⟨bs, hbs, h5⟩ := bind_ok h4
  obtain ⟨faces, hf, h6⟩ := bind_ok h5
  obtain rfl := Except.ok.inj h6
  dsimp only
  clear h h1 h2 h3 h4 h5 h6
  generalize (fun v : Vec => v.transformed matrix) = place at *
  refine fit_total.mpr fun g hg => ?_
  have hG : Anti fun x y => g (place x) (place y) := anti_map hg place
  have gf := groove_fits hgp hg
  have bt := palmBumpers_total hbs hq hbump hG
  have cl := sameChain_iff.mp hl g hg
  have cr := sameChain_iff.mp hr g hg
  rw [esum_append, esum_nil] at cl cr
  change _ + around g _ = 0 at cl cr
  unfold palmFaces at hf
  obtain ⟨_, i1, f1⟩ := bind_ok hf
  obtain ⟨_, i2, f2⟩ := bind_ok f1
  obtain ⟨_, i3, f3⟩ := bind_ok f2
  obtain ⟨_, i4, f4⟩ := bind_ok f3
  obtain rfl := Except.ok.inj f4
  obtain ⟨nRB, rfl⟩ := index_zero i1
  obtain ⟨nR, rfl⟩ := index_last i2
  obtain ⟨nL, rfl⟩ := index_last i3
  obtain ⟨nLB, rfl⟩ := index_zero i4
  clear hf f1 f2 f3 f4 i1 i2 i3 i4 hgp hbs
  -- the notch
  unfold palmNotch at hn
  obtain ⟨⟨rft, rfg, rbt, rbg, to'⟩, -, g1⟩ := bind_ok hn
  obtain ⟨_, -, g2⟩ := bind_ok g1
  obtain ⟨_, -, g3⟩ := bind_ok g2
  obtain ⟨fRG, -, g4⟩ := bind_ok g3
  obtain ⟨cornerRT, -, g5⟩ := bind_ok g4
  obtain ⟨ratio, -, g6⟩ := bind_ok g5
  obtain ⟨_, j1, g7⟩ := bind_ok g6
  obtain ⟨_, j2, g8⟩ := bind_ok g7
  obtain ⟨_, j3, g9⟩ := bind_ok g8
  obtain ⟨_, j4, g10⟩ := bind_ok g9
  obtain ⟨_, j5, g11⟩ := bind_ok g10
  obtain ⟨_, j6, g12⟩ := bind_ok g11
  obtain ⟨_, j7, g13⟩ := bind_ok g12
  obtain ⟨_, j8, g14⟩ := bind_ok g13
  obtain ⟨_, j9, g15⟩ := bind_ok g14
  obtain ⟨_, j10, g16⟩ := bind_ok g15
  dsimp only at g16
  split_ifs at g16
  obtain rfl := Except.ok.inj g16
  obtain ⟨nRT, rfl⟩ := index_zero j1
  obtain ⟨nRG, rfl⟩ := index_zero j2
  obtain ⟨-, rfl⟩ := index_last j3
  obtain ⟨-, rfl⟩ := index_zero j4
  obtain ⟨-, rfl⟩ := index_zero j5
  obtain ⟨-, rfl⟩ := index_last j6
  obtain ⟨nLG, rfl⟩ := index_last j7
  obtain ⟨nLT, rfl⟩ := index_last j8
  obtain ⟨-, rfl⟩ := index_last j9
  obtain ⟨-, rfl⟩ := index_last j10
  clear hn g1 g2 g3 g4 g5 g6 g7 g8 g9 g10 g11 g12 g13 g14 g15 g16 j1 j2 j3 j4 j5 j6 j7 j8 j9 j10
  dsimp only [notchPieces]
  have hLT0 : ((edgeTranslated fRG (rbt - rbg)).map Vec.mirroredX).headD 0 = ((edgeTranslated fRG (rbt - rbg)).headD 0).mirroredX := headD_map _ nRT
  have hLG0 : (fRG.map Vec.mirroredX).headD 0 = (fRG.headD 0).mirroredX := headD_map _ nRG
  generalize edgeTranslated fRG (rbt - rbg) = fRT at *
  generalize fRT.map Vec.mirroredX = fLT at *
  generalize fRG.map Vec.mirroredX = fLG at *
  have wm : ∀ (a : Vec) (l : List Vec), withMirror (a :: l) ≠ [] ∧ (withMirror (a :: l)).headD 0 = a ∧ (withMirror (a :: l)).getLastD 0 = a.mirroredX := by
    intro a l
    unfold withMirror
    refine ⟨by simp, rfl, ?_⟩
    rw [getLastD_append (by simp), getLastD_reverse, List.map_cons, headD_cons]
  obtain ⟨nT, hT0, hT1⟩ := wm (fRT.headD 0) cornerRT
  generalize edgeTranslated (edgeScaled (edgeTranslated cornerRT (-rft)) (1 + ratio)) rfg = cornerRG at *
  obtain ⟨nG, hG0, hG1⟩ := wm (fRG.headD 0) cornerRG
  generalize withMirror (fRT.headD 0 :: cornerRT) = eT at *
  generalize withMirror (fRG.headD 0 :: cornerRG) = eG at *
  rw [← hLT0] at hT1
  rw [← hLG0] at hG1
  clear wm hLT0 hLG0
  simp only [total_append, total_cons, total_nil, List.map_append, List.map_cons, List.map_nil, rim_face, rim_neat_place hg, rim_neat_turned hg,
    around_map, List.sum_cons, List.sum_nil, add_zero, rim_done, esum_nil, total_moved, rim_moved, List.map_map]
  obtain ⟨sum, ends⟩ := gf
  have ho : (bs.map (around g ∘ fun b => b.floorEdge.map place)) = bs.map fun b => around (fun x y => g (place x) (place y)) b.floorEdge :=
    List.map_congr_left fun b _ => around_map _ _
  have hb : total g (bs.map (Piece.moved place ∘ fun b => done b.triangles)) =
      total (fun x y => g (place x) (place y)) (bs.map fun b => done b.triangles) := by
    rw [← total_moved place, List.map_map]
  have hm : around g (eG.reverse.map place ++ [place (s.filletRB.headD 0)] ++ gp.RG.map place ++
      [place (s.roofR.getLastD 0), place (s.roofL.getLastD 0)] ++ gp.LG.map place ++ [place (s.filletLB.headD 0)]) =
      around (fun x y => g (place x) (place y))
        (eG.reverse ++ [s.filletRB.headD 0] ++ gp.RG ++ [s.roofR.getLastD 0, s.roofL.getLastD 0] ++ gp.LG ++ [s.filletLB.headD 0]) := by
    rw [← around_map place]
    simp only [List.map_append, List.map_cons, List.map_nil]
  rw [ho, hb, hm]
  have alg := palm_sum hG nRB nR nL nLB nRG nRT nLT nLG nT nG hT0 hT1 hG0 hG1 ends
  linarith

theorem boss_thread {q : Quality} {w o : ℝ} {cfg : BossCfg} {s : Option SupportCfg} {pos d : Vec} {wd : Option Vec}
    {b : Boss} (h : Boss.make q w o cfg s pos d wd none = .ok b) (hq : SaneQuality q) (hc : SaneThread cfg s) :
    Closes b.threadTriangles (cycPairs b.threadHole) := by
  unfold Boss.make at h
  obtain ⟨_, -, h1⟩ := bind_ok h
  obtain ⟨⟨c1, c2, c3⟩, -, h2⟩ := bind_ok h1
  obtain ⟨⟨t1, t2⟩, h3, h4⟩ := bind_ok h2
  obtain rfl := Except.ok.inj h4
  exact (C78_thread _ _ _ _ _ _ _ _ hq hc (by simp) h3).1

/-- **C87** The surface of each palm rest that is made for a plan has no gap, if the threads and the bumpers have sensible
dimensions. -/
theorem C87_palm {cfg : KeyboardCfg} {side : Side} {fp : FullPlan} {pc : PalmCfg} {hi : Hitch} {palm : Palm}
    (h : FullPlan.make cfg side = .ok fp) (hc : cfg.palm = some pc) (hh : fp.hitch = some hi)
    (hp : Palm.make cfg pc fp.plan.points hi = .ok palm) (hs : SanePalm cfg) : Fit (palm.faces ++ palm.pieces) [] := by
  obtain ⟨-, -, h2⟩ := fullPlan_ok h
  rw [hc] at h2
  unfold Hitch.make at h2
  obtain ⟨⟨olb, orb, olf, orf, pl, pr, o⟩, -, h3⟩ := bind_ok h2
  obtain ⟨bl, l1, h4⟩ := bind_ok h3
  obtain ⟨br, l2, h5⟩ := bind_ok h4
  have h6 := Except.ok.inj h5
  rw [hh] at h6
  obtain rfl := Option.some.inj h6
  exact C87_fit hp hs.quality hs.bumper (boss_thread l1 hs.quality hs.thread) (boss_thread l2 hs.quality hs.thread)

/-- **C87** The mesh of such a palm rest is watertight, if none of its pieces has a flaw. -/
theorem C87_watertight {cfg : KeyboardCfg} {side : Side} {fp : FullPlan} {pc : PalmCfg} {hi : Hitch} {palm : Palm}
    (h : FullPlan.make cfg side = .ok fp) (hc : cfg.palm = some pc) (hh : fp.hitch = some hi)
    (hp : Palm.make cfg pc fp.plan.points hi = .ok palm) (hs : SanePalm cfg) {tss : List (List (Tri Vec))}
    (hm : SoundMesh (palm.faces ++ palm.pieces) tss) : Watertight tss.flatten :=
  watertight_of_fit (C87_palm h hc hh hp hs) hm

end Chrumm.Part
