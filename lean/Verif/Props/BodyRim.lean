import Verif.Part.Body
import Verif.Props.PartEdges
import Verif.Props.BracketFit
import Verif.Props.KeyMesh
import Verif.Props.BossRoof

/-! C83: the boundaries of the stages of the body. -/

namespace Chrumm.Part
open Geo Geo.Spec Spec Classical

section paths
variable {g : Vec → Vec → ℤ}

/-- A path through a point is a path to the point, and a path from there. -/
theorem along_mid (l : List Vec) (x : Vec) (m : List Vec) : along g (l ++ x :: m) = along g (l ++ [x]) + along g (x :: m) := by
  by_cases hl : l = []
  · subst hl; rw [List.nil_append, List.nil_append, along_one, zero_add]
  · rw [along_append hl (List.cons_ne_nil _ _), along_append hl (List.cons_ne_nil _ _), along_one, headD_cons, headD_cons, add_zero]

theorem along_mid' (a : Vec) (l : List Vec) (x : Vec) (m : List Vec) :
    along g (a :: (l ++ x :: m)) = along g (a :: (l ++ [x])) + along g (x :: m) := along_mid (a :: l) x m

/-- A closed path leads back to its start. -/
theorem around_cons (x : Vec) (l : List Vec) : around g (x :: l) = along g (x :: (l ++ [x])) := by
  rw [around_eq (x :: l) (List.cons_ne_nil _ _), ← List.cons_append, along_append (List.cons_ne_nil _ _) (List.cons_ne_nil _ _), along_one,
    headD_cons, headD_cons, add_zero]

/-- A closed path can start anywhere. -/
theorem around_rotate (l m : List Vec) : around g (l ++ m) = around g (m ++ l) := by
  by_cases hl : l = []
  · subst hl; simp
  by_cases hm : m = []
  · subst hm; simp
  rw [around_eq (l ++ m) (by simp [hl]), around_eq (m ++ l) (by simp [hl]), along_append hl hm, along_append hm hl, headD_append hl,
    headD_append hm, getLastD_append hl, getLastD_append hm]
  ring

theorem around_last (l : List Vec) (x : Vec) : around g (l ++ [x]) = along g (x :: (l ++ [x])) := by
  rw [around_rotate]
  exact around_cons x l

end paths

/-- The remaining boundary of the key plates and the step. -/
theorem plate_total {p : Points} {k : BodyKeys} {s : BodyStep} {o : OuterRim} {i : InnerRim} {g : Vec → Vec → ℤ} (hg : Anti g)
    (hk : ∀ key ∈ k.alnum ++ k.pinky ++ k.thumb, Closes key.triangles (cycPairs key.roofHoleO ++ cycPairs key.roofHoleI))
    (hI : i.ILFT ≠ []) (hO : o.OLFT ≠ []) :
    total g (plateFaces p k s o i) + total g (stepPieces p s) + total g (platePieces p k i) =
      along g i.top + along g o.top + g (i.ILFT.getLastD 0) p.ridgeIRF + g s.alnumILF i.alnumILBT + g p.ridgeIRF s.alnumILF +
        g o.alnumOLBT s.alnumOLF + g p.ridgeORF (o.OLFT.headD 0) + g s.alnumOLF p.ridgeORF := by
  have keys : ∀ ks : List Key, (∀ key ∈ ks, Closes key.triangles (cycPairs key.roofHoleO ++ cycPairs key.roofHoleI)) →
      ((ks.map Key.roofHoleI).map (around g)).sum + ((ks.map Key.roofHoleO).map (around g)).sum +
        total g (ks.map fun key => done key.triangles) = 0 := by
    intro ks
    induction ks with
    | nil => intro _; rfl
    | cons key ks ih =>
      intro h
      have h1 := ih fun k hk => h k (List.mem_cons_of_mem _ hk)
      have h2 := h key List.mem_cons_self
      unfold Closes at h2
      rw [sameChain_iff] at h2
      have h3 := h2 g hg
      rw [esum_append, esum_append] at h3
      change _ + (around g _ + around g _) = 0 at h3
      simp only [List.map_cons, List.sum_cons, total_cons, rim_done]
      linarith
  have k1 := keys k.alnum fun key h => hk key (by simp [h])
  have k2 := keys k.pinky fun key h => hk key (by simp [h])
  have k3 := keys k.thumb fun key h => hk key (by simp [h])
  have hQ : i.LFT ++ i.ILFT ≠ [] := by simp [hI]
  have tri : esum g (meshEdges [(⟨p.alnumIRF, i.alnumIRBT, i.thumbIRFT⟩ : Tri Vec)]) = g p.alnumIRF i.alnumIRBT +
      g i.alnumIRBT i.thumbIRFT + g i.thumbIRFT p.alnumIRF := by
    simp [meshEdges, sides, esum]
    try ring
  -- the edges of the plates
  have a1 : around g (i.LBT ++ [i.alnumIRBT, p.alnumIRF, s.alnumILF, i.alnumILBT]) =
      along g (i.alnumILBT :: (i.LBT ++ [i.alnumIRBT])) + g i.alnumIRBT p.alnumIRF + g p.alnumIRF s.alnumILF +
        g s.alnumILF i.alnumILBT := by
    have e : i.LBT ++ [i.alnumIRBT, p.alnumIRF, s.alnumILF, i.alnumILBT] =
      (i.LBT ++ [i.alnumIRBT, p.alnumIRF, s.alnumILF]) ++ [i.alnumILBT] := by simp
    rw [e, around_last, ← e, ← List.cons_append, along_mid, List.cons_append]
    simp only [along_cc, along_one]
    ring
  have a2 : around g ([i.alnumIRBT] ++ i.RBT ++ i.IRBT ++ i.IRFT ++ i.RFT ++ [i.thumbIRFT]) =
      along g ([i.alnumIRBT] ++ i.RBT ++ i.IRBT ++ i.IRFT ++ i.RFT ++ [i.thumbIRFT]) + g i.thumbIRFT i.alnumIRBT := by
    rw [around_eq _ (by simp), getLastD_append (by simp), getLastD_one]
    rfl
  have a3 : around g ([i.thumbIRFT] ++ i.LFT ++ i.ILFT ++ [p.ridgeIRF] ++ s.IG ++ [p.alnumIRF]) =
      along g (i.thumbIRFT :: (i.LFT ++ i.ILFT)) + g (i.ILFT.getLastD 0) p.ridgeIRF +
        along g ([p.ridgeIRF] ++ s.IG ++ [p.alnumIRF]) + g p.alnumIRF i.thumbIRFT := by
    have e : [i.thumbIRFT] ++ i.LFT ++ i.ILFT ++ [p.ridgeIRF] ++ s.IG ++ [p.alnumIRF] =
      (i.thumbIRFT :: (i.LFT ++ i.ILFT)) ++ ([p.ridgeIRF] ++ s.IG ++ [p.alnumIRF]) := by simp
    rw [e, around_eq _ (by simp), along_append (List.cons_ne_nil _ _) (by simp), getLastD_append (by simp), getLastD_append (by simp),
      getLastD_cons _ hQ, getLastD_append hI]
    rfl
  have a4 : around g [s.alnumOLF, p.alnumORF, o.alnumORBT, o.alnumOLBT] =
      g s.alnumOLF p.alnumORF + g p.alnumORF o.alnumORBT + g o.alnumORBT o.alnumOLBT + g o.alnumOLBT s.alnumOLF := by
    rw [around_cons]
    simp only [List.cons_append, List.nil_append, along_cc, along_one]
    ring
  have a5 : around g (o.ORFT ++ o.ORBT ++ [o.alnumORBT, p.alnumORF, o.thumbORFT]) =
      along g (o.thumbORFT :: (o.ORFT ++ o.ORBT ++ [o.alnumORBT])) + g o.alnumORBT p.alnumORF + g p.alnumORF o.thumbORFT := by
    have e : o.ORFT ++ o.ORBT ++ [o.alnumORBT, p.alnumORF, o.thumbORFT] =
      (o.ORFT ++ o.ORBT ++ [o.alnumORBT, p.alnumORF]) ++ [o.thumbORFT] := by simp
    rw [e, around_last, ← e, ← List.cons_append, along_mid, List.cons_append]
    simp only [along_cc, along_one]
    ring
  have a6 : around g (o.OLFT ++ [o.thumbORFT, p.alnumORF] ++ s.OG ++ [p.ridgeORF]) =
      along g (o.OLFT ++ [o.thumbORFT]) + g o.thumbORFT p.alnumORF + along g ([p.alnumORF] ++ s.OG ++ [p.ridgeORF]) +
        g p.ridgeORF (o.OLFT.headD 0) := by
    have e : o.OLFT ++ [o.thumbORFT, p.alnumORF] ++ s.OG ++ [p.ridgeORF] =
      (o.OLFT ++ [o.thumbORFT]) ++ ([p.alnumORF] ++ s.OG ++ [p.ridgeORF]) := by simp
    rw [e, around_eq _ (by simp), along_append (by simp) (by simp), getLastD_append (by simp), getLastD_append (by simp),
      getLastD_append (by simp), headD_append (l := o.OLFT ++ [o.thumbORFT]) (by simp), headD_append hO]
    rfl
  have t1 : along g i.top = along g (i.alnumILBT :: (i.LBT ++ [i.alnumIRBT])) +
      along g ([i.alnumIRBT] ++ i.RBT ++ i.IRBT ++ i.IRFT ++ i.RFT ++ [i.thumbIRFT]) +
      along g (i.thumbIRFT :: (i.LFT ++ i.ILFT)) := by
    unfold InnerRim.top
    have e : [i.alnumILBT] ++ i.LBT ++ [i.alnumIRBT] ++ i.RBT ++ i.IRBT ++ i.IRFT ++ i.RFT ++ [i.thumbIRFT] ++ i.LFT ++ i.ILFT =
      (i.alnumILBT :: i.LBT) ++ i.alnumIRBT :: ((i.RBT ++ i.IRBT ++ i.IRFT ++ i.RFT) ++ i.thumbIRFT :: (i.LFT ++ i.ILFT)) := by simp
    rw [e, along_mid, along_mid']
    simp only [List.cons_append, List.nil_append, List.append_assoc]
    ring
  have t2 : along g o.top = along g (o.OLFT ++ [o.thumbORFT]) + along g (o.thumbORFT :: (o.ORFT ++ o.ORBT ++ [o.alnumORBT])) +
      g o.alnumORBT o.alnumOLBT := by
    unfold OuterRim.top
    have e : o.OLFT ++ [o.thumbORFT] ++ o.ORFT ++ o.ORBT ++ [o.alnumORBT, o.alnumOLBT] =
      o.OLFT ++ o.thumbORFT :: (o.ORFT ++ o.ORBT ++ [o.alnumORBT, o.alnumOLBT]) := by simp
    rw [e, along_mid, along_mid']
    simp only [List.cons_append, along_cc, along_one]
    ring
  unfold plateFaces stepPieces platePieces
  dsimp only
  simp only [total_cons, total_nil, rim_face, rim_strip hg, rim_done, tri, List.map_append, total_append, a1, a2, a3, a4, a5, a6,
    along_one, getLastD_one, headD_cons]
  have l1 : ∀ (a b : Vec) (l : List Vec), ([a] ++ l ++ [b]).getLastD 0 = b := fun a b l => by
    rw [getLastD_append (by simp), getLastD_one]
  have l2 : ∀ (a b : Vec) (l : List Vec), ([a] ++ l ++ [b]).headD 0 = a := fun a b l => rfl
  simp only [l1, l2, hg.self]
  have s1 := hg.swap s.alnumILF p.alnumIRF
  have s2 := hg.swap s.alnumILF p.ridgeIRF
  have s3 := hg.swap i.alnumIRBT p.alnumIRF
  have s4 := hg.swap i.thumbIRFT p.alnumIRF
  have s5 := hg.swap i.thumbIRFT i.alnumIRBT
  have s6 := hg.swap s.alnumOLF p.alnumORF
  have s7 := hg.swap o.alnumORBT p.alnumORF
  have s8 := hg.swap o.thumbORFT p.alnumORF
  linarith

/-- The points of the rims are above those of the outline. -/
structure RimOk (p : Points) (c : BodyCorners) (o : OuterRim) (i : InnerRim) : Prop where
  OLFC : o.OLFC.map Vec.xy = c.OLFG.map Vec.xy
  ORFC : o.ORFC.map Vec.xy = c.ORFG.map Vec.xy
  ORBC : o.ORBC.map Vec.xy = c.ORBG.map Vec.xy
  thumbORFC : o.thumbORFC.xy = p.thumbORF.xy
  alnumORBC : o.alnumORBC.xy = p.alnumORB.xy
  alnumOLBC : o.alnumOLBC.xy = p.alnumOLB.xy
  IRBC : i.IRBC.map Vec.xy = c.IRBG.map Vec.xy
  IRFC : i.IRFC.map Vec.xy = c.IRFG.map Vec.xy
  ILFC : i.ILFC.map Vec.xy = c.ILFG.map Vec.xy
  alnumILBC : i.alnumILBC.xy = p.alnumILB.xy
  alnumIRBC : i.alnumIRBC.xy = p.alnumIRB.xy
  thumbIRFC : i.thumbIRFC.xy = p.thumbIRF.xy
  neO : o.OLFC ≠ []
  neOT : o.OLFT ≠ []
  neI : i.ILFC ≠ []
  neIT : i.ILFT ≠ []

/-- The remaining boundary of the walls, the chamfers, and the bottom. -/
theorem wall_total {p : Points} {c : BodyCorners} {o : OuterRim} {i : InnerRim} {j : Joint} {b : Bosses} {g : Vec → Vec → ℤ}
    (hg : Anti g) (h : RimOk p c o i)
    (hb : ∀ boss ∈ [b.alnumB, b.pinkyB, b.pinkyF, b.thumbF], Closes boss.threadTriangles (cycPairs boss.threadHole)) :
    total g (wallPieces o i j) + total g (floorFaces p c i b) + total g (floorPieces b) =
      -along g o.top - along g i.top +
      g o.alnumOLBC o.alnumOLBT - g (o.OLFC.headD 0) (o.OLFT.headD 0) + g o.alnumOLBC.xy o.alnumOLBC -
        g (o.OLFC.headD 0).xy (o.OLFC.headD 0) +
      g j.chamferC i.alnumILBC + g (i.ILFC.getLastD 0) (i.ILFT.getLastD 0) - g j.chamferT i.alnumILBT - g j.chamferC j.chamferT +
        g (i.ILFC.getLastD 0).xy (i.ILFC.getLastD 0) - g i.alnumILBC.xy i.alnumILBC -
      (g p.alnumOLB.xy p.alnumOLB.xy.yz + g p.alnumOLB.xy.yz p.alnumILB.xy.yz + g p.alnumILB.xy.yz p.alnumILB.xy +
        g (i.ILFC.getLastD 0).xy p.thumbILF.yz.xy + g p.thumbILF.yz.xy p.thumbOLF.yz.xy +
        g p.thumbOLF.yz.xy (o.OLFC.headD 0).xy) := by
  have ow : o.wall ≠ [] := by simp [OuterRim.wall]
  have iw : i.wall ≠ [] := by simp [InnerRim.wall]
  have ol : o.wall.getLastD 0 = o.alnumOLBC := by unfold OuterRim.wall; rw [getLastD_append (by simp)]; rfl
  have otl : o.top.getLastD 0 = o.alnumOLBT := by unfold OuterRim.top; rw [getLastD_append (by simp)]; rfl
  have oh : o.wall.headD 0 = o.OLFC.headD 0 := by
    unfold OuterRim.wall
    simp only [List.append_assoc]
    rw [headD_append h.neO]
  have oth : o.top.headD 0 = o.OLFT.headD 0 := by
    unfold OuterRim.top
    simp only [List.append_assoc]
    rw [headD_append h.neOT]
  have il : i.wall.getLastD 0 = i.ILFC.getLastD 0 := by unfold InnerRim.wall; rw [getLastD_append h.neI]
  have itl : i.top.getLastD 0 = i.ILFT.getLastD 0 := by unfold InnerRim.top; rw [getLastD_append h.neIT]
  have ih : i.wall.headD 0 = i.alnumILBC := rfl
  have ith : i.top.headD 0 = i.alnumILBT := rfl
  have itop : i.top ≠ [] := by simp [InnerRim.top]
  -- the bottom
  have f0 : along g (o.wall.map Vec.xy) + along g (i.wall.map Vec.xy) +
      (g p.alnumOLB.xy p.alnumOLB.xy.yz + g p.alnumOLB.xy.yz p.alnumILB.xy.yz + g p.alnumILB.xy.yz p.alnumILB.xy +
        g (i.ILFC.getLastD 0).xy p.thumbILF.yz.xy + g p.thumbILF.yz.xy p.thumbOLF.yz.xy +
        g p.thumbOLF.yz.xy (o.OLFC.headD 0).xy) = around g ((floorEdge p c i).map Vec.xy) := by
    have eo : o.wall.map Vec.xy =
        ((c.OLFG ++ [p.thumbORF] ++ c.ORFG ++ c.ORBG ++ [p.alnumORB]).map Vec.xy) ++ [p.alnumOLB.xy] := by
      unfold OuterRim.wall
      simp only [List.map_append, List.map_cons, List.map_nil, h.OLFC, h.ORFC, h.ORBC, h.thumbORFC, h.alnumORBC, h.alnumOLBC,
        List.append_assoc, List.cons_append, List.nil_append]
    have ei : i.wall.map Vec.xy = p.alnumILB.xy ::
        ((i.LBC ++ [p.alnumIRB] ++ i.RBC ++ c.IRBG ++ c.IRFG ++ i.RFC ++ [p.thumbIRF] ++ i.LFC ++ c.ILFG).map Vec.xy) := by
      unfold InnerRim.wall
      simp only [List.map_append, List.map_cons, List.map_nil, h.IRBC, h.IRFC, h.ILFC, h.alnumIRBC, h.alnumILBC, h.thumbIRFC,
        List.append_assoc, List.cons_append, List.nil_append]
    have ef : (floorEdge p c i).map Vec.xy = p.alnumOLB.xy :: ([p.alnumOLB.xy.yz, p.alnumILB.xy.yz] ++ i.wall.map Vec.xy ++
        [p.thumbILF.yz.xy, p.thumbOLF.yz.xy] ++ (c.OLFG ++ [p.thumbORF] ++ c.ORFG ++ c.ORBG ++ [p.alnumORB]).map Vec.xy) := by
      rw [ei]
      unfold floorEdge
      simp only [List.map_append, List.map_cons, List.map_nil, List.append_assoc, List.cons_append, List.nil_append]
      rfl
    have e2 : ([p.alnumOLB.xy.yz, p.alnumILB.xy.yz] ++ i.wall.map Vec.xy ++
        [p.thumbILF.yz.xy, p.thumbOLF.yz.xy] ++ (c.OLFG ++ [p.thumbORF] ++ c.ORFG ++ c.ORBG ++ [p.alnumORB]).map Vec.xy) ++
        [p.alnumOLB.xy] = p.alnumOLB.xy.yz :: p.alnumILB.xy.yz :: (i.wall.map Vec.xy ++ ([p.thumbILF.yz.xy, p.thumbOLF.yz.xy] ++
          o.wall.map Vec.xy)) := by
      rw [eo]
      simp only [List.append_assoc, List.cons_append, List.nil_append]
    have nw : i.wall.map Vec.xy ≠ [] := by simpa using iw
    have nO : o.wall.map Vec.xy ≠ [] := by simpa using ow
    rw [ef, around_cons, e2, along_cc, along_cc, along_cons _ (by simp [iw]), along_append nw (by simp), along_append (by simp) nO,
      headD_append nw, headD_map _ iw, headD_map _ ow, getLastD_map _ iw, oh, il, ih, along_cc, along_one]
    have e3 : i.alnumILBC.xy = p.alnumILB.xy := h.alnumILBC
    rw [e3]
    simp only [List.cons_append, headD_cons, List.nil_append]
    have e4 : [p.thumbILF.yz.xy, p.thumbOLF.yz.xy].getLastD 0 = p.thumbOLF.yz.xy := rfl
    rw [e4]
    ring
  have threads : ∀ boss ∈ [b.alnumB, b.pinkyB, b.pinkyF, b.thumbF],
      esum g (meshEdges boss.threadTriangles) + around g boss.threadHole = 0 := by
    intro boss hm
    have h2 := hb boss hm
    unfold Closes at h2
    rw [sameChain_iff] at h2
    have h3 := h2 g hg
    rw [esum_append] at h3
    exact h3
  have b1 := threads b.alnumB (by simp)
  have b2 := threads b.pinkyB (by simp)
  have b3 := threads b.pinkyF (by simp)
  have b4 := threads b.thumbF (by simp)
  unfold wallPieces floorFaces floorPieces
  simp only [total_cons, total_nil, rim_turned hg, rim_strip hg, rim_done, List.map_cons, List.map_nil, List.sum_cons, List.sum_nil]
  rw [← f0]
  rw [List.singleton_append, List.singleton_append, along_cons _ iw, along_cons _ itop, getLastD_cons _ iw, getLastD_cons _ itop,
    getLastD_map _ ow, getLastD_map _ iw, headD_map _ ow, headD_map _ iw, headD_cons, headD_cons, ol, otl, oh, oth, il, itl, ih, ith]
  linarith

theorem map_yz {l : List Vec} (h : ∀ p ∈ l, p.x = 0) : l.map Vec.yz = l := by
  conv_rhs => rw [← List.map_id l]
  apply List.map_congr_left
  intro p hp
  ext
  · exact (h p hp).symm
  · rfl
  · rfl

/-- The remaining boundary of the roof around the encoder. -/
structure EncoderOk (p : Points) (s : BodyStep) (e : EncoderHole) : Prop where
  neF : e.splitF ≠ []
  neB : e.splitB ≠ []
  total : ∀ g : Vec → Vec → ℤ, Anti g → total g [face e.edgeI, face e.edgeO] + total g e.pieces =
    g s.alnumILF.yz s.alnumILF + g s.alnumILF p.ridgeIRF + g p.ridgeIRF p.ridgeIRF.yz +
    g p.ridgeORF.yz p.ridgeORF + g p.ridgeORF s.alnumOLF + g s.alnumOLF s.alnumOLF.yz +
    g p.ridgeIRF.yz ((e.splitF.map Vec.yz).getLastD 0) + g ((e.splitB.map Vec.yz).headD 0) s.alnumILF.yz +
    g s.alnumOLF.yz ((e.splitB.map Vec.yz).getLastD 0) + g ((e.splitF.map Vec.yz).headD 0) p.ridgeORF.yz -
    along g (e.splitF.map Vec.yz) - along g (e.splitB.map Vec.yz)

theorem encoder_ok {cfg : KeyboardCfg} {p : Points} {s : BodyStep} {oe : Option EncoderCfg} {e : EncoderHole}
    (hq : 0 < cfg.quality.maxChordAngle) (hs : ∀ ec ∈ oe, SaneEncoder ec) (hy : ∀ ec ∈ oe, 0 < (s.alnumOLF.y - p.ridgeORF.y) * p.ridgeORF.x)
    (h : encoderHole cfg p s oe = .ok e) : EncoderOk p s e := by
  cases oe with
  | none =>
    obtain rfl := Except.ok.inj h
    refine ⟨by simp, by simp, fun g hg => ?_⟩
    simp only [total_cons, total_nil, rim_face, List.map_nil, List.sum_nil, around_cons, List.cons_append, List.nil_append, along_cc,
      along_one, List.map_cons, headD_cons, hg.self]
    have e1 : [p.ridgeORF.yz, p.ridgeIRF.yz].getLastD 0 = p.ridgeIRF.yz := rfl
    have e2 : [p.ridgeIRF.yz, p.ridgeORF.yz].getLastD 0 = p.ridgeORF.yz := rfl
    rw [e1, e2, hg.self]
    have := hg.swap p.ridgeORF.yz p.ridgeIRF.yz
    linarith
  | some ec =>
    unfold encoderHole at h
    dsimp only at h
    obtain ⟨planeI, i1, h⟩ := bind_ok h
    obtain ⟨planeO, i2, h⟩ := bind_ok h
    obtain ⟨plane, i3, h⟩ := bind_ok h
    obtain ⟨k, i4, h⟩ := bind_ok h
    split_ifs at h
    obtain rfl := Except.ok.inj h
    have up : plane.pos.x = 0 ∧ plane.normal.x = 0 ∧ Upwards plane.normal := by
      unfold Plane.fromPoints Plane.make at i2
      unfold Plane.make at i3
      obtain ⟨n, j1, i2⟩ := bind_ok i2
      obtain rfl := Except.ok.inj i2
      obtain ⟨n', j2, i3⟩ := bind_ok i3
      obtain rfl := Except.ok.inj i3
      dsimp only at j2 ⊢
      obtain ⟨u1, k₁, l1, v1⟩ := normalized_unit j1
      obtain ⟨u2, k₂, l2, v2⟩ := normalized_unit j2
      have x1 := congrArg Vec.x v1
      have z1 := congrArg Vec.z v1
      have x2 := congrArg Vec.x v2
      have z2 := congrArg Vec.z v2
      simp only [Vec.cross, Vec.sub_x, Vec.sub_y, Vec.sub_z, Vec.yz, Vec.mul_x, Vec.mul_z] at x1 z1 x2 z2
      have h0 := hy ec rfl
      have nx : n.x = 0 := by
        have : n.x * k₁ = 0 := by rw [← x1]; ring
        exact (mul_eq_zero.mp this).resolve_right l1.ne'
      have nz : 0 < n.z := by
        have : 0 < n.z * k₁ := by rw [← z1]; linarith
        exact pos_of_mul_pos_left this l1.le
      refine ⟨by simp [Vec.yz], ?_, u2, ?_⟩
      · rw [nx] at x2
        exact (mul_eq_zero.mp x2.symm).resolve_right l2.ne'
      · rw [z2] at nz
        exact pos_of_mul_pos_left nz l2.le
    obtain ⟨n1, n2, n3, n4, m1, m2, m3, m4, m5⟩ := C80_edges hq (hs ec rfl) up.2.2 i4
    obtain ⟨m5, m6⟩ := m5 up.1 up.2.1
    have fit := fit_total.mp (C80_fit (hs ec rfl) up.2.2 i4)
    refine ⟨n1, n2, fun g hg => ?_⟩
    have := fit g hg
    rw [esum_append, esum_append, esum_append] at this
    change _ + (along g _ + along g _ + along g _ + along g _) = 0 at this
    rw [map_yz m5, map_yz m6, total_cons, total_cons, total_nil, rim_face, rim_face]
    have a1 : ∀ (a b c d : Vec) (l : List Vec), l ≠ [] → around g ([a, b, c, d] ++ l) =
        g a b + g b c + g c d + g d (l.headD 0) + along g l + g (l.getLastD 0) a := by
      intro a b c d l hl
      rw [around_eq _ (by simp), getLastD_append hl, along_append (by simp) hl]
      simp only [along_cc, along_one, List.cons_append, headD_cons]
      have : [a, b, c, d].getLastD 0 = d := rfl
      rw [this]
      ring
    dsimp only
    rw [a1 _ _ _ _ _ n3, a1 _ _ _ _ _ n4, ← m1, m2, ← m3, m4]
    simp only [List.map_nil, List.sum_nil]
    linarith

end Chrumm.Part
