import Verif.Props.BodyRim
import Verif.Props.AntiTac

/-! C83: the ridge of the body, with its brackets. -/

namespace Chrumm.Part
open Geo Geo.Spec Spec Classical

/-- What is known about the ridge. -/
structure RidgeOk (p : Points) (s : BodyStep) (o : OuterRim) (i : InnerRim) (e : EncoderHole) (olfg olfc olft : Vec) (r : Ridge) : Prop where
  IT : r.IT = [i.alnumILBT, s.alnumILF, s.alnumILF.yz]
  IB : r.IB = [p.alnumILB.xy.yz, p.alnumILB.xy, i.alnumILBC]
  OB : r.OB = [o.alnumOLBC.yz, o.alnumOLBC, p.alnumOLB.xy, p.alnumOLB.xy.yz]
  ORF : r.ORF = [olfg, olfc, olft, p.ridgeORF]
  ORB : r.ORB = [o.alnumOLBC, o.alnumOLBT, s.alnumOLF]
  IRF : r.IRF = [r.ilfg.yz, r.ilfg, r.ilfc, r.ilft, p.ridgeIRF, p.ridgeIRF.yz]
  splitF : r.splitF = [r.ilfg] ++ r.ORF ++ e.splitF ++ [p.ridgeIRF]
  splitB : r.splitB = [s.alnumILF] ++ e.splitB ++ [s.alnumOLF, o.alnumOLBT, o.alnumOLBC]

/-- The boundary that the plates, the walls, the chamfers and the bottom leave at the ridge. -/
def ridgeRest (g : Vec → Vec → ℤ) (p : Points) (s : BodyStep) (o : OuterRim) (i : InnerRim) (r : Ridge) (olfg olfc olft : Vec) : ℤ :=
  g r.ilft p.ridgeIRF + g s.alnumILF i.alnumILBT + g p.ridgeIRF s.alnumILF + g o.alnumOLBT s.alnumOLF + g p.ridgeORF olft +
  g s.alnumOLF p.ridgeORF + g o.alnumOLBC o.alnumOLBT - g olfc olft + g p.alnumOLB.xy o.alnumOLBC - g olfg olfc +
  g r.ilfc r.ilft + g r.ilfg r.ilfc - g p.alnumILB.xy i.alnumILBC - (g p.alnumOLB.xy p.alnumOLB.xy.yz +
  g p.alnumOLB.xy.yz p.alnumILB.xy.yz + g p.alnumILB.xy.yz p.alnumILB.xy + g r.ilfg r.ilfg.yz + g r.ilfg.yz olfg.yz + g olfg.yz olfg)

theorem along_one_append {g : Vec → Vec → ℤ} (x : Vec) {l : List Vec} (h : l ≠ []) :
    along g ([x] ++ l) = g x (l.headD 0) + along g l := along_cons x h

theorem getLastD_cc (a b : Vec) (l : List Vec) : (a :: b :: l).getLastD 0 = (b :: l).getLastD 0 := getLastD_cons a (by simp)

theorem joint_plain {cfg : KeyboardCfg} {fp : FullPlan} {s : BodyStep} {o : OuterRim} {i : InnerRim} {r : Ridge} {e : EncoderHole} {j : Joint}
    {olfg olfc olft : Vec} (he : EncoderOk fp.plan.points s e) (hr : RidgeOk fp.plan.points s o i e olfg olfc olft r)
    (h : makeJoint cfg fp s i r none = .ok j) {g : Vec → Vec → ℤ} (hg : Anti g) :
    total g [face e.edgeI, face e.edgeO] + total g e.pieces + total g j.faces + total g (jointFaces j) + total g j.pieces +
      total g (jointPieces r j) + (g j.chamferC i.alnumILBC - g j.chamferT i.alnumILBT - g j.chamferC j.chamferT) +
      ridgeRest g fp.plan.points s o i r olfg olfc olft = 0 := by
  obtain rfl := Except.ok.inj h
  obtain ⟨n1, n2, he⟩ := he
  rw [he g hg]
  obtain ⟨h1, h2, h3, h4, h5, h6, h7, h8⟩ := hr
  generalize fp.plan.points = p at *
  unfold jointFaces jointPieces ridgeRest
  dsimp only
  rw [h7, h8, h1, h2, h3, h4, h5, h6]
  have n1' : e.splitF.map Vec.yz ≠ [] := by simpa using n1
  have n2' : e.splitB.map Vec.yz ≠ [] := by simpa using n2
  simp only [List.map_append, List.map_cons, List.map_nil, List.cons_append, List.nil_append, List.append_assoc]
  generalize e.splitF.map Vec.yz = SF at *
  generalize e.splitB.map Vec.yz = SB at *
  simp only [total_cons, total_nil, rim_face, rim_neat hg, rim_strip hg, List.map_nil, List.sum_nil]
  have aF : ∀ (a b c d e f h k : Vec), around g (a :: b :: c :: d :: e :: (SF ++ [f, h, k])) =
      g a b + g b c + g c d + g d e + g e (SF.headD 0) + along g SF + g (SF.getLastD 0) f + g f h + g h k + g k a := by
    intro a b c d e f h k
    rw [around_cons, List.cons_append, List.cons_append, List.cons_append, List.cons_append, along_cc, along_cc, along_cc, along_cc,
      along_cons _ (by simp), List.append_assoc, along_append n1' (by simp), headD_append n1']
    simp only [List.cons_append, List.nil_append, along_cc, along_one, headD_cons]
    ring
  have aB : ∀ (a b c d e f h k : Vec), around g (a :: (SB ++ [b, c, d, e, f, h, k])) =
      g a (SB.headD 0) + along g SB + g (SB.getLastD 0) b + g b c + g c d + g d e + g e f + g f h + g h k + g k a := by
    intro a b c d e f h k
    rw [around_cons, along_cons _ (by simp), List.append_assoc, along_append n2' (by simp), headD_append n2']
    simp only [List.cons_append, List.nil_append, along_cc, along_one, headD_cons]
    ring
  rw [aF, aB]
  have yy : ∀ v : Vec, v.yz.yz = v.yz := fun _ => rfl
  simp only [around_cons, List.cons_append, List.nil_append, along_cc, along_one, headD_cons, getLastD_cc, getLastD_one, yy, hg.self]
  anti hg

/-- What a cable hole, or its absence, leaves at the ridge. -/
theorem cable_total {cfg : KeyboardCfg} {p : Points} {s : BodyStep} {o : OuterRim} {i : InnerRim} {r : Ridge} {e : EncoderHole}
    {olfg olfc olft : Vec} {bc : BracketCfg} {wall : List Vec} {lip : ℝ} {oc : Option CableCfg} {splitB OB IB : List Vec}
    {faces pieces : List Piece} (hq : 0 < cfg.quality.maxChordAngle) (he : EncoderOk p s e)
    (hr : RidgeOk p s o i e olfg olfc olft r) (hw : (wall.headD 0).x = 0)
    (hc : ∀ cc ∈ oc, ∀ c, Cable.make cfg.quality cfg.taper cc (bc.holeLength + bc.counterboreLength) (wall.headD 0)
      (p.alnumOLB.xy.y - p.alnumILB.xy.y) = .ok c → Apart c.splitEdgeRaw ∧ c.splitEdgeRaw.getLastD 0 ≠ c.splitEdgeRaw.headD 0)
    (h : cableHole cfg p r bc wall lip oc = .ok (splitB, OB, IB, faces, pieces)) {g : Vec → Vec → ℤ} (hg : Anti g)
    {W S : List Vec} (nW : W ≠ []) (nS : S ≠ []) (hS : ∀ v ∈ S, v.x = 0) (hWS : W.getLastD 0 = S.headD 0) :
    around g ((splitB ++ S).map Vec.yz) + around g OB + around g (IB ++ W) + total g faces + total g pieces =
      along g S + along g W + g (S.getLastD 0) s.alnumILF.yz + g s.alnumILF.yz ((e.splitB.map Vec.yz).headD 0) +
      along g (e.splitB.map Vec.yz) + g ((e.splitB.map Vec.yz).getLastD 0) s.alnumOLF.yz + g s.alnumOLF.yz o.alnumOLBT.yz +
      g o.alnumOLBT.yz o.alnumOLBC.yz + g p.alnumOLB.xy.yz p.alnumILB.xy.yz + g o.alnumOLBC.yz o.alnumOLBC +
      g o.alnumOLBC p.alnumOLB.xy + g p.alnumOLB.xy p.alnumOLB.xy.yz + g p.alnumILB.xy.yz p.alnumILB.xy +
      g p.alnumILB.xy i.alnumILBC + g i.alnumILBC (W.headD 0) := by
  obtain ⟨n1, n2, -⟩ := he
  obtain ⟨h1, h2, h3, h4, h5, h6, h7, h8⟩ := hr
  have n2' : e.splitB.map Vec.yz ≠ [] := by simpa using n2
  have yy : ∀ v : Vec, v.yz.yz = v.yz := fun _ => rfl
  cases oc with
  | none =>
    unfold cableHole at h
    have h := Except.ok.inj h
    simp only [Prod.mk.injEq] at h
    obtain ⟨rfl, rfl, rfl, rfl, rfl⟩ := h
    rw [List.map_append, map_yz hS, h8, h3, h2]
    simp only [List.map_append, List.map_cons, List.map_nil, List.cons_append, List.nil_append, List.append_assoc, total_nil]
    generalize e.splitB.map Vec.yz = SB at *
    have a1 : ∀ (a b c d f k : Vec), around g (a :: (SB ++ b :: c :: d :: f :: k :: S)) = g a (SB.headD 0) + along g SB +
        g (SB.getLastD 0) b + g b c + g c d + g d f + g f k + g k (S.headD 0) + along g S + g (S.getLastD 0) a := by
      intro a b c d f k
      rw [around_cons, along_cons _ (by simp), List.append_assoc, along_append n2' (by simp), headD_append n2']
      simp only [List.cons_append, List.nil_append, along_cc, along_one, headD_cons]
      rw [along_cons _ (by simp), headD_append nS, along_append nS (by simp), along_one]
      simp only [headD_cons]
      ring
    have a2 : ∀ (a b c : Vec), around g (a :: b :: c :: W) = g a b + g b c + g c (W.headD 0) + along g W + g (W.getLastD 0) a := by
      intro a b c
      rw [around_cons, List.cons_append, List.cons_append, along_cc, along_cc, along_cons _ (by simp), headD_append nW,
        along_append nW (by simp), along_one, headD_cons]
      ring
    rw [a1, a2]
    simp only [around_cons, List.cons_append, List.nil_append, along_cc, along_one, headD_cons, getLastD_cc, getLastD_one, yy, hg.self, hWS]
    anti hg
  | some cc =>
    unfold cableHole at h
    dsimp only at h
    obtain ⟨w0, i1, h⟩ := bind_ok h
    obtain ⟨c, i2, h⟩ := bind_ok h
    obtain ⟨g1, -, h⟩ := bind_ok h
    obtain ⟨g0, -, h⟩ := bind_ok h
    split_ifs at h
    have h := Except.ok.inj h
    simp only [Prod.mk.injEq] at h
    obtain ⟨rfl, rfl, rfl, rfl, rfl⟩ := h
    obtain ⟨-, rfl⟩ := index_zero i1
    obtain ⟨ap, ne⟩ := hc cc rfl c i2
    obtain ⟨m1, m2, m3, m4, m5, m6, m7, m8⟩ := C81_edges i2 ap ne
    have mT := C81_split hq i2 hw
    have fit := fit_total.mp (C81_fit i2 ap ne) g hg
    rw [esum_append, esum_append, esum_append] at fit
    change _ + (along g _ + along g _ + along g _ + along g _) = 0 at fit
    rw [List.map_append, map_yz hS, h8, h3, h2]
    simp only [List.map_append, map_yz mT]
    simp only [List.map_append, List.map_cons, List.map_nil, List.cons_append, List.nil_append, List.append_assoc, total_nil, total_cons,
      rim_face, List.sum_nil]
    generalize e.splitB.map Vec.yz = SB at *
    generalize c.splitEdgeT = T at *
    generalize c.splitEdgeG = G at *
    generalize c.wallEdgeF = F at *
    generalize c.wallEdgeB = B at *
    have a1 : ∀ (a b c d : Vec), around g (a :: (SB ++ b :: c :: d :: (T ++ S))) = g a (SB.headD 0) + along g SB +
        g (SB.getLastD 0) b + g b c + g c d + g d (T.headD 0) + along g T + g (T.getLastD 0) (S.headD 0) + along g S + g (S.getLastD 0) a := by
      intro a b c d
      rw [around_cons, along_cons _ (by simp), List.append_assoc, along_append n2' (by simp), headD_append n2']
      simp only [List.cons_append, List.nil_append, along_cc, along_one, headD_cons]
      rw [along_cons _ (by simp), List.append_assoc, headD_append m4, along_append m4 (by simp), headD_append nS, along_append nS (by simp), along_one]
      simp only [headD_cons]
      ring
    have a2 : ∀ (a b c : Vec), around g (F ++ a :: b :: c :: W) = along g F + g (F.getLastD 0) a + g a b + g b c + g c (W.headD 0) +
        along g W + g (W.getLastD 0) (F.headD 0) := by
      intro a b c
      rw [around_eq _ (by simp), along_append m1 (by simp), along_cc, along_cc, along_cons _ nW, headD_append m1,
        getLastD_append (by simp), getLastD_cc, getLastD_cc, getLastD_cons _ nW, headD_cons]
      ring
    have a3 : ∀ (a b c d : Vec), around g (a :: b :: c :: d :: B) = g a b + g b c + g c d + g d (B.headD 0) + along g B + g (B.getLastD 0) a := by
      intro a b c d
      rw [around_cons, List.cons_append, List.cons_append, List.cons_append, along_cc, along_cc, along_cc, along_cons _ (by simp), headD_append m2,
        along_append m2 (by simp), along_one, headD_cons]
      ring
    have a4 : ∀ (a b : Vec), around g (a :: b :: G) = g a b + g b (G.headD 0) + along g G + g (G.getLastD 0) a := by
      intro a b
      rw [around_cons, List.cons_append, along_cc, along_cons _ (by simp), headD_append m3,
        along_append m3 (by simp), along_one, headD_cons]
      ring
    rw [a1, a2, a3, a4, m5, m6, m7, m8, hWS]
    anti hg

/-- The cable hole has no sides that are too short. -/
def CableApart (cfg : KeyboardCfg) (bc : BracketCfg) (thickness : ℝ) : Prop :=
  ∀ cc ∈ cfg.cable, ∀ pos c, Cable.make cfg.quality cfg.taper cc (bc.holeLength + bc.counterboreLength) pos thickness = .ok c →
    Apart c.splitEdgeRaw ∧ c.splitEdgeRaw.getLastD 0 ≠ c.splitEdgeRaw.headD 0

theorem joint_bracket {cfg : KeyboardCfg} {fp : FullPlan} {s : BodyStep} {o : OuterRim} {i : InnerRim} {r : Ridge} {e : EncoderHole}
    {bc : BracketCfg} {j : Joint} {olfg olfc olft : Vec} (hq : 0 < cfg.quality.maxChordAngle) (he : EncoderOk fp.plan.points s e)
    (hr : RidgeOk fp.plan.points s o i e olfg olfc olft r) (hF : r.ilft.y < fp.plan.points.ridgeIRF.y)
    (hB : ¬ i.alnumILBT.y < s.alnumILF.y)
    (hc : CableApart cfg bc (fp.plan.points.alnumOLB.y - fp.plan.points.alnumILB.y))
    (h : makeJoint cfg fp s i r (some bc) = .ok j) {g : Vec → Vec → ℤ} (hg : Anti g) :
    total g [face e.edgeI, face e.edgeO] + total g e.pieces + total g j.faces + total g (jointFaces j) + total g j.pieces +
      total g (jointPieces r j) + (g j.chamferC i.alnumILBC - g j.chamferT i.alnumILBT - g j.chamferC j.chamferT) +
      ridgeRest g fp.plan.points s o i r olfg olfc olft = 0 := by
  unfold makeJoint at h
  dsimp only at h
  obtain ⟨f, i1, h⟩ := bind_ok h
  obtain ⟨b, i2, h⟩ := bind_ok h
  obtain ⟨_, -, h⟩ := bind_ok h
  obtain ⟨_, -, h⟩ := bind_ok h
  obtain ⟨t, i3, h⟩ := bind_ok h
  obtain ⟨_, -, h⟩ := bind_ok h
  obtain ⟨⟨splitB, OB, IB, faces, pieces⟩, i4, h⟩ := bind_ok h
  obtain ⟨wall1, i5, h⟩ := bind_ok h
  obtain ⟨roof0, i6, h⟩ := bind_ok h
  obtain rfl := Except.ok.inj h
  obtain ⟨-, rfl⟩ := index_last i5
  obtain ⟨-, rfl⟩ := index_zero i6
  obtain ⟨fF, f1, f2, f3, f4, f5, f6, f7, f8⟩ := C82_corner_fit i1
  obtain ⟨fB, b1, b2, b3, b4, b5, b6, b7, b8⟩ := C82_corner_fit i2
  obtain ⟨fT, t1, t2, t3, t4, t5, t6⟩ := C82_roof_fit i3
  rw [if_pos hF] at fF f6
  rw [if_neg hB] at fB b6
  replace fF := fit_total.mp fF g hg
  replace fB := fit_total.mp fB g hg
  replace fT := fit_total.mp fT g hg
  rw [esum_append, esum_append, esum_flatMap_cyc] at fF fB
  rw [esum_flip hg] at fB
  rw [esum_append, esum_append] at fT
  change _ + (along g _ + along g _ + (_ : List ℤ).sum) = 0 at fF
  change _ + (-along g _ + along g _ + (_ : List ℤ).sum) = 0 at fB
  change _ + (along g _ + along g _ + around g _) = 0 at fT
  have hS : ∀ v ∈ b.splitEdge ++ t.splitEdge, v.x = 0 := by
    intro v hv
    rcases List.mem_append.mp hv with hv | hv
    · exact b7 v hv
    · exact t5 v hv
  have hw : (b.wallEdge.headD 0).x = 0 := by
    rw [← b6.1, headD_eq b3]
    exact b7 _ (List.head_mem _)
  have ct := cable_total hq he hr hw (fun cc hcc c hm => hc cc hcc _ c hm) i4 hg (W := b.wallEdge.reverse)
    (S := b.splitEdge ++ t.splitEdge) (by simpa using b1) (by simp [b3]) hS
    (by rw [getLastD_reverse, headD_append b3, b6.1])
  rw [← List.append_assoc] at ct
  obtain ⟨n1, n2, he⟩ := he
  rw [he g hg]
  obtain ⟨h1, h2, h3, h4, h5, h6, h7, h8⟩ := hr
  generalize fp.plan.points = p at *
  unfold jointFaces jointPieces ridgeRest
  dsimp only
  have yy : ∀ v : Vec, v.yz.yz = v.yz := fun _ => rfl
  have n1' : e.splitF.map Vec.yz ≠ [] := by simpa using n1
  have sF : (r.splitF ++ f.splitEdge).map Vec.yz = r.ilfg.yz :: olfg.yz :: olfc.yz :: olft.yz :: p.ridgeORF.yz ::
      (e.splitF.map Vec.yz ++ p.ridgeIRF.yz :: f.splitEdge) := by
    rw [List.map_append, map_yz f7, h7, h4]
    simp
  rw [sF, h1, h4, h5, h6]
  generalize (splitB ++ b.splitEdge ++ t.splitEdge).map Vec.yz = SBB at *
  generalize e.splitF.map Vec.yz = SF at *
  generalize e.splitB.map Vec.yz = SB at *
  simp only [total_cons, total_nil, total_append, rim_face, rim_neat hg, rim_strip hg, List.map_nil, List.sum_nil, List.map_append, List.map_cons,
    List.sum_append, List.sum_cons]
  have aF : ∀ (a b c d e k : Vec), around g (a :: b :: c :: d :: e :: (SF ++ k :: f.splitEdge)) =
      g a b + g b c + g c d + g d e + g e (SF.headD 0) + along g SF + g (SF.getLastD 0) k + g k (f.splitEdge.headD 0) +
      along g f.splitEdge + g (f.splitEdge.getLastD 0) a := by
    intro a b c d e k
    rw [around_cons, List.cons_append, List.cons_append, List.cons_append, List.cons_append, along_cc, along_cc, along_cc, along_cc,
      along_cons _ (by simp), List.append_assoc, along_append n1' (by simp), headD_append n1', List.cons_append, along_cons _ (by simp),
      along_append f3 (by simp), headD_append f3, along_one]
    simp only [headD_cons]
    ring
  have aT : ∀ (x y z : Vec), around g ([x, y, z] ++ t.roofEdge ++ b.roofEdge.reverse) = g x y + g y z + g z (t.roofEdge.headD 0) +
      along g t.roofEdge + g (t.roofEdge.getLastD 0) (b.roofEdge.getLastD 0) - along g b.roofEdge + g (b.roofEdge.headD 0) x := by
    intro x y z
    have nb : b.roofEdge.reverse ≠ [] := by simpa using b2
    have ez : [x, y, z].getLastD 0 = z := rfl
    rw [around_eq _ (by simp), along_append (l := [x, y, z] ++ t.roofEdge) (by simp) nb, along_append (by simp) t1, getLastD_append t1,
      getLastD_append nb, along_cc, along_cc, along_one, along_reverse hg, headD_reverse, getLastD_reverse, ez]
    simp only [List.cons_append, headD_cons]
    ring
  rw [along_append f1 f2] at fF
  rw [along_append b1 b2] at fB
  rw [along_append b3 t2, getLastD_append t2, along_reverse hg, headD_reverse] at ct
  rw [aF, aT, along_append f1 f2, getLastD_append f2, headD_append f1]
  simp only [along_cc, along_one, headD_cons, getLastD_cc, getLastD_one, yy, hg.self]
  obtain ⟨f6, f6'⟩ := f6
  obtain ⟨b6, b6'⟩ := b6
  simp only [f6, f6', b6', t3, t4] at ct ⊢
  clear * - hg fF fB fT ct
  anti hg

end Chrumm.Part
