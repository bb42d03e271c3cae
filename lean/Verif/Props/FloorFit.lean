import Verif.Props.BodyMake
import Verif.Props.Bumper
import Verif.Props.BossMesh
import Verif.Spec.Floor

/-! C84: the floor is watertight. -/

namespace Chrumm.Part
open Geo Geo.Spec Spec Classical

theorem backwards_long {e : List Vec} (h : Backwards e) : 2 ≤ e.length := by
  match e, h with
  | [], h => exact absurd h (lt_irrefl _)
  | [a], h => exact absurd h (lt_irrefl _)
  | a :: b :: l, _ => simp

theorem set_last (b : Vec) : ∀ (y : Vec) (l : List Vec), (y :: l).set l.length b = (y :: l).dropLast ++ [b]
  | _, [] => rfl
  | y, z :: l => congrArg (y :: ·) (set_last b z l)

theorem setEnds_ok {e e' : List Vec} {a b : Vec} (h : setEnds e a b = .ok e') (hl : 2 ≤ e.length) :
    e' ≠ [] ∧ e'.headD 0 = a ∧ e'.getLastD 0 = b := by
  unfold setEnds at h
  split_ifs at h
  obtain rfl := Except.ok.inj h
  match e, hl with
  | x :: y :: l, _ =>
    have : ((x :: y :: l).set 0 a).set ((x :: y :: l).length - 1) b = a :: ((y :: l).set l.length b) := rfl
    rw [this]
    refine ⟨by simp, rfl, ?_⟩
    rw [getLastD_cons _ (by simp)]
    rw [set_last, getLastD_append (by simp), getLastD_one]

theorem fillGaps_ok {e e' : List Vec} (h : fillGaps e = .ok e') :
    e ≠ [] ∧ e' = [(e.headD 0).yz] ++ e ++ [(e.getLastD 0).yz] := by
  unfold fillGaps at h
  obtain ⟨_, k1, h⟩ := bind_ok h
  obtain ⟨_, k2, h⟩ := bind_ok h
  obtain rfl := Except.ok.inj h
  obtain ⟨n, rfl⟩ := index_zero k1
  obtain ⟨-, rfl⟩ := index_last k2
  exact ⟨n, rfl⟩

theorem yz_of {v : Vec} (h : v.x = 0) : v.yz = v := by ext <;> simp [Vec.yz, h]

/-- The boundary of the lip and the joint. -/
def JointFits (g : Vec → Vec → ℤ) (j : FloorJoint) (q2 q3 : List Vec) : Prop :=
  let p := j.profile
  j.splitEdge ≠ [] ∧ j.splitEdge.headD 0 = p.p0.headD 0 ∧ j.splitEdge.getLastD 0 = p.p0.getLastD 0 ∧
  p.p0 ≠ [] ∧ p.p1 ≠ [] ∧ p.p2 ≠ [] ∧
  total g j.pieces + along g j.splitEdge + (j.splitHoles.map (around g)).sum + around g (j.innerEdge ++ p.p6) +
    around g (p.p3 ++ p.p4.reverse) + esum g (Piece.rim (strip q2 q3)) + esum g (Piece.rim (strip p.p4 p.p5)) +
    esum g (Piece.rim (strip p.p5 p.p6)) =
  along g p.p2 + g (p.p0.headD 0) (p.p1.headD 0) + g (p.p1.headD 0) (p.p2.headD 0) +
    g (p.p2.getLastD 0) (p.p1.getLastD 0) + g (p.p1.getLastD 0) (p.p0.getLastD 0)

theorem heads_ok {ls : List (List Vec)} {r : List Vec} (h : (ls.mapM fun e => pyIndex e 0) = .ok r) :
    (∀ l ∈ ls, l ≠ []) ∧ r = ls.map fun l => l.headD 0 := by
  replace h := mapM_ok h
  induction h with
  | nil => exact ⟨by simp, rfl⟩
  | cons h _ ih =>
    obtain ⟨n, rfl⟩ := index_zero h
    exact ⟨by simpa using ⟨n, ih.1⟩, by rw [List.map_cons, ← ih.2]⟩

theorem lasts_ok {ls : List (List Vec)} {r : List Vec} (h : (ls.mapM fun e => pyIndex e (-1)) = .ok r) :
    (∀ l ∈ ls, l ≠ []) ∧ r = ls.map fun l => l.getLastD 0 := by
  replace h := mapM_ok h
  induction h with
  | nil => exact ⟨by simp, rfl⟩
  | cons h _ ih =>
    obtain ⟨n, rfl⟩ := index_last h
    exact ⟨by simpa using ⟨n, ih.1⟩, by rw [List.map_cons, ← ih.2]⟩

theorem floorJoint_plain {cfg : KeyboardCfg} {side : Side} {body : Body} {p : Profile} {j : FloorJoint} {q2 q3 : List Vec}
    (h : floorJoint cfg side body p none = .ok j) (h2 : fillGaps j.profile.p2 = .ok q2) (h3 : fillGaps j.profile.p3 = .ok q3)
    (x1 : (p.p2.headD 0).x = 0) (x2 : (p.p2.getLastD 0).x = 0) (x3 : (p.p3.headD 0).x = 0) (x4 : (p.p3.getLastD 0).x = 0)
    {g : Vec → Vec → ℤ} (hg : Anti g) : JointFits g j q2 q3 := by
  unfold floorJoint profileEnds at h
  obtain ⟨⟨s, e⟩, h1, h⟩ := bind_ok h
  obtain rfl := Except.ok.inj h
  obtain ⟨n2, rfl⟩ := fillGaps_ok h2
  obtain ⟨n3, rfl⟩ := fillGaps_ok h3
  obtain ⟨s', hs, h1⟩ := bind_ok h1
  obtain ⟨e', he, h1⟩ := bind_ok h1
  simp only [Except.ok.injEq, Pure.pure, Except.pure, Prod.mk.injEq] at h1
  obtain ⟨rfl, rfl⟩ := h1
  obtain ⟨n, rfl⟩ := heads_ok hs
  obtain ⟨-, rfl⟩ := lasts_ok he
  have n0 := n p.p0 (by simp)
  have n1 := n p.p1 (by simp)
  have n4 := n p.p4 (by simp)
  have n5 := n p.p5 (by simp)
  have n6 := n p.p6 (by simp)
  clear n hs he h2 h3
  obtain ⟨p0, p1, p2, p3, p4, p5, p6⟩ := p
  dsimp only at *
  refine ⟨by simp, rfl, rfl, n0, n1, n2, ?_⟩
  dsimp only
  rw [yz_of x1, yz_of x2, yz_of x3, yz_of x4]
  have r4 : p4.reverse ≠ [] := by simpa using n4
  rw [List.nil_append, around_eq _ n6, around_eq (p3 ++ p4.reverse) (by simp [n3]), rim_strip hg, rim_strip hg, rim_strip hg,
    along_append n3 r4, along_reverse hg, getLastD_append r4, getLastD_reverse, headD_reverse, headD_append n3]
  have q : ∀ {l : List Vec}, l ≠ [] → along g ([l.headD 0] ++ l ++ [l.getLastD 0]) = along g l ∧
      ([l.headD 0] ++ l ++ [l.getLastD 0]).headD 0 = l.headD 0 ∧ ([l.headD 0] ++ l ++ [l.getLastD 0]).getLastD 0 = l.getLastD 0 := by
    intro l hl
    refine ⟨?_, rfl, getLastD_append (by simp)⟩
    rw [along_append (by simp) (by simp), along_append (by simp) hl, getLastD_append hl]
    simp [along_one, hg.self]
  obtain ⟨e1, e2, e3⟩ := q n2
  obtain ⟨f1, f2, f3⟩ := q n3
  rw [e1, e2, e3, f1, f2, f3]
  simp only [total_nil, List.map_nil, List.sum_nil, List.cons_append, List.nil_append, List.map_cons, along_cc, along_one]
  clear * - hg
  anti hg

theorem back_index (e d c a : Vec) : pyIndex [e, d, c, a] (-1) = .ok a ∧ pyIndex [e, d, c, a] (-2) = .ok c ∧
    pyIndex [e, d, c, a] (-3) = .ok d ∧ pyIndex [e, d, c, a] (-4) = .ok e := ⟨rfl, rfl, rfl, rfl⟩

theorem floorJoint_bracket {cfg : KeyboardCfg} {side : Side} {body : Body} {p : Profile} {bc : BracketCfg} {j : FloorJoint}
    {q2 q3 : List Vec} (h : floorJoint cfg side body p (some bc) = .ok j) (h2 : fillGaps j.profile.p2 = .ok q2)
    (h3 : fillGaps j.profile.p3 = .ok q3) (x1 : (p.p2.headD 0).x = 0) (x2 : (p.p2.getLastD 0).x = 0)
    (l3 : Backwards p.p3) (l4 : Backwards p.p4) (l5 : Backwards p.p5) (l6 : Backwards p.p6)
    (hb : ∀ k ∈ j.brackets, MeetsLip p k.1 k.2) {g : Vec → Vec → ℤ} (hg : Anti g) : JointFits g j q2 q3 := by
  unfold floorJoint at h
  obtain ⟨_, i1, h⟩ := bind_ok h
  obtain ⟨_, i2, h⟩ := bind_ok h
  obtain ⟨_, i3, h⟩ := bind_ok h
  obtain ⟨_, i4, h⟩ := bind_ok h
  obtain ⟨_, i5, h⟩ := bind_ok h
  obtain ⟨f, hf, h⟩ := bind_ok h
  obtain ⟨_, i6, h⟩ := bind_ok h
  obtain ⟨_, i7, h⟩ := bind_ok h
  obtain ⟨_, i8, h⟩ := bind_ok h
  obtain ⟨b, hbk, h⟩ := bind_ok h
  obtain ⟨_, -, H⟩ := bind_ok h
  obtain ⟨-, rfl⟩ := index_zero i1
  obtain ⟨-, rfl⟩ := index_last i2
  obtain ⟨-, rfl⟩ := index_zero i3
  obtain ⟨-, rfl⟩ := index_zero i4
  obtain ⟨-, rfl⟩ := index_zero i5
  obtain ⟨-, rfl⟩ := index_last i6
  obtain ⟨-, rfl⟩ := index_last i7
  obtain ⟨-, rfl⟩ := index_last i8
  have c1 : ¬((p.p6.headD 0).y > (p.p6.getLastD 0).y) := not_lt.mpr l6.le
  have c2 : (p.p6.getLastD 0).y > (p.p6.headD 0).y := l6
  obtain ⟨lf, nf, ef, -, -⟩ := C82_floor_edges hf
  obtain ⟨lb, nb, eb, -, -⟩ := C82_floor_edges hbk
  rw [if_neg c1] at ef
  rw [if_pos c2] at eb
  obtain ⟨tf, -⟩ := ef
  obtain ⟨tb, -⟩ := eb
  have ff := C82_floor_fit hf
  have fb := C82_floor_fit hbk
  rw [if_neg c1, if_neg c1] at ff
  rw [if_pos c2, if_pos c2] at fb
  rw [lf, lb] at H
  obtain ⟨_, k1, H⟩ := bind_ok H
  obtain ⟨_, k2, H⟩ := bind_ok H
  obtain ⟨q6, s6, H⟩ := bind_ok H
  obtain ⟨_, k3, H⟩ := bind_ok H
  obtain ⟨_, k4, H⟩ := bind_ok H
  obtain ⟨q5, s5, H⟩ := bind_ok H
  obtain ⟨_, k5, H⟩ := bind_ok H
  obtain ⟨_, k6, H⟩ := bind_ok H
  obtain ⟨q4, s4, H⟩ := bind_ok H
  obtain ⟨_, k7, H⟩ := bind_ok H
  obtain ⟨_, k8, H⟩ := bind_ok H
  obtain ⟨r3, s3, H⟩ := bind_ok H
  obtain ⟨_, hs, H⟩ := bind_ok H
  obtain ⟨_, he, H⟩ := bind_ok H
  obtain rfl := Except.ok.inj k1
  obtain rfl := Except.ok.inj k2
  obtain rfl := Except.ok.inj k3
  obtain rfl := Except.ok.inj k4
  obtain rfl := Except.ok.inj k5
  obtain rfl := Except.ok.inj k6
  obtain rfl := Except.ok.inj k7
  obtain rfl := Except.ok.inj k8
  obtain ⟨n6, a6, b6⟩ := setEnds_ok s6 (backwards_long l6)
  obtain ⟨n5, a5, b5⟩ := setEnds_ok s5 (backwards_long l5)
  obtain ⟨n4, a4, b4⟩ := setEnds_ok s4 (backwards_long l4)
  obtain ⟨n3, a3, b3⟩ := setEnds_ok s3 (backwards_long l3)
  obtain ⟨n, rfl⟩ := heads_ok hs
  obtain ⟨-, rfl⟩ := lasts_ok he
  have n0 := n p.p0 (by simp)
  have n1 := n p.p1 (by simp)
  have n2 := n p.p2 (by simp)
  obtain rfl := Except.ok.inj H
  obtain ⟨m1, m2⟩ := hb _ rfl
  dsimp only at m1 m2
  have ff := fit_total.mp (ff m1) g hg
  have fb := fit_total.mp (fb m2) g hg
  obtain ⟨-, rfl⟩ := fillGaps_ok h2
  obtain ⟨-, rfl⟩ := fillGaps_ok h3
  rw [esum_append] at ff fb
  change _ + (around g _ + around g _) = 0 at ff fb
  rw [lf, tf] at ff
  rw [lb, tb] at fb
  clear hs he h2 h3 hb n s3 s4 s5 s6 hf hbk lf lb i1 i2 i3 i4 i5 i6 i7 i8 k1 k2 k3 k4 k5 k6 k7 k8
  refine ⟨by simp, rfl, ?_, n0, n1, n2, ?_⟩
  · exact getLastD_append (by simp)
  dsimp only
  rw [a3, b3, yz_of x1, yz_of x2, tf, tb]
  obtain ⟨p0, p1, p2, p3, p4, p5, p6⟩ := p
  dsimp only at *
  have xz : ∀ v : Vec, (v.yz + bc.depth).yz = v.yz := fun v => by ext <;> simp [Vec.yz, BracketCfg.depth]
  rw [xz, xz]
  generalize (p3.headD 0).yz = F3 at *
  generalize (p3.getLastD 0).yz = B3 at *
  generalize (p4.headD 0).yz = F4 at *
  generalize (p4.getLastD 0).yz = B4 at *
  generalize (p5.headD 0).yz = F5 at *
  generalize (p5.getLastD 0).yz = B5 at *
  generalize (p6.headD 0).yz = F6 at *
  generalize (p6.getLastD 0).yz = B6 at *
  have r4 : q4.reverse ≠ [] := by simpa using n4
  generalize f.splitEdge = sf at *
  generalize b.splitEdge = sb at *
  subst m1 m2
  simp only [List.map_cons, List.map_nil, List.reverse_cons, List.reverse_nil, List.nil_append, List.cons_append,
    List.append_assoc] at ff fb ⊢
  rw [around_eq (sf ++ _) (by simp), along_append nf (by simp), headD_append nf, getLastD_append (by simp)] at ff
  rw [around_eq (_ :: _) (by simp)] at fb
  simp only [along_cc, along_one, headD_cons, getLastD_one, getLastD_cons _ (List.cons_ne_nil _ _), along_cons _ nb,
    getLastD_cons _ nb] at ff fb
  rw [around_eq (_ :: _) (by simp), around_eq (r3 ++ _) (by simp [n3]), rim_strip hg, rim_strip hg, rim_strip hg,
    along_append n3 r4, along_reverse hg, getLastD_append r4, getLastD_reverse, headD_reverse, headD_append n3, total_append]
  simp only [along_cc, along_one, headD_cons, getLastD_one, getLastD_cons _ (List.cons_ne_nil _ _), along_cons _ n6,
    getLastD_cons _ n6, along_append nf (List.append_ne_nil_of_left_ne_nil nb _), along_append nb (List.cons_ne_nil _ _), headD_append nb, headD_append nf]
  have na : ∀ (l m : List Vec) (x : Vec), l ++ x :: m ≠ [] := by simp
  simp only [along_cons _ (na _ _ _), along_cons _ (List.append_ne_nil_of_left_ne_nil nf _), along_append n2 (List.cons_ne_nil _ _),
    along_append n3 (List.cons_ne_nil _ _), headD_append n2, headD_append n3, headD_append nf, headD_append nb,
    along_append nf (na _ _ _), along_append nb (List.cons_ne_nil _ _), getLastD_cons _ (na _ _ _),
    getLastD_append (List.cons_ne_nil _ _), along_cc, along_one, headD_cons, getLastD_one, List.sum_cons, List.sum_nil,
    a3, b3, a4, b4, a5, b5, a6, b6, hg.self]
  simp only [hg.self] at ff fb
  clear * - ff fb hg
  anti hg

/-- The boundary of a bumper, if any. -/
theorem floorBumpers_total {cfg : KeyboardCfg} {points : Points} {p0 : List Vec} {ob : Option BumperCfg} {r : Option FloorBumpers}
    (h : floorBumpers cfg points p0 ob = .ok r) (hq : SaneQuality cfg.quality)
    (hb : ∀ c ∈ ob, 1 ≤ c.diameter ∧ 1 / 1000 ≤ |c.height|) {S : List Vec} (hS : S ≠ []) (h0 : p0 ≠ [])
    (hs1 : S.headD 0 = p0.headD 0) (hs2 : S.getLastD 0 = p0.getLastD 0) {g : Vec → Vec → ℤ} (hg : Anti g) :
    around g (S ++ (r.map FloorBumpers.splitEdge).getD []) + around g (p0.reverse ++ (r.map FloorBumpers.floorEdge).getD []) +
      (((r.map FloorBumpers.floorHoles).getD []).map (around g)).sum + total g ((r.map FloorBumpers.pieces).getD []) =
    along g S - along g p0 := by
  have n0 : p0.reverse ≠ [] := by simpa using h0
  cases ob with
  | none =>
    obtain rfl := Except.ok.inj h
    simp only [Option.map_none, Option.getD_none, List.append_nil, List.map_nil, List.sum_nil, total_nil]
    rw [around_eq _ hS, around_eq _ n0, along_reverse hg, getLastD_reverse, headD_reverse, hs1, hs2]
    clear * - hg
    anti hg
  | some bc =>
    obtain ⟨d1, d2⟩ := hb bc rfl
    unfold floorBumpers cornerBumper at h
    dsimp only at h
    obtain ⟨rf, k1, h⟩ := bind_ok h
    obtain ⟨rb, k2, h⟩ := bind_ok h
    obtain ⟨_, i1, h⟩ := bind_ok h
    obtain ⟨lf, k3, h⟩ := bind_ok h
    obtain ⟨_, i2, h⟩ := bind_ok h
    obtain ⟨lb, k4, h⟩ := bind_ok h
    obtain rfl := Except.ok.inj h
    obtain ⟨_, -, k1⟩ := bind_ok k1
    obtain ⟨_, -, k2⟩ := bind_ok k2
    obtain ⟨c1, -⟩ := C59_full _ _ _ _ _ hq d1 d2 k1
    obtain ⟨c2, -⟩ := C59_full _ _ _ _ _ hq d1 d2 k2
    obtain ⟨c3, -, s3, e3, f3⟩ := C59_half _ _ _ _ _ hq d1 d2 k3
    obtain ⟨c4, -, s4, e4, f4⟩ := C59_half _ _ _ _ _ hq d1 d2 k4
    have ends : ∀ {b : Bumper} {x y z w : Vec}, b.splitEdge = [x, y, z, w] → b.floorEdge.head? = b.splitEdge.getLast? →
        b.floorEdge.getLast? = b.splitEdge.head? → b.splitEdge ≠ [] ∧ b.floorEdge ≠ [] ∧
          b.floorEdge.headD 0 = b.splitEdge.getLastD 0 ∧ b.floorEdge.getLastD 0 = b.splitEdge.headD 0 := by
      intro b x y z w hb h1 h2
      rw [hb] at h1 h2 ⊢
      exact ⟨by simp, (headD_of_head? h1).1, (headD_of_head? h1).2, (getLastD_of_getLast? h2).2⟩
    obtain ⟨m3, n3, e3, f3⟩ := ends s3 e3 f3
    obtain ⟨m4, n4, e4, f4⟩ := ends s4 e4 f4
    simp only [Option.map_some, Option.getD_some, FloorBumpers.splitEdge, FloorBumpers.floorEdge, FloorBumpers.floorHoles,
      FloorBumpers.pieces, List.map_cons, List.map_nil, List.sum_cons, List.sum_nil, total_cons, total_nil, rim_done]
    have c1 := sameChain_iff.mp c1 g hg
    have c2 := sameChain_iff.mp c2 g hg
    have c3 := sameChain_iff.mp c3 g hg
    have c4 := sameChain_iff.mp c4 g hg
    rw [esum_append, esum_nil] at c1 c2 c3 c4
    rw [esum_append] at c3 c4
    change _ + (along g _ + along g _) = 0 at c3 c4
    change _ + around g _ = 0 at c1 c2
    rw [around_eq (S ++ _) (by simp [hS]), around_eq (p0.reverse ++ _) (by simp [h0]), along_append hS (by simp [m4]),
      along_append n0 (by simp [n3]), along_append m4 m3, along_append n3 n4, headD_append hS, headD_append n0, headD_append m4,
      headD_append n3, getLastD_append (l := S) (by simp [m4]), getLastD_append (l := p0.reverse) (by simp [n3]), getLastD_append m3, getLastD_append n4,
      along_reverse hg, getLastD_reverse, headD_reverse, hs1, hs2, e3, f3, e4, f4]
    clear * - c1 c2 c3 c4 hg
    anti hg

theorem hex_total (hs : List (List Vec)) (u v : Vec) {g : Vec → Vec → ℤ} (hg : Anti g) :
    total g (((hs.map fun h => edgeTranslated h u).zip (hs.map fun h => edgeTranslated h v)).map fun h => strip h.1 h.2 true) +
      (((hs.map fun h => edgeTranslated h v)).map (around g)).sum +
      ((((hs.map fun h => edgeTranslated h u)).map List.reverse).map (around g)).sum = 0 := by
  induction hs with
  | nil => rfl
  | cons h hs ih =>
    simp only [List.map_cons, List.zip_cons_cons, total_cons, List.sum_cons, rim_closed hg, around_reverse hg] at ih ⊢
    linarith

theorem floorHex_total {cfg : KeyboardCfg} {p6 : List Vec} {oh : Option HexCfg} {hI hO : List (List Vec)}
    (h : floorHex cfg p6 oh = .ok (hI, hO)) {g : Vec → Vec → ℤ} (hg : Anti g) :
    total g ((hI.zip hO).map fun h => strip h.1 h.2 true) + (hO.map (around g)).sum + ((hI.map List.reverse).map (around g)).sum = 0 := by
  cases oh with
  | none =>
    cases Except.ok.inj h
    rfl
  | some hex =>
    unfold floorHex at h
    dsimp only at h
    obtain ⟨_, -, h⟩ := bind_ok h
    obtain ⟨hs, -, h⟩ := bind_ok h
    cases Except.ok.inj h
    exact hex_total hs _ _ hg

theorem heads_total {bosses : List Boss} (h : ∀ b ∈ bosses, Closes b.headTriangles (cycPairs b.clearanceHole ++ cycPairs b.headHole))
    {g : Vec → Vec → ℤ} (hg : Anti g) :
    total g (bosses.map fun b => done b.headTriangles) + ((bosses.map Boss.headHole).map (around g)).sum +
      ((bosses.map Boss.clearanceHole).map (around g)).sum = 0 := by
  induction bosses with
  | nil => rfl
  | cons b bs ih =>
    have ih := ih fun b hb => h b (by simp [hb])
    have c := sameChain_iff.mp (h b (by simp)) g hg
    rw [esum_append, esum_append, esum_nil] at c
    change _ + (around g _ + around g _) = 0 at c
    simp only [List.map_cons, total_cons, List.sum_cons, rim_done]
    linarith

/-- **C84** The pieces of a floor fit together, without a gap: with or without brackets, hexagonal holes, bumpers and a palm
rest. The heads of the screws have to be closed by their own triangles (C78). -/
theorem C84_fit {cfg : KeyboardCfg} {fp : FullPlan} {body : Body} {floor : Floor} (h : Floor.make cfg fp body = .ok floor)
    (hq : SaneQuality cfg.quality) (hp : SaneProfile floor.sketch cfg.bracket.isSome)
    (hb : ∀ k ∈ floor.joint.brackets, MeetsLip floor.sketch k.1 k.2)
    (hbump : ∀ c ∈ cfg.bumper, 1 ≤ c.diameter ∧ 1 / 1000 ≤ |c.height|)
    (hh : ∀ b ∈ floor.bosses, Closes b.headTriangles (cycPairs b.clearanceHole ++ cycPairs b.headHole)) :
    Fit (floor.faces ++ floor.pieces) [] := by
  unfold Floor.make at h
  dsimp only at h
  obtain ⟨sk, h1, h⟩ := bind_ok h
  obtain ⟨j, h2, h⟩ := bind_ok h
  obtain ⟨⟨hI, hO⟩, h3, h⟩ := bind_ok h
  obtain ⟨bu, h4, h⟩ := bind_ok h
  obtain ⟨bs, h5, h⟩ := bind_ok h
  obtain ⟨q2, h6, h⟩ := bind_ok h
  obtain ⟨q3, h7, h⟩ := bind_ok h
  obtain rfl := Except.ok.inj h
  dsimp only at hp hb hh ⊢
  refine fit_total.mpr fun g hg => ?_
  have sk3 : sk.p3 = edgeTranslated sk.p2 ⟨0, 0, cfg.floor.lipHeight⟩ ∧ ∃ u v, sk.p4 = edgeTranslated u ⟨0, 0, cfg.floor.lipHeight⟩ ∧ sk.p5 = edgeTranslated u ⟨0, 0, v⟩ := by
    unfold floorProfile at h1
    dsimp only at h1
    obtain ⟨a, -, h1⟩ := bind_ok h1
    obtain ⟨b, -, h1⟩ := bind_ok h1
    obtain ⟨c, -, h1⟩ := bind_ok h1
    obtain rfl := Except.ok.inj h1
    exact ⟨rfl, _, _, rfl, rfl⟩
  have hd : ∀ (e : List Vec) (v : Vec), e ≠ [] → (edgeTranslated e v).headD 0 = e.headD 0 + v ∧ (edgeTranslated e v).getLastD 0 = e.getLastD 0 + v :=
    fun e v he => ⟨headD_map _ he, getLastD_map _ he⟩
  obtain ⟨sk3, u, v, sk4, sk5⟩ := sk3
  have hj : JointFits g j q2 q3 := by
    cases hbr : cfg.bracket with
    | none =>
      rw [hbr] at h2
      have e : j.profile = sk := by
        unfold floorJoint at h2
        obtain ⟨⟨_, _⟩, -, h2⟩ := bind_ok h2
        obtain rfl := Except.ok.inj h2
        rfl
      have n2 := (fillGaps_ok h6).1
      rw [e] at n2
      obtain ⟨e1, e2⟩ := hd _ ⟨0, 0, cfg.floor.lipHeight⟩ n2
      exact floorJoint_plain h2 h6 h7 hp.first hp.last (by rw [sk3, e1, Vec.add_x, hp.first, add_zero]) (by rw [sk3, e2, Vec.add_x, hp.last, add_zero]) hg
    | some bc =>
      rw [hbr] at h2
      have some : cfg.bracket.isSome := by rw [hbr]; rfl
      have l4 := hp.inner some
      have n : u ≠ [] := by
        rintro rfl
        have := backwards_long l4
        rw [sk4] at this
        simp [edgeTranslated] at this
      have l5 : Backwards sk.p5 := by
        unfold Backwards at l4 ⊢
        rw [sk4, (hd _ _ n).1, (hd _ _ n).2] at l4
        rw [sk5, (hd _ _ n).1, (hd _ _ n).2]
        simpa using l4
      exact floorJoint_bracket h2 h6 h7 hp.first hp.last (hp.outer some) l4 l5 (hp.chamfer some) hb hg
  obtain ⟨nS, hS1, hS2, n0, n1, n2, joint⟩ := hj
  have bump := floorBumpers_total h4 hq hbump nS n0 hS1 hS2 hg
  have hex := floorHex_total h3 hg
  have heads := heads_total hh hg
  unfold floorFaceList
  dsimp only
  have r2 : j.profile.p2.reverse ≠ [] := by simpa using n2
  simp only [total_append, total_cons, total_nil, esum_nil, rim_neat hg, rim_face, List.map_append, List.sum_append,
    List.map_nil, List.sum_nil]
  rw [rim_strip hg j.profile.p0, around_eq (j.profile.p1 ++ _) (by simp [n1]), along_append n1 r2, along_reverse hg, headD_append n1, getLastD_append r2,
    getLastD_reverse, headD_reverse]
  clear * - joint bump hex heads hg
  anti hg

end Chrumm.Part
