import Verif.Props.FloorWhole
import Verif.Props.Collisions
import Verif.Props.HexGrid

/-! The heights and the outline of the floor (C101). -/

namespace Chrumm.Part
open Geo Geo.Spec Spec

/-- A segment on the ground. -/
def OnGround (s : Segment) : Prop := s.a.z = 0 ∧ s.b.z = 0

theorem mem_modify {α : Type} {f : α → α} {l : List α} {k : ℕ} {x : α} (h : x ∈ l.modify k f) : x ∈ l ∨ ∃ y ∈ l, x = f y := by
  obtain ⟨i, hi, e⟩ := List.mem_iff_getElem.mp h
  rw [List.length_modify] at hi
  rw [List.getElem_modify] at e
  split_ifs at e with hk
  · exact .inr ⟨_, List.getElem_mem hi, e.symm⟩
  · exact .inl (e ▸ List.getElem_mem hi)

theorem intersect2D_ground {s o : Segment} {m : ℤ} {v : Vec} (h : s.intersect2D o m = .ok (some v)) : v.z = 0 := by
  unfold Segment.intersect2D at h
  dsimp only at h
  split_ifs at h
  all_goals first | (cases h; rfl) | cases h

theorem connectStep_ground {ss ts : List Segment} {i : ℕ} (hs : ∀ s ∈ ss, OnGround s) (h : connectStep ss i = .ok ts) : ∀ s ∈ ts, OnGround s := by
  unfold connectStep at h
  dsimp only at h
  have g0 : ∀ k, OnGround (ss.getD k ⟨0, 0⟩) := by
    intro k
    rw [List.getD_eq_getElem?_getD]
    cases hk : ss[k]? with
    | none => exact ⟨rfl, rfl⟩
    | some s => exact hs s (List.mem_of_getElem? hk)
  obtain ⟨r, h1, h⟩ := bind_ok h
  obtain ⟨m, h2, h⟩ := bind_ok h
  obtain rfl := Except.ok.inj h
  have hm : m.z = 0 := by
    cases r with
    | some v =>
      obtain rfl := Except.ok.inj h2
      exact intersect2D_ground h1
    | none =>
      unfold connectMiddle Vec.div at h2
      split_ifs at h2
      obtain rfl := Except.ok.inj h2
      simp only [Vec.add_z]
      rw [(g0 _).1, (g0 _).2]
      norm_num
  intro s hs'
  rcases mem_modify hs' with hs' | ⟨y, hy, rfl⟩
  · rcases mem_modify hs' with hs' | ⟨y, hy, rfl⟩
    · exact hs s hs'
    · exact ⟨(hs y hy).1, hm⟩
  · refine ⟨hm, ?_⟩
    rcases mem_modify hy with hy | ⟨z, hz, rfl⟩
    · exact (hs y hy).2
    · exact hm

theorem connect_ground {ss ts : List Segment} (hs : ∀ s ∈ ss, OnGround s) (h : connect ss = .ok ts) : ∀ s ∈ ts, OnGround s := by
  unfold connect at h
  generalize List.range ss.length = l at h
  induction l generalizing ss with
  | nil =>
    obtain rfl := Except.ok.inj h
    exact hs
  | cons i l ih =>
    rw [List.foldlM_cons] at h
    obtain ⟨us, h1, h⟩ := bind_ok h
    exact ih (connectStep_ground hs h1) h

theorem rotateAt_mem {α : Type} {l : List α} {i : ℕ} {x : α} (h : x ∈ rotateAt l i) : x ∈ l := by
  unfold rotateAt at h
  rcases List.mem_append.mp h with h | h
  · exact List.mem_of_mem_drop h
  · exact List.mem_of_mem_take h

theorem nearestCut_ground {s : Segment} {k : ℕ} {cs : List Segment} {best r : Option (ℝ × ℕ × Vec)} (hb : ∀ b ∈ best, b.2.2.z = 0)
    (h : nearestCut s k cs best = .ok r) : ∀ b ∈ r, b.2.2.z = 0 := by
  induction cs generalizing k best with
  | nil =>
    unfold nearestCut at h
    obtain rfl := Except.ok.inj h
    exact hb
  | cons c cs ih =>
    unfold nearestCut at h
    obtain ⟨p, h1, h⟩ := bind_ok h
    cases p with
    | none => exact ih hb h
    | some p =>
      have hp := intersect2D_ground h1
      cases best with
      | none => exact ih (fun b hb => by obtain rfl := Option.some.inj hb; exact hp) h
      | some b =>
        dsimp only at h
        split_ifs at h
        · exact ih (fun b hb => by obtain rfl := Option.some.inj hb; exact hp) h
        · exact ih hb h

theorem cutLoops_ground {f : Bool} {ss ts : List Segment} (hs : ∀ s ∈ ss, OnGround s) (h : cutLoops f ss = .ok ts) : ∀ s ∈ ts, OnGround s := by
  induction hn : ss.length using Nat.strong_induction_on generalizing ss ts f with
  | _ n ih =>
    cases ss with
    | nil =>
      unfold cutLoops at h
      obtain rfl := Except.ok.inj h
      simp
    | cons s tail =>
      have h0 := hs s (by simp)
      have ht : ∀ s ∈ tail, OnGround s := fun x hx => hs x (by simp [hx])
      rw [cutLoops] at h
      obtain ⟨cut, h1, h⟩ := bind_ok h
      have hc := nearestCut_ground (fun b hb => by cases hb) h1
      rcases cut with _ | ⟨x, k, pos⟩
      · obtain ⟨rest, h2, h⟩ := bind_ok h
        obtain rfl := Except.ok.inj h
        have := ih _ (by rw [← hn]; simp) ht h2 rfl
        intro y hy
        rcases List.mem_cons.mp hy with rfl | hy
        · exact h0
        · exact this y hy
      · obtain ⟨rest, h2, h⟩ := bind_ok h
        obtain rfl := Except.ok.inj h
        have hp : pos.z = 0 := hc _ rfl
        have hd : ∀ s ∈ setStart pos (tail.drop k), OnGround s := by
          have hd : ∀ s ∈ tail.drop k, OnGround s := fun x hx => ht x (List.mem_of_mem_drop hx)
          cases hk : tail.drop k with
          | nil => simp [setStart]
          | cons z zs =>
            rw [hk] at hd
            intro y hy
            rcases List.mem_cons.mp hy with rfl | hy
            · exact ⟨hp, (hd z (by simp)).2⟩
            · exact hd y (by simp [hy])
        have := ih _ (by rw [← hn, setStart_length, List.length_drop, List.length_cons]; omega) hd h2 rfl
        intro y hy
        rcases List.mem_cons.mp hy with rfl | hy
        · exact ⟨h0.1, hp⟩
        · exact this y hy

theorem normalized2D_z {v u : Vec} (h : v.normalized2D = .ok u) : u.z = 0 := by
  unfold Vec.normalized2D at h
  split_ifs at h
  obtain rfl := Except.ok.inj h
  rfl

theorem offset2D_ground {s t : Segment} {d : ℝ} (h : s.offset2D d = .ok t) : OnGround t := by
  unfold Segment.offset2D at h
  obtain ⟨o, h1, h⟩ := bind_ok h
  obtain rfl := Except.ok.inj h
  have := normalized2D_z h1
  simp [OnGround, Vec.xy, this]

/-- An offset outline is on the ground, if the outline is. -/
theorem naiveOffset_ground {e r : List Vec} {d : ℝ} {c : Bool} (he : ∀ p ∈ e, p.z = 0) (h : naiveOffset2D e d c = .ok r) : ∀ p ∈ r, p.z = 0 := by
  unfold naiveOffset2D at h
  dsimp only at h
  split_ifs at h with hd
  · obtain rfl := Except.ok.inj h
    exact he
  · obtain ⟨o1, h1, h⟩ := bind_ok h
    obtain ⟨o2, h2, h⟩ := bind_ok h
    obtain ⟨o3, h3, h⟩ := bind_ok h
    obtain ⟨o4, h4, h⟩ := bind_ok h
    obtain ⟨k, h5, h⟩ := bind_ok h
    obtain rfl := Except.ok.inj h
    have g1 : ∀ s ∈ o1, OnGround s := by
      unfold offsetSides at h1
      dsimp only at h1
      obtain ⟨off, k1, h1⟩ := bind_ok h1
      have go : ∀ s ∈ off, OnGround s := by
        intro s hs
        obtain ⟨a, -, ha⟩ := forall₂_right_mem (mapM_ok k1) hs
        exact offset2D_ground ha
      cases c with
      | true =>
        obtain rfl := Except.ok.inj h1
        exact go
      | false =>
        obtain ⟨l, k2, h1⟩ := bind_ok h1
        obtain ⟨st, k3, h1⟩ := bind_ok h1
        obtain rfl := Except.ok.inj h1
        intro s hs
        rcases List.mem_append.mp hs with hs | hs
        · exact go s (List.mem_of_mem_dropLast hs)
        · rw [List.mem_singleton.mp hs]
          exact offset2D_ground k3
    have g2 := connect_ground g1 h2
    have g3 := cutLoops_ground (fun s hs => g2 s (rotateAt_mem hs)) h3
    have g4 := connect_ground (fun s hs => g3 s (List.mem_of_mem_filter hs)) h4
    intro p hp
    obtain ⟨s, hs, rfl⟩ := List.mem_map.mp hp
    exact (g4 s (rotateAt_mem hs)).1

/-- All bosses of the floor are made with the screws of the configuration. -/
theorem floor_bosses_made {cfg : KeyboardCfg} {side : Side} {fp : FullPlan} {bs : List Boss} (h : FullPlan.make cfg side = .ok fp)
    (hb : floorBosses fp cfg.palm = .ok bs) : ∀ b ∈ bs, ∃ w s pos d wd rp, Boss.make cfg.quality w cfg.floor.outerHeight cfg.boss s pos d wd rp = .ok b := by
  obtain ⟨-, h1, h2⟩ := fullPlan_ok h
  unfold Bosses.make at h1
  obtain ⟨b1, k1, h1⟩ := bind_ok h1
  obtain ⟨b2, k2, h1⟩ := bind_ok h1
  obtain ⟨b3, k3, h1⟩ := bind_ok h1
  obtain ⟨b4, k4, h1⟩ := bind_ok h1
  have h1 := Except.ok.inj h1
  have four : ∀ b ∈ [fp.bosses.alnumB, fp.bosses.thumbF, fp.bosses.pinkyB, fp.bosses.pinkyF],
      ∃ w s pos d wd rp, Boss.make cfg.quality w cfg.floor.outerHeight cfg.boss s pos d wd rp = .ok b := by
    rw [← h1]
    intro b hm
    simp only [List.mem_cons, List.not_mem_nil, or_false] at hm
    rcases hm with rfl | rfl | rfl | rfl
    · exact ⟨_, _, _, _, _, _, k1⟩
    · exact ⟨_, _, _, _, _, _, k4⟩
    · exact ⟨_, _, _, _, _, _, k2⟩
    · exact ⟨_, _, _, _, _, _, k3⟩
  cases hp : cfg.palm with
  | none =>
    rw [hp] at hb
    obtain rfl := Except.ok.inj hb
    exact four
  | some palm =>
    rw [hp] at hb h2
    unfold Hitch.make at h2
    obtain ⟨⟨olb, orb, olf, orf, pl, pr, o⟩, -, h2⟩ := bind_ok h2
    obtain ⟨bl, l1, h2⟩ := bind_ok h2
    obtain ⟨br, l2, h2⟩ := bind_ok h2
    have h2 := Except.ok.inj h2
    unfold floorBosses at hb
    rw [← h2] at hb
    obtain rfl := Except.ok.inj hb
    intro b hm
    change b ∈ [fp.bosses.alnumB, fp.bosses.thumbF, fp.bosses.pinkyB, fp.bosses.pinkyF] ++ [bl, br] at hm
    rcases List.mem_append.mp hm with hm | hm
    · exact four b hm
    · simp only [List.mem_cons, List.not_mem_nil, or_false] at hm
      rcases hm with rfl | rfl
      · exact ⟨_, _, _, _, _, _, l1⟩
      · exact ⟨_, _, _, _, _, _, l2⟩

/-- A list of points at the same height. -/
def AtHeight (z : ℝ) (l : List Vec) : Prop := ∀ p ∈ l, p.z = z

theorem atHeight_moved {z : ℝ} {l : List Vec} (h : AtHeight z l) (v : Vec) : AtHeight (z + v.z) (edgeTranslated l v) := by
  intro p hp
  obtain ⟨q, hq, rfl⟩ := List.mem_map.mp hp
  simp [h q hq]

theorem atHeight_append {z : ℝ} {l m : List Vec} (h1 : AtHeight z l) (h2 : AtHeight z m) : AtHeight z (l ++ m) := by
  intro p hp
  rcases List.mem_append.mp hp with hp | hp
  · exact h1 p hp
  · exact h2 p hp

theorem atHeight_reverse {z : ℝ} {l : List Vec} (h : AtHeight z l) : AtHeight z l.reverse := fun p hp => h p (List.mem_reverse.mp hp)

theorem atHeight_ends {z : ℝ} {e e' : List Vec} {a b : Vec} (h : setEnds e a b = .ok e') (he : AtHeight z e) (ha : a.z = z) (hb : b.z = z) : AtHeight z e' := by
  unfold setEnds at h
  split_ifs at h
  obtain rfl := Except.ok.inj h
  intro p hp
  rcases List.mem_or_eq_of_mem_set hp with hp | rfl
  · rcases List.mem_or_eq_of_mem_set hp with hp | rfl
    · exact he p hp
    · exact ha
  · exact hb

theorem collapsed_ground {l : List Vec} {d : ℝ} : AtHeight 0 (collapsed (l.map Vec.xy) d) := by
  intro p hp
  obtain ⟨q, -, rfl⟩ := List.mem_map.mp ((C35_subsequence (l.map Vec.xy) d).1.subset hp)
  rfl

/-- The heights of the profile of the floor. -/
structure Heights (cfg : FloorCfg) (p : Profile) : Prop where
  h0 : AtHeight (-cfg.outerHeight) p.p0
  h1 : AtHeight 0 p.p1
  h2 : AtHeight 0 p.p2
  h3 : AtHeight cfg.lipHeight p.p3
  h4 : AtHeight cfg.lipHeight p.p4
  h5 : AtHeight (-cfg.outerHeight + cfg.innerHeight + cfg.innerChamfer) p.p5
  h6 : AtHeight (-cfg.outerHeight + cfg.innerHeight) p.p6

theorem profile_heights {cfg : FloorCfg} {i o : List Vec} {p : Profile} (hi : AtHeight 0 i) (ho : AtHeight 0 o) (h : floorProfile cfg i o = .ok p) :
    Heights cfg p ∧ p.p1 = o ∧ p.p0 = edgeTranslated o ⟨0, 0, -cfg.outerHeight⟩ := by
  unfold floorProfile at h
  dsimp only at h
  obtain ⟨li, k1, h⟩ := bind_ok h
  obtain ⟨lo, k2, h⟩ := bind_ok h
  obtain ⟨ch, k3, h⟩ := bind_ok h
  obtain rfl := Except.ok.inj h
  have g1 : AtHeight 0 li := naiveOffset_ground hi k1
  have g2 : AtHeight 0 lo := naiveOffset_ground hi k2
  have g3 : AtHeight 0 ch := naiveOffset_ground hi k3
  have m : ∀ {l : List Vec} {v : Vec}, AtHeight 0 l → AtHeight v.z (edgeTranslated l v) := by
    intro l v hl
    have := atHeight_moved hl v
    rwa [zero_add] at this
  exact ⟨⟨m ho, ho, g2, m g2, m g1, m g1, m g3⟩, rfl, rfl⟩

theorem joint_heights {cfg : KeyboardCfg} {side : Side} {body : Body} {p : Profile} {ob : Option BracketCfg} {j : FloorJoint} (hp : Heights cfg.floor p)
    (h : floorJoint cfg side body p ob = .ok j) : Heights cfg.floor j.profile ∧ j.profile.p0 = p.p0 ∧ j.profile.p1 = p.p1 ∧
      (j.brackets = none → j.innerEdge = []) ∧ ∀ k ∈ j.brackets, j.innerEdge = k.2.taperEdge ++ k.1.taperEdge := by
  cases ob with
  | none =>
    unfold floorJoint at h
    obtain ⟨⟨_, _⟩, -, h⟩ := bind_ok h
    obtain rfl := Except.ok.inj h
    exact ⟨hp, rfl, rfl, fun _ => rfl, fun k hk => by cases hk⟩
  | some bc =>
    unfold floorJoint at h
    dsimp only at h
    obtain ⟨a0, i1, h⟩ := bind_ok h
    obtain ⟨a1, i2, h⟩ := bind_ok h
    obtain ⟨c0, i3, h⟩ := bind_ok h
    obtain ⟨d0, i4, h⟩ := bind_ok h
    obtain ⟨e0, i5, h⟩ := bind_ok h
    obtain ⟨f, hf, h⟩ := bind_ok h
    obtain ⟨c1, i6, h⟩ := bind_ok h
    obtain ⟨d1, i7, h⟩ := bind_ok h
    obtain ⟨e1, i8, h⟩ := bind_ok h
    obtain ⟨b, hb, h⟩ := bind_ok h
    obtain ⟨_, -, h⟩ := bind_ok h
    obtain ⟨f1, j1, h⟩ := bind_ok h
    obtain ⟨b1, l1, h⟩ := bind_ok h
    obtain ⟨p6, m1, h⟩ := bind_ok h
    obtain ⟨f2, j2, h⟩ := bind_ok h
    obtain ⟨b2, l2, h⟩ := bind_ok h
    obtain ⟨p5, m2, h⟩ := bind_ok h
    obtain ⟨f3, j3, h⟩ := bind_ok h
    obtain ⟨b3, l3, h⟩ := bind_ok h
    obtain ⟨p4, m3, h⟩ := bind_ok h
    obtain ⟨f4, j4, h⟩ := bind_ok h
    obtain ⟨b4, l4, h⟩ := bind_ok h
    obtain ⟨p3, m4, h⟩ := bind_ok h
    obtain ⟨_, -, h⟩ := bind_ok h
    obtain ⟨_, -, h⟩ := bind_ok h
    obtain rfl := Except.ok.inj h
    have zs : bc.depth.z = 0 := rfl
    rw [(C82_floor_edges hf).1] at j1 j2 j3 j4
    rw [(C82_floor_edges hb).1] at l1 l2 l3 l4
    obtain ⟨q1, q2, q3, q4⟩ := back_index (e0.yz + bc.depth) (d0.yz + bc.depth) (c0.yz + bc.depth) (a0.yz + bc.depth)
    obtain ⟨r1, r2, r3, r4⟩ := back_index (e1.yz + bc.depth) (d1.yz + bc.depth) (c1.yz + bc.depth) (a1.yz + bc.depth)
    rw [q1] at j1
    rw [q2] at j2
    rw [q3] at j3
    rw [q4] at j4
    rw [r1] at l1
    rw [r2] at l2
    rw [r3] at l3
    rw [r4] at l4
    cases j1; cases j2; cases j3; cases j4; cases l1; cases l2; cases l3; cases l4
    have zz : ∀ v : Vec, (v.yz + bc.depth).z = v.z := fun v => by simp [zs, Vec.yz]
    have y0 := hp.h6 _ (pyIndex_mem i1)
    have y1 := hp.h6 _ (pyIndex_mem i2)
    have y2 := hp.h5 _ (pyIndex_mem i3)
    have y3 := hp.h4 _ (pyIndex_mem i4)
    have y4 := hp.h3 _ (pyIndex_mem i5)
    have y5 := hp.h5 _ (pyIndex_mem i6)
    have y6 := hp.h4 _ (pyIndex_mem i7)
    have y7 := hp.h3 _ (pyIndex_mem i8)
    refine ⟨⟨hp.h0, hp.h1, hp.h2, ?_, ?_, ?_, ?_⟩, rfl, rfl, ?_, ?_⟩
    · exact atHeight_ends m4 hp.h3 (by rw [zz, y4]) (by rw [zz, y7])
    · exact atHeight_ends m3 hp.h4 (by rw [zz, y3]) (by rw [zz, y6])
    · exact atHeight_ends m2 hp.h5 (by rw [zz, y2]) (by rw [zz, y5])
    · exact atHeight_ends m1 hp.h6 (by rw [zz, y0]) (by rw [zz, y1])
    · intro h; cases h
    · intro k hk; cases hk; rfl

theorem arc_ground {q : Quality} {r s a : ℝ} {c : Vec} {l : List Vec} (hc : c.z = 0) (h : arc2D q r s a c = .ok l) : AtHeight 0 l := by
  unfold arc2D at h
  split_ifs at h
  · obtain rfl := Except.ok.inj h
    intro p hp
    rw [List.mem_singleton.mp hp, hc]
  all_goals
    obtain ⟨_, -, h⟩ := bind_ok h
    obtain ⟨_, -, h⟩ := bind_ok h
    dsimp only at h
    obtain ⟨_, -, h⟩ := bind_ok h
    obtain ⟨_, -, h⟩ := bind_ok h
    obtain rfl := Except.ok.inj h
    intro p hp
    obtain ⟨i, -, rfl⟩ := List.mem_map.mp hp
    rfl

theorem cornerArc_ground {q : Quality} {r : ℝ} {a b c : Vec} {l : List Vec} (h : cornerArc2D q r a b c = .ok l) : AtHeight 0 l := by
  unfold cornerArc2D at h
  obtain ⟨_, -, h⟩ := bind_ok h
  obtain ⟨_, -, h⟩ := bind_ok h
  dsimp only at h
  obtain ⟨_, -, h⟩ := bind_ok h
  obtain ⟨_, -, h⟩ := bind_ok h
  obtain ⟨d, hd, h⟩ := bind_ok h
  refine arc_ground ?_ h
  simp [normalized2D_z hd, Vec.xy]

theorem hexGrid_ground {q : Quality} {cfg : HexCfg} {edge : List Vec} {holes : List (List Vec)} (h0 : 0 < cfg.minDiameter)
    (hm : cfg.minDiameter ≤ cfg.maxDiameter) (h : hexGrid2D q cfg edge = .ok holes) : ∀ e ∈ holes, AtHeight 0 e := by
  unfold hexGrid2D at h
  obtain ⟨cs, -, h⟩ := bind_ok h
  obtain ⟨cells, h2, h⟩ := bind_ok h
  have hc : ∀ e ∈ cells.filterMap id, AtHeight 0 e := by
    intro e he
    obtain ⟨o, ho, e1⟩ := List.mem_filterMap.mp he
    rw [id] at e1
    subst e1
    obtain ⟨c, -, hc⟩ := forall₂_right_mem (mapM_ok h2) ho
    obtain ⟨x, y, r, rfl, -⟩ := hexCell_ok h0 hm hc
    intro p hp
    simp only [hexagon, List.mem_cons, List.not_mem_nil, or_false] at hp
    rcases hp with rfl | rfl | rfl | rfl | rfl | rfl <;> rfl
  dsimp only at h
  split_ifs at h with hr
  · intro e he
    obtain ⟨x, -, hx⟩ := forall₂_right_mem (mapM_ok h) he
    unfold hexRounded at hx
    obtain ⟨arcs, h3, hx⟩ := bind_ok hx
    obtain rfl := Except.ok.inj hx
    intro p hp
    obtain ⟨arc, ha, hp⟩ := List.mem_flatten.mp hp
    obtain ⟨i, -, hi⟩ := forall₂_right_mem (mapM_ok h3) ha
    exact cornerArc_ground hi p hp
  · obtain rfl := Except.ok.inj h
    exact hc

/-- **C101** The faces of the floor are flat and at the configured heights: the bottom; the rest for the body's walls, which is at the height of the body's bottom; the top of the lip; and the inner floor (with
the edges where the brackets start). -/
theorem C101_heights {cfg : KeyboardCfg} {side : Side} {fp : FullPlan} {body : Body} {floor : Floor} (h : FullPlan.make cfg side = .ok fp)
    (hb : Body.make cfg fp = .ok body) (hf : Floor.make cfg fp body = .ok floor) (hs : SaneFloor cfg)
    (hh : ∀ c ∈ cfg.floor.hexHoles, 0 < c.minDiameter ∧ c.minDiameter ≤ c.maxDiameter) :
    ∃ split bottom rest lip inner, floor.faces = [split, bottom, rest, lip, inner] ∧
      (∀ p ∈ Piece.points bottom, p.z = -cfg.floor.outerHeight) ∧ (∀ p ∈ Piece.points rest, p.z = 0) ∧
      (∀ p ∈ Piece.points lip, p.z = cfg.floor.lipHeight) ∧
      ∀ p ∈ Piece.points inner, p.z = -cfg.floor.outerHeight + cfg.floor.innerHeight ∨
        ∃ f b, floor.joint.brackets = some (f, b) ∧ p ∈ b.taperEdge ++ f.taperEdge := by
  have hbos := floor_bosses_made h (floor_bosses hf)
  obtain ⟨bi, bo⟩ : AtHeight 0 body.outlineI ∧ AtHeight 0 body.outlineO := by
    unfold Body.make at hb
    dsimp only at hb
    obtain ⟨_, -, hb⟩ := bind_ok hb
    obtain ⟨_, -, hb⟩ := bind_ok hb
    obtain ⟨_, -, hb⟩ := bind_ok hb
    obtain ⟨_, -, hb⟩ := bind_ok hb
    obtain ⟨_, -, hb⟩ := bind_ok hb
    obtain ⟨_, -, hb⟩ := bind_ok hb
    obtain ⟨_, -, hb⟩ := bind_ok hb
    obtain ⟨_, -, hb⟩ := bind_ok hb
    obtain ⟨_, -, hb⟩ := bind_ok hb
    obtain ⟨_, -, hb⟩ := bind_ok hb
    obtain rfl := Except.ok.inj hb
    exact ⟨atHeight_reverse collapsed_ground, collapsed_ground⟩
  unfold Floor.make at hf
  dsimp only at hf
  obtain ⟨sk, k1, hf⟩ := bind_ok hf
  obtain ⟨j, k2, hf⟩ := bind_ok hf
  obtain ⟨⟨hI, hO⟩, k3, hf⟩ := bind_ok hf
  obtain ⟨bu, k4, hf⟩ := bind_ok hf
  obtain ⟨bs, k5, hf⟩ := bind_ok hf
  obtain ⟨_, -, hf⟩ := bind_ok hf
  obtain ⟨_, -, hf⟩ := bind_ok hf
  obtain rfl := Except.ok.inj hf
  dsimp only at hbos ⊢
  obtain ⟨hp, -, -⟩ := profile_heights bi bo k1
  obtain ⟨jp, -, -, ji, jb⟩ := joint_heights hp k2
  have hhex : (∀ e ∈ hI, AtHeight (-cfg.floor.outerHeight + cfg.floor.innerHeight) e) ∧ ∀ e ∈ hO, AtHeight (-cfg.floor.outerHeight) e := by
    cases hx : cfg.floor.hexHoles with
    | none =>
      rw [hx] at k3
      cases Except.ok.inj k3
      simp
    | some hex =>
      rw [hx] at k3
      unfold floorHex at k3
      dsimp only at k3
      obtain ⟨_, -, k3⟩ := bind_ok k3
      obtain ⟨hs, l1, k3⟩ := bind_ok k3
      cases Except.ok.inj k3
      have g := hexGrid_ground (hh _ hx).1 (hh _ hx).2 l1
      constructor
      · intro e he
        obtain ⟨x, hx, rfl⟩ := List.mem_map.mp he
        have := atHeight_moved (g x hx) ⟨0, 0, -cfg.floor.outerHeight + cfg.floor.innerHeight⟩
        rwa [zero_add] at this
      · intro e he
        obtain ⟨x, hx, rfl⟩ := List.mem_map.mp he
        have := atHeight_moved (g x hx) ⟨0, 0, -cfg.floor.outerHeight⟩
        rwa [zero_add] at this
  have hbu : AtHeight (-cfg.floor.outerHeight) ((bu.map FloorBumpers.floorEdge).getD []) ∧
      ∀ e ∈ (bu.map FloorBumpers.floorHoles).getD [], AtHeight (-cfg.floor.outerHeight) e := by
    cases hx : cfg.bumper with
    | none =>
      rw [hx] at k4
      obtain rfl := Except.ok.inj k4
      simp [AtHeight]
    | some bc =>
      obtain ⟨d1, d2⟩ := hs.bumper bc hx
      rw [hx] at k4
      unfold floorBumpers cornerBumper at k4
      dsimp only at k4
      obtain ⟨rf, m1, k4⟩ := bind_ok k4
      obtain ⟨rb, m2, k4⟩ := bind_ok k4
      obtain ⟨_, -, k4⟩ := bind_ok k4
      obtain ⟨lf, m3, k4⟩ := bind_ok k4
      obtain ⟨_, -, k4⟩ := bind_ok k4
      obtain ⟨lb, m4, k4⟩ := bind_ok k4
      obtain rfl := Except.ok.inj k4
      obtain ⟨_, -, m1⟩ := bind_ok m1
      obtain ⟨_, -, m2⟩ := bind_ok m2
      have f1 := (C59_full _ _ _ _ _ hs.quality d1 d2 m1).2.2.1
      have f2 := (C59_full _ _ _ _ _ hs.quality d1 d2 m2).2.2.1
      have f3 := (C59_half _ _ _ _ _ hs.quality d1 d2 m3).2.1
      have f4 := (C59_half _ _ _ _ _ hs.quality d1 d2 m4).2.1
      refine ⟨atHeight_append (fun p hp => (f3 p hp).2.2) (fun p hp => (f4 p hp).2.2), ?_⟩
      intro e he
      simp only [Option.map_some, Option.getD_some, FloorBumpers.floorHoles, List.mem_cons, List.not_mem_nil, or_false] at he
      rcases he with rfl | rfl
      · exact fun p hp => (f1 p hp).2
      · exact fun p hp => (f2 p hp).2
  have hbo : ∀ b ∈ bs, AtHeight 0 b.clearanceHole ∧ AtHeight (-cfg.floor.outerHeight) b.headHole := by
    intro b hb
    obtain ⟨w, s, pos, d, wd, rp, m⟩ := hbos b hb
    unfold Boss.make at m
    obtain ⟨_, -, m⟩ := bind_ok m
    obtain ⟨⟨c1, c2, c3⟩, m2, m⟩ := bind_ok m
    obtain ⟨⟨t1, t2⟩, -, m⟩ := bind_ok m
    obtain rfl := Except.ok.inj m
    obtain ⟨-, e1, -, e2, -⟩ := C78_head _ _ _ _ _ _ _ hs.quality hs.head m2
    exact ⟨fun p hp => (e1 p hp).2, fun p hp => (e2 p hp).2⟩
  have flat : ∀ {z : ℝ} {e : List Vec} {hs : List (List Vec)}, AtHeight z e → (∀ h ∈ hs, AtHeight z h) → AtHeight z (e ++ hs.flatten) := by
    intro z e hs he hh p hp
    rcases List.mem_append.mp hp with hp | hp
    · exact he p hp
    · obtain ⟨h, hm, hp⟩ := List.mem_flatten.mp hp
      exact hh h hm p hp
  refine ⟨_, _, _, _, _, rfl, ?_, ?_, ?_, ?_⟩
  · rw [piece_face]
    refine flat (atHeight_append (atHeight_reverse jp.h0) hbu.1) ?_
    intro e he
    rcases List.mem_append.mp he with he | he
    · rcases List.mem_append.mp he with he | he
      · exact hhex.2 e he
      · exact hbu.2 e he
    · obtain ⟨b, hb, rfl⟩ := List.mem_map.mp he
      exact (hbo b hb).2
  · rw [piece_face]
    refine flat (atHeight_append jp.h1 (atHeight_reverse jp.h2)) ?_
    intro e he
    obtain ⟨b, hb, rfl⟩ := List.mem_map.mp he
    exact (hbo b hb).1
  · have : Piece.points (neat (j.profile.p3 ++ j.profile.p4.reverse)) = j.profile.p3 ++ j.profile.p4.reverse := by
      simp [Piece.points, neat, Sheet.points]
    rw [this]
    exact atHeight_append jp.h3 (atHeight_reverse jp.h4)
  · rw [piece_face]
    intro p hp
    rcases List.mem_append.mp hp with hp | hp
    · rcases List.mem_append.mp hp with hp | hp
      · right
        cases hx : j.brackets with
        | none => rw [ji hx] at hp; cases hp
        | some k => exact ⟨k.1, k.2, rfl, by rw [← jb k hx]; exact hp⟩
      · exact .inl (jp.h6 p hp)
    · left
      obtain ⟨e, he, hp⟩ := List.mem_flatten.mp hp
      obtain ⟨x, hx, rfl⟩ := List.mem_map.mp he
      exact hhex.1 x hx p (List.mem_reverse.mp hp)

section
open Classical

/-- **C101** The outlines of the floor are those of the body's bottom: put together, the inner outline, and the outer one without the hitch of a palm rest, they go once around the face at the bottom of
the body, except for the corners between two walls that are in line (seen from above), and points that are closer than 0.001 to the next one. Without a palm rest there is no hitch. -/
theorem C101_outline {cfg : KeyboardCfg} {fp : FullPlan} {body : Body} (hb : Body.make cfg fp = .ok body) :
    ∃ I O1 hitch O2 E holes, body.outlineO = collapsed (O1 ++ hitch ++ O2) (1 / 1000) ∧ body.outlineI = (collapsed I (1 / 1000)).reverse ∧
      (cfg.palm = none → hitch = []) ∧ neat E holes true ∈ body.faces ∧
      let p := fp.plan.points
      let keep := fun v => decide (v ∉ [p.alnumIRB.xy, p.thumbIRF.xy, p.thumbORF.xy, p.alnumORB.xy])
      (E.filter keep).IsRotated ((I ++ (O1 ++ O2)).filter keep) := by
  unfold Body.make at hb
  dsimp only at hb
  obtain ⟨_, -, hb⟩ := bind_ok hb
  obtain ⟨keys, -, hb⟩ := bind_ok hb
  obtain ⟨c, -, hb⟩ := bind_ok hb
  obtain ⟨step, -, hb⟩ := bind_ok hb
  obtain ⟨outer, -, hb⟩ := bind_ok hb
  obtain ⟨i, -, hb⟩ := bind_ok hb
  obtain ⟨enc, -, hb⟩ := bind_ok hb
  obtain ⟨ridge, -, hb⟩ := bind_ok hb
  obtain ⟨joint, -, hb⟩ := bind_ok hb
  obtain ⟨hitch, hh, hb⟩ := bind_ok hb
  obtain rfl := Except.ok.inj hb
  generalize fp.plan.points = p at *
  refine ⟨(outlineIRaw p c i).map Vec.xy, ([p.thumbOLF.yz] ++ c.OLFG).map Vec.xy, hitch.map Vec.xy,
    (c.ORFG ++ c.ORBG ++ [p.alnumOLB, p.alnumOLB.yz]).map Vec.xy, (floorEdge p c i).map Vec.xy,
    [fp.bosses.alnumB.threadHole, fp.bosses.pinkyB.threadHole, fp.bosses.pinkyF.threadHole, fp.bosses.thumbF.threadHole], ?_, rfl, ?_, ?_, ?_⟩
  · unfold outlineORaw
    simp only [List.map_append, List.append_assoc]
  · intro h
    rw [h] at hh
    unfold hitchOutline at hh
    rw [← Except.ok.inj hh]
    rfl
  · simp [floorFaces]
  · dsimp only
    have hxy : ∀ v : Vec, v.xy.xy = v.xy := fun v => rfl
    have hyz : ∀ v : Vec, v.xy.yz.xy = v.yz.xy := fun v => rfl
    unfold floorEdge outlineIRaw
    simp only [List.map_append, List.map_cons, List.map_nil, hxy, hyz]
    generalize hf : (fun v => decide (v ∉ [p.alnumIRB.xy, p.thumbIRF.xy, p.thumbORF.xy, p.alnumORB.xy])) = keep
    have drop : ∀ v ∈ [p.alnumIRB.xy, p.thumbIRF.xy, p.thumbORF.xy, p.alnumORB.xy], [v].filter keep = [] := by
      intro v hv
      rw [← hf, List.filter_singleton, decide_eq_false (not_not_intro hv)]
      rfl
    have d1 := drop p.alnumIRB.xy (by simp)
    have d2 := drop p.thumbIRF.xy (by simp)
    have d3 := drop p.thumbORF.xy (by simp)
    have d4 := drop p.alnumORB.xy (by simp)
    have s1 : ∀ (a b : Vec) (l : List Vec), a :: b :: l = [a, b] ++ l := fun _ _ _ => rfl
    rw [show [p.alnumOLB.xy, p.alnumOLB.yz.xy, p.alnumILB.yz.xy, p.alnumILB.xy] = [p.alnumOLB.xy, p.alnumOLB.yz.xy] ++ [p.alnumILB.yz.xy, p.alnumILB.xy] from rfl,
      show [p.thumbILF.yz.xy, p.thumbOLF.yz.xy] = [p.thumbILF.yz.xy] ++ [p.thumbOLF.yz.xy] from rfl]
    simp only [List.filter_append, d1, d2, d3, d4, List.append_nil, List.nil_append]
    have := List.isRotated_append (l := ([p.alnumOLB.xy, p.alnumOLB.yz.xy] : List Vec).filter keep)
      (l' := [p.alnumILB.yz.xy, p.alnumILB.xy].filter keep ++ (i.LBC.map Vec.xy).filter keep ++ (i.RBC.map Vec.xy).filter keep ++ (c.IRBG.map Vec.xy).filter keep ++
        (c.IRFG.map Vec.xy).filter keep ++ (i.RFC.map Vec.xy).filter keep ++ (i.LFC.map Vec.xy).filter keep ++ (c.ILFG.map Vec.xy).filter keep ++ [p.thumbILF.yz.xy].filter keep ++
        ([p.thumbOLF.yz.xy].filter keep ++ (c.OLFG.map Vec.xy).filter keep ++ ((c.ORFG.map Vec.xy).filter keep ++ (c.ORBG.map Vec.xy).filter keep)))
    simpa only [List.append_assoc] using this

end

/-- **C101** The screws of the floor meet the threads in the body: for each of the four bosses, the body's bottom has the hole of its thread, which goes around the boss's position; the floor's rest has a round
hole with the clearance for the screw, and the floor's bottom a round hole for the screw's head, both around the same position. -/
theorem C101_screws {cfg : KeyboardCfg} {side : Side} {fp : FullPlan} {body : Body} {floor : Floor} (h : FullPlan.make cfg side = .ok fp)
    (hb : Body.make cfg fp = .ok body) (hf : Floor.make cfg fp body = .ok floor) (hs : SaneFloor cfg) :
    ∃ E holes bottom holesB rest holesR, neat E holes true ∈ body.faces ∧ floor.faces[1]? = some (face bottom holesB) ∧ floor.faces[2]? = some (face rest holesR) ∧
      ∀ b ∈ [fp.bosses.alnumB, fp.bosses.thumbF, fp.bosses.pinkyB, fp.bosses.pinkyF],
        b.threadHole ∈ holes ∧ b.headHole ∈ holesB ∧ b.clearanceHole ∈ holesR ∧
        (∀ p ∈ b.clearanceHole, distSq2D b.pos p = (cfg.boss.clearanceHoleDiameter / 2) ^ 2) ∧
        (∀ p ∈ b.headHole, distSq2D b.pos p = (min (cfg.boss.countersinkDiameter / 2)
          (cfg.boss.clearanceHoleDiameter / 2 + (cfg.floor.outerHeight - cfg.boss.clearanceHoleLength))) ^ 2) ∧
        (SaneThread cfg.boss cfg.support → 0 ≤ cfg.boss.diameter →
          (∀ x ∈ bossPlaces fp, UnitNormal x.2.2.2.2 ∧ NotTooSteep cfg.boss x.2.2.2.2) → ∀ s ∈ cycPairs b.threadHole, 0 < left s.1 s.2 b.pos) := by
  have hbos := floor_bosses_made h (floor_bosses hf)
  have bp := body_parts hb
  have sub : ∀ b ∈ [fp.bosses.alnumB, fp.bosses.thumbF, fp.bosses.pinkyB, fp.bosses.pinkyF], b ∈ floor.bosses := by
    have k := floor_bosses hf
    cases hp : cfg.palm with
    | none =>
      rw [hp] at k
      rw [← Except.ok.inj k]
      exact fun b hb => hb
    | some palm =>
      rw [hp] at k
      unfold floorBosses at k
      cases hx : fp.hitch with
      | none => rw [hx] at k; cases k
      | some x =>
        rw [hx] at k
        rw [← Except.ok.inj k]
        intro b hb
        simp only [List.mem_cons, List.not_mem_nil, or_false] at hb ⊢
        rcases hb with rfl | rfl | rfl | rfl <;> simp
  unfold Floor.make at hf
  dsimp only at hf
  obtain ⟨sk, k1, hf⟩ := bind_ok hf
  obtain ⟨j, k2, hf⟩ := bind_ok hf
  obtain ⟨⟨hI, hO⟩, k3, hf⟩ := bind_ok hf
  obtain ⟨bu, k4, hf⟩ := bind_ok hf
  obtain ⟨bs, k5, hf⟩ := bind_ok hf
  obtain ⟨_, -, hf⟩ := bind_ok hf
  obtain ⟨_, -, hf⟩ := bind_ok hf
  obtain rfl := Except.ok.inj hf
  dsimp only at hbos sub ⊢
  refine ⟨(floorEdge fp.plan.points body.corners body.inner).map Vec.xy,
    [fp.bosses.alnumB.threadHole, fp.bosses.pinkyB.threadHole, fp.bosses.pinkyF.threadHole, fp.bosses.thumbF.threadHole], _, _, _, _,
    by rw [bp.faces]; simp [floorFaces], rfl, rfl, ?_⟩
  intro b hb
  have hbs := sub b hb
  obtain ⟨w, s, pos, d, wd, rp, m⟩ := hbos b hbs
  refine ⟨?_, ?_, ?_, ?_⟩
  · simp only [List.mem_cons, List.not_mem_nil, or_false] at hb ⊢
    rcases hb with rfl | rfl | rfl | rfl <;> simp
  · exact List.mem_append_right _ (List.mem_map_of_mem hbs)
  · exact List.mem_map_of_mem hbs
  · have m' := m
    unfold Boss.make at m
    obtain ⟨_, -, m⟩ := bind_ok m
    obtain ⟨⟨c1, c2, c3⟩, m2, m⟩ := bind_ok m
    obtain ⟨⟨t1, t2⟩, m3, m⟩ := bind_ok m
    obtain ⟨-, e1, -, e2, -⟩ := C78_head _ _ _ _ _ _ _ hs.quality hs.head m2
    have mm := Except.ok.inj m
    refine ⟨?_, ?_, ?_⟩
    · rw [← mm]; exact fun p hp => (e1 p hp).1
    · rw [← mm]; exact fun p hp => (e2 p hp).1
    · intro st hd hr
      obtain ⟨x, hx, rfl⟩ : ∃ x ∈ bossPlaces fp, x.1 = b := by
        simp only [List.mem_cons, List.not_mem_nil, or_false] at hb
        unfold bossPlaces
        rcases hb with rfl | rfl | rfl | rfl <;> simp
      obtain ⟨l, u, n, -⟩ := bossPlaces_ok h hd x hx
      unfold bodyBoss Boss.make at n
      obtain ⟨_, -, n⟩ := bind_ok n
      obtain ⟨⟨_, _, _⟩, -, n⟩ := bind_ok n
      obtain ⟨⟨t1', t2'⟩, n3, n⟩ := bind_ok n
      rw [← Except.ok.inj n]
      exact (C78_thread _ _ _ _ _ _ _ _ hs.quality st (fun roof hroof => by obtain rfl := Option.some.inj hroof; exact hr x hx) n3).2.2

/-- The theorems hold of a real floor. -/
example : ∃ cfg side fp body floor, FullPlan.make cfg side = .ok fp ∧ Body.make cfg fp = .ok body ∧ Floor.make cfg fp body = .ok floor ∧ SaneFloor cfg ∧
    ∃ rest, floor.faces[2]? = some rest ∧ ∀ p ∈ Piece.points rest, p.z = 0 := by
  obtain ⟨W, H, he⟩ := exFloor_made
  obtain ⟨fp, body, floor, h1, h2, h3, h4⟩ := he .left
  have hs : SaneFloor (exThin W H) := by
    refine ⟨exQuality_sane, ?_, fun _ h => by cases h⟩
    constructor <;> norm_num [exThin, exCfg, exBoss]
  refine ⟨_, _, fp, body, floor, h1, h2, h3, hs, ?_⟩
  obtain ⟨_, _, rest, _, _, e, -, r, -⟩ := C101_heights h1 h2 h3 hs (fun c hc => by cases hc)
  exact ⟨rest, by rw [e]; rfl, r⟩

end Chrumm.Part
