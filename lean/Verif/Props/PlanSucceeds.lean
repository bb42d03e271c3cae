import Verif.Props.Plan

/-! A plan can be made: the stages succeed, and a concrete configuration. -/

namespace Chrumm.Part
open Geo Geo.Spec Spec

/-! ### Planes -/

theorem tentPlane_succeeds (z : ℝ) {m : Mat} (hm : Motion m) : ∃ p, tentPlane z m = .ok p := by
  unfold tentPlane
  rw [Plane.fromZ_eq]
  obtain ⟨p, hp, -⟩ := C64_plane ⟨⟨0, 0, z⟩, ⟨0, 0, 1⟩⟩ m (by simp [Vec.dot]) hm.2
  exact ⟨p, hp⟩

theorem pivotPlane_succeeds (x : ℝ) {m : Mat} (hm : Motion m) : ∃ p, pivotPlane x m = .ok p := by
  unfold pivotPlane
  rw [Plane.fromX_eq]
  obtain ⟨p, hp, -⟩ := C64_plane ⟨⟨x, 0, 0⟩, ⟨1, 0, 0⟩⟩ m (by simp [Vec.dot]) hm.2
  exact ⟨p, hp⟩

theorem tent_succeeds (body : BodyCfg) (pivot : Vec) (l : Layout) : ∃ r, tent body pivot l = .ok r := by
  unfold tent
  obtain ⟨p1, h1⟩ := tentPlane_succeeds (-body.roofThickness) (turn_motion body.alnumTentAngle pivot)
  obtain ⟨p2, h2⟩ := tentPlane_succeeds 0 (turn_motion body.alnumTentAngle pivot)
  obtain ⟨p3, h3⟩ := pivotPlane_succeeds pivot.x (turn_motion (body.pinkyTentAngle + (body.alnumTentAngle - body.pinkyTentAngle) / 2) pivot)
  obtain ⟨p4, h4⟩ := tentPlane_succeeds (-body.roofThickness) (turn_motion body.thumbTentAngle pivot)
  obtain ⟨p5, h5⟩ := tentPlane_succeeds 0 (turn_motion body.thumbTentAngle pivot)
  obtain ⟨p6, h6⟩ := pivotPlane_succeeds pivot.x (turn_motion (body.pinkyTentAngle + (body.thumbTentAngle - body.pinkyTentAngle) / 2) pivot)
  obtain ⟨p7, h7⟩ := tentPlane_succeeds (-body.roofThickness) (turn_motion body.pinkyTentAngle pivot)
  obtain ⟨p8, h8⟩ := tentPlane_succeeds 0 (turn_motion body.pinkyTentAngle pivot)
  unfold turn at h1 h2 h3 h4 h5 h6 h7 h8
  dsimp only
  rw [h1, h2, h3, h4, h5, h6, h7, h8]
  exact ⟨_, rfl⟩

theorem TentPlanes.mapM_succeeds {f : Plane → Py Plane} {t : TentPlanes} (ht : t.Unit)
    (h : ∀ p, UnitPlane p → ∃ q, f p = .ok q) : ∃ r, t.mapM f = .ok r := by
  obtain ⟨h1, h2, h3, h4, h5, h6, h7, h8, h9, h10⟩ := ht
  obtain ⟨p1, e1⟩ := h _ h1
  obtain ⟨p2, e2⟩ := h _ h2
  obtain ⟨p3, e3⟩ := h _ h3
  obtain ⟨p4, e4⟩ := h _ h4
  obtain ⟨p5, e5⟩ := h _ h5
  obtain ⟨p6, e6⟩ := h _ h6
  obtain ⟨p7, e7⟩ := h _ h7
  obtain ⟨p8, e8⟩ := h _ h8
  obtain ⟨p9, e9⟩ := h _ h9
  obtain ⟨p10, e10⟩ := h _ h10
  unfold TentPlanes.mapM
  rw [e1, e2, e3, e4, e5, e6, e7, e8, e9, e10]
  exact ⟨_, rfl⟩

theorem SidePlanes.mapM_succeeds {f : Plane → Py Plane} {t : SidePlanes} (ht : t.Unit)
    (h : ∀ p, UnitPlane p → ∃ q, f p = .ok q) : ∃ r, t.mapM f = .ok r := by
  obtain ⟨h1, h2, h3, h4, h5, h6⟩ := ht
  obtain ⟨p1, e1⟩ := h _ h1
  obtain ⟨p2, e2⟩ := h _ h2
  obtain ⟨p3, e3⟩ := h _ h3
  obtain ⟨p4, e4⟩ := h _ h4
  obtain ⟨p5, e5⟩ := h _ h5
  obtain ⟨p6, e6⟩ := h _ h6
  unfold SidePlanes.mapM
  rw [e1, e2, e3, e4, e5, e6]
  exact ⟨_, rfl⟩

theorem WallPlanes.mapM_succeeds {f : Plane → Py Plane} {t : WallPlanes} (ht : t.Unit)
    (h : ∀ p, UnitPlane p → ∃ q, f p = .ok q) : ∃ r, t.mapM f = .ok r := by
  obtain ⟨h1, h2, h3, h4⟩ := ht
  obtain ⟨p1, e1⟩ := h _ h1
  obtain ⟨p2, e2⟩ := h _ h2
  obtain ⟨p3, e3⟩ := h _ h3
  obtain ⟨p4, e4⟩ := h _ h4
  unfold WallPlanes.mapM
  rw [e1, e2, e3, e4]
  exact ⟨_, rfl⟩

theorem transformed_succeeds {m : Mat} (hm : Motion m) (p : Plane) (hp : UnitPlane p) : ∃ q, p.transformed m = .ok q := by
  obtain ⟨q, hq, -⟩ := C64_plane p m hp hm.2
  exact ⟨q, hq⟩

theorem translated_succeeds (v : Vec) (p : Plane) (hp : UnitPlane p) : ∃ q, p.translated v = .ok q :=
  ⟨_, Plane.translated_eq hp v⟩

/-! ### Numbers -/

theorem pyMin_succeeds {l : List ℝ} (h : l ≠ []) : ∃ x, pyMin l = .ok x := by
  cases l with
  | nil => exact absurd rfl h
  | cons a l => exact ⟨_, rfl⟩

/-! ### Keys -/

/-- A key with bounds. -/
def Full (k : Key) : Prop := k.boundsI.length = 8 ∧ k.boundsO.length = 8

theorem Full.transform {k : Key} (h : Full k) (m : Mat) : Full (k.transform m) := by
  unfold Full Key.boundsI Key.boundsO Key.transform at *
  simpa using h

theorem Full.ne {k : Key} (h : Full k) : k.boundsI ≠ [] ∧ k.boundsO ≠ [] ∧ k.bounds ≠ [] := by
  obtain ⟨h1, h2⟩ := h
  refine ⟨?_, ?_, ?_⟩ <;> intro e
  · simp [e] at h1
  · simp [e] at h2
  · unfold Key.bounds at e
    simp [(List.append_eq_nil_iff.mp e).1] at h1

theorem bounds_ne {ks : List Key} (hk : ks ≠ []) (hf : ∀ k ∈ ks, Full k) (f : Vec → ℝ) :
    (ks.flatMap Key.bounds).map f ≠ [] ∧ (ks.flatMap Key.boundsO).map f ≠ [] ∧ (ks.flatMap Key.boundsI).map f ≠ [] := by
  obtain ⟨k, l, rfl⟩ := List.exists_cons_of_ne_nil hk
  obtain ⟨h1, h2, h3⟩ := (hf k (by simp)).ne
  refine ⟨?_, ?_, ?_⟩ <;> simp [h1, h2, h3]

theorem wallLines_succeeds {ks : List Key} (hk : ks ≠ []) (hf : ∀ k ∈ ks, Full k) (thickness angle : ℝ) :
    ∃ w, wallLines2D ks thickness angle = .ok w := by
  obtain ⟨k, l, rfl⟩ := List.exists_cons_of_ne_nil hk
  obtain ⟨h1, h2, -⟩ := (hf k (by simp)).ne
  exact C56_succeeds _ _ _ ⟨k, by simp, h1⟩ ⟨k, by simp, h2⟩

theorem sideWalls_succeeds {body : BodyCfg} {side : Side} {l : Layout} (h2 : TwoGroups l)
    (hA : fingers l 0 none ≠ []) (hP : fingers l 1 (some side) ≠ []) (hT : thumbs l none ≠ [])
    (hf : ∀ s, ∀ k ∈ keys l s, Full k) (hc : Real.cos body.alnumFrontAngle ≠ 0) : ∃ r, sideWalls body side l = .ok r := by
  have fA : ∀ k ∈ fingers l 0 none, Full k := fun k hk => hf none k (by unfold keys; simp [hk])
  have fP : ∀ k ∈ fingers l 1 (some side), Full k := fun k hk => hf (some side) k (by unfold keys; simp [hk])
  have fT : ∀ k ∈ thumbs l none, Full k := fun k hk => hf none k (by unfold keys; simp [hk])
  unfold sideWalls
  rw [alnum_ok h2]
  obtain ⟨x, hx⟩ := pyMin_succeeds (bounds_ne hA fA Vec.x).1
  obtain ⟨⟨lineI, lineO⟩, hw⟩ := wallLines_succeeds hA fA body.alnumFrontThickness body.alnumFrontAngle
  obtain ⟨pl1, pl2⟩ := wallLines_planar hw
  dsimp only [bind, Except.bind]
  rw [hx]
  dsimp only
  rw [Plane.fromX_eq]
  dsimp only
  rw [hw]
  dsimp only
  rw [Plane.fromLine2D_eq pl1, Plane.fromLine2D_eq pl2]
  dsimp only
  have hm : ∃ dy : ℝ, moveThumb lineO l = .ok (l.moved 1 1 (shift ⟨0, dy, 0⟩)) := by
    obtain ⟨-, -⟩ := C56_walls hw
    have hd : lineO.dir.x ≠ 0 := by
      rw [(C56_walls hw).1.2.1]
      exact hc
    have : ∃ l', moveThumb lineO l = .ok l' := by
      unfold moveThumb pyDiv
      rw [if_neg hd]
      obtain ⟨m, hm⟩ := pyMax_succeeds (l := ((l.thumb).flatMap Key.boundsO).map fun p => p.y - p.x * (lineO.dir.y / lineO.dir.x))
        (by rw [thumbs_eq]; exact (bounds_ne hT fT _).2.1)
      dsimp only [bind, Except.bind]
      rw [hm]
      dsimp only
      split_ifs
      · exact ⟨_, rfl⟩
      · exact ⟨_, rfl⟩
    obtain ⟨l', hl'⟩ := this
    obtain ⟨-, dy, -, rfl, -⟩ := moveThumb_ok hl'
    exact ⟨dy, hl'⟩
  obtain ⟨dy, hm⟩ := hm
  rw [hm]
  dsimp only
  rw [pinky_ok (h2.moved _ _ _)]
  dsimp only
  have e : fingers (l.moved 1 1 (shift ⟨0, dy, 0⟩)) 1 (some side) = fingers l 1 (some side) := by
    rw [fingers_moved _ _ _ _ _ (by norm_num)]
    simp [Key.transform_one]
  rw [e]
  obtain ⟨⟨rI, rO⟩, hr⟩ := wallLines_succeeds hP fP body.wallThickness (2 * Real.pi / 4)
  obtain ⟨pr1, pr2⟩ := wallLines_planar hr
  rw [hr]
  dsimp only
  rw [Plane.fromLine2D_eq pr1, Plane.fromLine2D_eq pr2]
  exact ⟨_, rfl⟩

/-! ### Bosses -/

/-- A key that looks to the back. -/
def Upright (k : Key) : Prop := Mat.Affine k.matrix ∧ ∀ s : ℝ, (⟨0, s, 0⟩ : Vec).transformed k.matrix = k.position + ⟨0, s, 0⟩

theorem Upright.transform {k : Key} (h : Upright k) {m : Mat} (hm : Mat.Affine m)
    (hs : ∀ (v : Vec) (s : ℝ), (v + ⟨0, s, 0⟩).transformed m = v.transformed m + ⟨0, s, 0⟩) : Upright (k.transform m) := by
  refine ⟨h.1.mul hm, fun s => ?_⟩
  rw [Key.point_transform h.1, h.2, hs, Key.position_transform h.1]

theorem normalized_self {u : Vec} (h : u.dot u = 1) : u.normalized = .ok u :=
  UnitOf.normalized ⟨h, 1, one_pos, by ext <;> simp⟩

theorem Upright.normal {k : Key} (h : Upright k) : (⟨0, 1, 0⟩ : Vec).transformedNormal k.matrix = .ok ⟨0, 1, 0⟩ := by
  have e := h.2 1
  unfold Key.position at e
  have ex := congrArg Vec.x e
  have ey := congrArg Vec.y e
  have ez := congrArg Vec.z e
  obtain ⟨a1, a2, a3, a4⟩ := h.1
  simp [Vec.transformed, a1, a2, a3, a4] at ex ey ez
  unfold Vec.transformedNormal
  rw [← normalized_self (u := ⟨0, 1, 0⟩) (by simp [Vec.dot])]
  congr 1
  have ey' : k.matrix.m5 = 1 := by linarith
  ext <;> simp [ex, ey', ez]

theorem Upright.axis {k : Key} (h : Upright k) : Line.transformed ⟨0, ⟨0, 1, 0⟩⟩ k.matrix = .ok ⟨k.position, ⟨0, 1, 0⟩⟩ := by
  unfold Line.transformed
  dsimp only
  rw [h.normal]
  show Line.make _ _ = _
  rw [make_unit (by simp [Vec.dot])]
  rfl

theorem Upright.line {k : Key} (h : Upright k) : keyLine2D k = .ok ⟨k.position.xy, ⟨0, 1, 0⟩⟩ := by
  unfold keyLine2D
  rw [make_unit (p := 0) (d := ⟨0, 1, 0⟩) (by simp [Vec.dot])]
  dsimp only [bind, Except.bind]
  rw [h.axis]
  show Line.make _ _ = _
  rw [show (⟨0, 1, 0⟩ : Vec).xy = ⟨0, 1, 0⟩ from rfl, make_unit (by simp [Vec.dot])]

theorem bossLoop_more {hull0 hull1 : List Vec} {line0 line1 : Line} {radius : ℝ} {forward d1 d2 : Vec} :
    ∀ (fuel n : ℕ) (w : Line × Line) {r}, bossLoop hull0 hull1 line0 line1 radius forward d1 d2 fuel w = some r →
      bossLoop hull0 hull1 line0 line1 radius forward d1 d2 (fuel + n) w = some r
  | 0, n, w, r, h => by cases h
  | fuel + 1, n, (wI, wO), r, h => by
    rw [Nat.add_right_comm]
    unfold bossLoop at h ⊢
    cases h1 : tryBoss hull0 hull1 line0 line1 radius forward d1 wO with
    | error e => rw [h1] at h; exact h
    | ok o =>
      rw [h1] at h
      cases o with
      | some b => exact h
      | none =>
        dsimp only at h ⊢
        cases h2 : wI.translated d2 with
        | error e => rw [h2] at h; exact h
        | ok wI' =>
          rw [h2] at h
          dsimp only at h ⊢
          cases h3 : wO.translated d2 with
          | error e => rw [h3] at h; exact h
          | ok wO' =>
            rw [h3] at h
            dsimp only at h ⊢
            exact bossLoop_more fuel n (wI', wO') h

theorem fitBoss2D_more {cfg : BossFit} {w : Line × Line} {k0 k1 : Key} (fuel n : ℕ) {r}
    (h : fitBoss2D cfg w k0 k1 fuel = some r) : fitBoss2D cfg w k0 k1 (fuel + n) = some r := by
  unfold fitBoss2D at h ⊢
  dsimp only at h ⊢
  cases h0 : keyLine2D k0 with
  | error e => rw [h0] at h; exact h
  | ok l0 =>
    rw [h0] at h
    dsimp only at h ⊢
    cases h1 : keyLine2D k1 with
    | error e => rw [h1] at h; exact h
    | ok l1 =>
      rw [h1] at h
      dsimp only at h ⊢
      exact bossLoop_more fuel n w h

theorem fitBoss_succeeds {cfg : BossFit} {w : Line × Line} {k0 k1 : Key} (hw : WallPair w) (hd : -1 < cfg.diameter)
    (h0 : Upright k0) (h1 : Upright k1) (f0 : Full k0) (f1 : Full k1) (hx : 1e-6 ≤ w.2.dir.x ^ 2) :
    ∃ b w', fitBoss cfg w k0 k1 = .ok (b, w') := by
  obtain ⟨wI, wO⟩ := w
  obtain ⟨rounds, ⟨b, w'⟩, hr⟩ := C55_succeeds cfg wI wO k0 k1 _ _ (planar_unit hw.1) hw.2.1 hd h0.line h1.line (by simpa using hx)
    (by simpa using hx) (by rw [f0.1]; norm_num) (by rw [f1.1]; norm_num)
  refine ⟨b, w', ?_⟩
  have hx : ∃ r, ∃ fuel, fitBoss2D cfg (wI, wO) k0 k1 fuel = some r := ⟨_, rounds, hr rounds le_rfl⟩
  unfold fitBoss
  rw [dif_pos hx]
  obtain ⟨fuel, hf⟩ := hx.choose_spec
  have e1 := fitBoss2D_more fuel rounds hf
  rw [hr (fuel + rounds) (by omega)] at e1
  exact (Option.some.inj e1).symm

/-! ### Where planes meet -/

theorem meets {a b c : Plane} {x : ℝ} (hx : b.normal.dot (c.normal.cross a.normal) = x) (h : 1e-6 ≤ |x|) :
    ∃ r, a.intersectPlanes b c = .ok r := by
  unfold Plane.intersectPlanes
  dsimp only
  rw [hx]
  have h0 : ¬ isZero x := by
    unfold isZero
    norm_num at h ⊢
    exact h
  rw [if_neg h0]
  unfold Vec.div
  rw [if_neg (ne_of_not_isZero h0)]
  exact ⟨_, rfl⟩

theorem alnumBossKeys_succeeds {ks : List Key} {pL pR pB pT : Plane} (h1 : ∃ r, pL.intersectPlanes pB pT = .ok r)
    (h2 : ∃ r, pR.intersectPlanes pB pT = .ok r) (hy : 1e-6 ≤ |pB.normal.y|) (hk : ∀ k ∈ ks, Upright k) :
    ∃ r, alnumBossKeys ks pL pR pB pT = .ok r := by
  obtain ⟨a, ha⟩ := h1
  obtain ⟨b, hb⟩ := h2
  unfold alnumBossKeys
  rw [ha, hb]
  dsimp only [bind, Except.bind]
  unfold Vec.div
  rw [if_neg (by norm_num)]
  dsimp only
  rw [make_unit (p := 0) (d := ⟨0, 1, 0⟩) (by simp [Vec.dot])]
  dsimp only
  have hd : ∃ ds, ks.zipIdx.mapM (fun ki : Key × ℕ => do
      let line ← Line.transformed ⟨0, ⟨0, 1, 0⟩⟩ ki.1.matrix
      let intersect ← pB.intersectLine line
      pure (((⟨(a + b).x / 2, (a + b).y / 2, (a + b).z / 2⟩ : Vec) - intersect).magSquared, ki.2)) = .ok ds ∧
      ∀ d ∈ ds, d.2 < ks.length := by
    obtain ⟨ds, hds⟩ := mapM_ok_of ks.zipIdx (f := fun ki : Key × ℕ => do
      let line ← Line.transformed ⟨0, ⟨0, 1, 0⟩⟩ ki.1.matrix
      let intersect ← pB.intersectLine line
      pure (((⟨(a + b).x / 2, (a + b).y / 2, (a + b).z / 2⟩ : Vec) - intersect).magSquared, ki.2)) (by
        rintro ⟨k, i⟩ hki
        have hmem : k ∈ ks := by
          obtain ⟨-, -, h⟩ := List.mem_zipIdx hki
          rw [h]; exact List.getElem_mem _
        dsimp only
        rw [(hk k hmem).axis]
        have h0 : ¬ isZero (pB.normal.dot ⟨0, 1, 0⟩) := by
          unfold isZero
          simp only [Vec.dot, mul_zero, mul_one, zero_add, add_zero]
          norm_num at hy ⊢
          exact hy
        dsimp only [bind, Except.bind]
        unfold Plane.intersectLine
        dsimp only
        rw [if_neg h0]
        unfold pyDiv
        rw [if_neg (ne_of_not_isZero h0)]
        exact ⟨_, rfl⟩)
    refine ⟨ds, hds, fun d hdm => ?_⟩
    have hF := mapM_ok hds
    obtain ⟨n, hn, rfl⟩ := List.mem_iff_getElem.mp hdm
    have hlen := hF.length_eq
    have hq := List.Forall₂.get hF (i := n) (by omega) hn
    rw [List.get_eq_getElem, List.get_eq_getElem] at hq
    obtain ⟨_, -, hq⟩ := bind_ok hq
    obtain ⟨_, -, hq⟩ := bind_ok hq
    have e2 := congrArg Prod.snd (Except.ok.inj hq)
    have e3 : (ds[n]).2 = n := by
      rw [show (ds[n]).2 = (ds.get ⟨n, hn⟩).2 from rfl]
      refine e2.symm.trans ?_
      simp
    rw [e3]
    simp at hlen
    omega
  obtain ⟨ds, hds, hlt⟩ := hd
  dsimp only [bind, Except.bind] at hds
  rw [hds]
  dsimp only
  refine mapM_ok_of _ fun d hdm => ?_
  have : d ∈ ds := (List.mergeSort_perm ds _).subset (List.mem_of_mem_take hdm)
  unfold pyGet
  rw [List.getElem?_eq_getElem (hlt d this)]
  exact ⟨_, rfl⟩

theorem pyIndex_pair {α : Type} {l : List α} (h : 2 ≤ l.length) :
    (∃ x ∈ l, pyIndex l 0 = .ok x) ∧ (∃ x ∈ l, pyIndex l 1 = .ok x) ∧ (∃ x ∈ l, pyIndex l (-1) = .ok x) ∧
      ∃ x ∈ l, pyIndex l (-2) = .ok x := by
  have hp : ∀ i : ℤ, (∃ x, pyIndex l i = .ok x) → ∃ x ∈ l, pyIndex l i = .ok x := fun i ⟨x, hx⟩ => ⟨x, pyIndex_mem hx, hx⟩
  have hg : ∀ n : ℕ, n < l.length → ∃ x, pyGet l n = .ok x := fun n hn => by
    unfold pyGet
    rw [List.getElem?_eq_getElem hn]
    exact ⟨_, rfl⟩
  refine ⟨hp _ ?_, hp _ ?_, hp _ ?_, hp _ ?_⟩ <;> unfold pyIndex
  · rw [if_pos (by norm_num)]; exact hg _ (by simp; omega)
  · rw [if_pos (by norm_num)]; exact hg _ (by simp; omega)
  · rw [if_neg (by norm_num), if_pos (by omega)]; exact hg _ (by omega)
  · rw [if_neg (by norm_num), if_pos (by omega)]; exact hg _ (by omega)

/-- Keys between which a boss can be placed. -/
def Pair (ks : List Key) : Prop := 2 ≤ ks.length ∧ ∀ k ∈ ks, Upright k ∧ Full k

theorem fitBosses_succeeds {cfg : BossFit} {l : Layout} {t : TentPlanes} {side : Side} {wB wF : Line × Line}
    (hd : -1 < cfg.diameter) (hB : WallPair wB) (hF : WallPair wF) (xB : 1e-6 ≤ wB.2.dir.x ^ 2) (xB' : 1e-6 ≤ |wB.2.dir.x|)
    (xF : 1e-6 ≤ wF.2.dir.x ^ 2)
    (uX : UnitPlane t.pivotOF) (uT : UnitPlane t.alnumOT)
    (h1 : ∀ p : Plane, p.normal = ⟨-wB.2.dir.y, wB.2.dir.x, 0⟩ → ∃ r, Plane.intersectPlanes ⟨⟨0, 0, 0⟩, ⟨1, 0, 0⟩⟩ p t.alnumOT = .ok r)
    (h2 : ∀ p : Plane, p.normal = ⟨-wB.2.dir.y, wB.2.dir.x, 0⟩ → ∃ r, t.pivotOF.intersectPlanes p t.alnumOT = .ok r)
    (hA : ∃ ks, l.perAlnumCol 0 (some side) = .ok ks ∧ Pair ks) (hPB : ∃ ks, l.perPinkyCol 0 (some side) = .ok ks ∧ Pair ks)
    (hPF : ∃ ks, l.perPinkyCol (-1) (some side) = .ok ks ∧ Pair ks) (hT : Pair (l.thumb (some side))) :
    ∃ r, fitBosses cfg l t side wB wF = .ok r := by
  obtain ⟨ka, ea, pa⟩ := hA
  obtain ⟨kb, eb, pb⟩ := hPB
  obtain ⟨kf, ef, pf⟩ := hPF
  obtain ⟨bk, hbk⟩ := alnumBossKeys_succeeds (ks := ka) (pB := ⟨wB.2.pos, ⟨-wB.2.dir.y, wB.2.dir.x, 0⟩⟩) (h1 _ rfl) (h2 _ rfl) xB'
    fun k hk => (pa.2 k hk).1
  have pbk : Pair bk := by
    obtain ⟨_, _, _, rest, -, -, -, hperm, hlen, -⟩ := C55_boss_keys (by simp [Vec.dot]) uX (planar_normal hB.2.1) uT hbk
    refine ⟨by rw [hlen]; have := pa.1; omega, fun k hk => pa.2 k (hperm.mem_iff.mpr (by simp [hk]))⟩
  obtain ⟨⟨a0, ma0, ha0⟩, ⟨a1, ma1, ha1⟩, -⟩ := pyIndex_pair pbk.1
  obtain ⟨-, -, ⟨b0, mb0, hb0⟩, ⟨b1, mb1, hb1⟩⟩ := pyIndex_pair pb.1
  obtain ⟨-, -, ⟨f0, mf0, hf0⟩, ⟨f1, mf1, hf1⟩⟩ := pyIndex_pair pf.1
  obtain ⟨⟨t0, mt0, ht0⟩, ⟨t1, mt1, ht1⟩, -⟩ := pyIndex_pair hT.1
  have fit : ∀ {ks : List Key} {w : Line × Line} {k0 k1 : Key}, Pair ks → k0 ∈ ks → k1 ∈ ks → WallPair w → 1e-6 ≤ w.2.dir.x ^ 2 →
      ∃ b w', fitBoss cfg w k0 k1 = .ok (b, w') ∧ WallPair w' ∧ 1e-6 ≤ w'.2.dir.x ^ 2 := by
    intro ks w k0 k1 hp m0 m1 hw hx
    obtain ⟨b, w', h⟩ := fitBoss_succeeds hw hd (hp.2 k0 m0).1 (hp.2 k1 m1).1 (hp.2 k0 m0).2 (hp.2 k1 m1).2 hx
    have hpu := fitBoss_pushed hw h
    refine ⟨b, w', h, hpu.wallPair hw, ?_⟩
    obtain ⟨c, -, -, e⟩ := hpu
    rw [e]; exact hx
  obtain ⟨q1, w1, g1, p1, x1⟩ := fit pbk ma0 ma1 hB xB
  obtain ⟨q2, w2, g2, p2, x2⟩ := fit pb mb0 mb1 p1 x1
  obtain ⟨q3, w3, g3, p3, x3⟩ := fit pbk ma0 ma1 p2 x2
  obtain ⟨q4, w4, g4, p4, x4⟩ := fit hT mt0 mt1 hF xF
  obtain ⟨q5, w5, g5, p5, x5⟩ := fit pf mf0 mf1 p4 x4
  obtain ⟨q6, w6, g6, p6, x6⟩ := fit hT mt0 mt1 p5 x5
  unfold fitBosses
  rw [eb, ef, ea]
  dsimp only [bind, Except.bind]
  rw [Plane.fromX_eq]
  dsimp only
  rw [Plane.fromLine2D_eq hB.2.1]
  dsimp only
  rw [hbk]
  dsimp only
  rw [ha0]
  dsimp only
  rw [ha1]
  dsimp only
  rw [g1]
  dsimp only
  rw [hb0]
  dsimp only
  rw [hb1]
  dsimp only
  rw [g2]
  dsimp only
  rw [g3]
  dsimp only
  rw [ht0]
  dsimp only
  rw [ht1]
  dsimp only
  rw [g4]
  dsimp only
  rw [hf0]
  dsimp only
  rw [hf1]
  dsimp only
  rw [g5]
  dsimp only
  rw [g6]
  exact ⟨_, rfl⟩

end Chrumm.Part
