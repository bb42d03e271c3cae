import Verif.Props.Cable
import Verif.Props.Arc

/-! C80, C81: where the edges of the encoder and the cable hole meet. -/

namespace Chrumm.Part
open Geo Geo.Spec Spec Classical

theorem headD_of_head? {l : List Vec} {x : Vec} (h : l.head? = some x) : l ≠ [] ∧ l.headD 0 = x := by
  cases l with
  | nil => simp at h
  | cons a l => exact ⟨by simp, Option.some.inj h⟩

theorem getLastD_of_getLast? {l : List Vec} {x : Vec} (h : l.getLast? = some x) : l ≠ [] ∧ l.getLastD 0 = x := by
  have hl : l ≠ [] := by rintro rfl; simp at h
  refine ⟨hl, ?_⟩
  rw [getLastD_eq hl]
  rw [List.getLast?_eq_some_getLast hl] at h
  exact Option.some.inj h

/-- A half hole starts and ends on the x axis. -/
theorem halfHole_ends {q : Quality} {taper : Option ℝ} {r : ℝ} {hole : List Vec} (hq : 0 < q.maxChordAngle)
    (h : uprightHalfHole2D q taper r = .ok hole) : (hole.headD 0).y = 0 ∧ (hole.getLastD 0).y = 0 := by
  have hpi := Real.pi_pos
  have htau : tau = 2 * Real.pi := rfl
  have round : ∀ {hole}, arc2D q r 0 Real.pi 0 = .ok hole → (hole.headD 0).y = 0 ∧ (hole.getLastD 0).y = 0 := by
    intro hole h
    by_cases hr : r < 1 / 1000000
    · unfold arc2D at h
      rw [if_pos hr] at h
      obtain rfl := Except.ok.inj h
      exact ⟨rfl, rfl⟩
    · obtain ⟨h1, h2⟩ := C53_ends (not_lt.mp hr) hq h
      obtain ⟨-, h2⟩ := h2 (by rw [abs_of_pos hpi, htau]; linarith [Real.two_le_pi])
      rw [(headD_of_head? h1).2, (getLastD_of_getLast? h2).2]
      simp [circlePoint]
  have eighth : ∀ {hole}, arc2D q r 0 (tau / 8) 0 = .ok hole → hole ≠ [] ∧ (hole.headD 0).y = 0 := by
    intro hole h
    by_cases hr : r < 1 / 1000000
    · unfold arc2D at h
      rw [if_pos hr] at h
      obtain rfl := Except.ok.inj h
      exact ⟨by simp, rfl⟩
    · obtain ⟨h1, -⟩ := C53_ends (not_lt.mp hr) hq h
      refine ⟨(headD_of_head? h1).1, ?_⟩
      rw [(headD_of_head? h1).2]
      simp [circlePoint]
  unfold uprightHalfHole2D at h
  cases taper with
  | none => exact round h
  | some angle =>
    dsimp only at h
    split_ifs at h
    · obtain ⟨arc, h1, h⟩ := bind_ok h
      obtain ⟨t, -, h⟩ := bind_ok h
      obtain rfl := Except.ok.inj h
      obtain ⟨h2, h3⟩ := eighth h1
      have hne : arc ++ [⟨t, r, 0⟩] ≠ [] := by simp
      rw [headD_append hne, headD_append h2, getLastD_append (by simp), getLastD_reverse, headD_map _ hne, headD_append h2]
      exact ⟨h3, h3⟩
    · exact round h

/-- **C80** The four edges that an encoder leaves meet at their ends. In a half whose roof is not inclined sideways at the
split plane, the two split edges are on the split plane. -/
theorem C80_edges {q : Quality} {taper : Option ℝ} {cfg : EncoderCfg} {roofO roofI : Plane} {e : Encoder}
    (hq : 0 < q.maxChordAngle) (hc : SaneEncoder cfg) (hn : Upwards roofO.normal)
    (h : Encoder.make q taper cfg roofO roofI = .ok e) :
    e.splitEdgeF ≠ [] ∧ e.splitEdgeB ≠ [] ∧ e.roofEdgeI ≠ [] ∧ e.roofEdgeO ≠ [] ∧
    e.splitEdgeF.getLastD 0 = e.roofEdgeI.headD 0 ∧ e.roofEdgeI.getLastD 0 = e.splitEdgeB.headD 0 ∧
    e.splitEdgeB.getLastD 0 = e.roofEdgeO.headD 0 ∧ e.roofEdgeO.getLastD 0 = e.splitEdgeF.headD 0 ∧
    (roofO.pos.x = 0 → roofO.normal.x = 0 → (∀ p ∈ e.splitEdgeF, p.x = 0) ∧ ∀ p ∈ e.splitEdgeB, p.x = 0) := by
  obtain ⟨m, hm, hole, hh, ratio, κ, ⟨hne, -⟩, rfl⟩ := encoder_data h hn
  obtain ⟨hap, hne05⟩ := encoder_box κ hc hn hm
  obtain ⟨-, -, hx⟩ := align_up roofO.pos hn hm
  obtain ⟨y0, y1⟩ := halfHole_ends hq hh
  set f : Vec → Vec := fun p => p.transformed (m.translated roofO.pos) with hf
  obtain ⟨c1, c2, c3, -⟩ := along_collapsed (g := fun (_ _ : Vec) => (0 : ℤ)) ⟨fun _ _ => by simp, fun _ => rfl⟩ hap (by simp) hne05
  have arc_ne : (hole.map fun p => (⟨p.y, p.x, 0⟩ : Vec)) ≠ [] := by simpa using hne
  have a0 : ((hole.map fun p => (⟨p.y, p.x, 0⟩ : Vec)).headD 0).x = 0 := by rw [headD_map _ hne]; exact y0
  have a1 : ((hole.map fun p => (⟨p.y, p.x, 0⟩ : Vec)).getLastD 0).x = 0 := by rw [getLastD_map _ hne]; exact y1
  generalize (hole.map fun p => (⟨p.y, p.x, 0⟩ : Vec)) = arc at arc_ne a0 a1
  have nS : edgeScaled arc (1 + ratio) ≠ [] := by simpa [edgeScaled] using arc_ne
  have nC := translated_ne ⟨0, 0, -cfg.holeChamfer⟩ arc_ne
  have nG := translated_ne ⟨0, 0, -cfg.holeHeight⟩ arc_ne
  refine ⟨by simp, by simp, by simpa using c1, by simpa using nS, ?_, ?_, rfl, rfl, ?_⟩
  · rw [headD_reverse, c3]; rfl
  · rw [getLastD_reverse, c2]; rfl
  · intro p0 n0
    have hx' : ∀ p : Vec, (f p).x = p.x := by intro p; rw [hf]; simp only; rw [hx n0, p0, add_zero]
    have s0 : ((edgeScaled arc (1 + ratio)).headD 0).x = 0 := by
      unfold edgeScaled; rw [headD_map _ arc_ne, Vec.add_x, Vec.mul_x, Vec.sub_x, a0]; simp
    have s1 : ((edgeScaled arc (1 + ratio)).getLastD 0).x = 0 := by
      unfold edgeScaled; rw [getLastD_map _ arc_ne, Vec.add_x, Vec.mul_x, Vec.sub_x, a1]; simp
    have t0 : ∀ z : ℝ, ((edgeTranslated arc ⟨0, 0, z⟩).headD 0).x = 0 := by
      intro z; rw [translated_head _ arc_ne, Vec.add_x, a0, zero_add]
    have t1 : ∀ z : ℝ, ((edgeTranslated arc ⟨0, 0, z⟩).getLastD 0).x = 0 := by
      intro z; rw [translated_last _ arc_ne, Vec.add_x, a1, zero_add]
    constructor
    · intro p hp
      simp only [List.mem_cons, List.not_mem_nil, or_false] at hp
      rcases hp with rfl | rfl | rfl | rfl | rfl
      · rw [getLastD_map _ nS, hx', s1]
      · rw [getLastD_map _ nC, hx', t1]
      · rw [getLastD_map _ nG, hx', t1]
      · exact hx' _
      · rw [Vec.add_x, Vec.mul_x, n0, zero_mul, add_zero]; exact hx' _
    · intro p hp
      simp only [List.mem_cons, List.not_mem_nil, or_false] at hp
      rcases hp with rfl | rfl | rfl | rfl | rfl
      · rw [Vec.add_x, Vec.mul_x, n0, zero_mul, add_zero]; exact hx' _
      · exact hx' _
      · rw [headD_map _ nG, hx', t0]
      · rw [headD_map _ nC, hx', t0]
      · rw [headD_map _ nS, hx', s0]

theorem getLastD_headD_map (L : List (List Vec)) (a : List Vec) (f : List Vec → Vec) :
    ((a :: L).map f).getLastD 0 = f ((a :: L).getLastD []) := by
  rw [List.getLastD_eq_getLast?, List.getLastD_eq_getLast?, List.getLast?_map, List.getLast?_eq_some_getLast (List.cons_ne_nil a L)]
  rfl

theorem mapM_mem {α β : Type} {f : α → Py β} {xs : List α} {ys : List β} (h : xs.mapM f = .ok ys) {y : β} (hy : y ∈ ys) :
    ∃ x ∈ xs, f x = .ok y := by
  have := mapM_ok h
  clear h
  induction this with
  | nil => cases hy
  | cons h1 _ ih =>
    rcases List.mem_cons.mp hy with rfl | hy
    · exact ⟨_, List.mem_cons_self, h1⟩
    · obtain ⟨a, ha, hb⟩ := ih hy
      exact ⟨a, List.mem_cons_of_mem _ ha, hb⟩

/-- **C81** If its position is on the split plane, then the upper split edge of a cable hole is there. -/
theorem C81_split {q : Quality} {taper : Option ℝ} {cfg : CableCfg} {w t : ℝ} {pos : Vec} {c : Cable}
    (hq : 0 < q.maxChordAngle) (h : Cable.make q taper cfg w pos t = .ok c) (p0 : pos.x = 0) :
    ∀ p ∈ c.splitEdgeT, p.x = 0 := by
  unfold Cable.make at h
  dsimp only at h
  obtain ⟨filletXY, -, h⟩ := bind_ok h
  obtain ⟨holeXY, hh, h⟩ := bind_ok h
  obtain ⟨Hs, hHs, h⟩ := bind_ok h
  obtain ⟨⟨bendXY, taperXY⟩, -, h⟩ := bind_ok h
  dsimp only at h
  obtain ⟨h1, -, h⟩ := bind_ok h
  obtain ⟨b0, -, h⟩ := bind_ok h
  obtain ⟨c0, -, h⟩ := bind_ok h
  obtain ⟨lastArc, -, h⟩ := bind_ok h
  obtain ⟨lastPoint, -, h⟩ := bind_ok h
  obtain ⟨G, -, h⟩ := bind_ok h
  obtain ⟨gEnd, -, h⟩ := bind_ok h
  obtain ⟨t0, -, h⟩ := bind_ok h
  obtain ⟨B, -, h⟩ := bind_ok h
  obtain ⟨bump0, -, h⟩ := bind_ok h
  obtain ⟨bump1, -, h⟩ := bind_ok h
  obtain ⟨taper1, -, h⟩ := bind_ok h
  obtain ⟨T, i13, h⟩ := bind_ok h
  obtain ⟨lasts, -, h⟩ := bind_ok h
  obtain ⟨lastHole, -, h⟩ := bind_ok h
  obtain rfl := Except.ok.inj h
  dsimp only
  obtain ⟨y0, -⟩ := halfHole_ends hq hh
  intro p hp
  obtain ⟨arc, harc, hidx⟩ := mapM_mem i13 hp
  obtain ⟨hne, rfl⟩ := index_zero hidx
  rw [List.mem_reverse] at harc
  rcases List.mem_cons.mp harc with rfl | harc
  · have hn : holeXY ≠ [] := by rintro rfl; exact hne rfl
    rw [translated_head _ (by simpa using hn), headD_map _ hn]
    simp only [Vec.add_x, y0, p0, zero_add, add_zero]
  · obtain ⟨x, -, hx⟩ := mapM_mem hHs harc
    obtain ⟨r, -, hx⟩ := bind_ok hx
    obtain rfl := Except.ok.inj hx
    have hn : holeXY ≠ [] := by rintro rfl; exact hne rfl
    have hn' : holeXY.map (fun p => (⟨p.y, 0, p.x⟩ : Vec)) ≠ [] := by simpa using hn
    rw [translated_head _ (by simpa [edgeScaled] using hn)]
    unfold edgeScaled
    rw [headD_map _ hn', headD_map _ hn]
    simp only [Vec.add_x, Vec.mul_x, Vec.sub_x, y0, p0, Vec.zero_x, sub_zero, zero_add, add_zero, zero_mul]

/-- **C81** The four edges that a cable hole leaves meet at their ends. -/
theorem C81_edges {q : Quality} {taper : Option ℝ} {cfg : CableCfg} {w t : ℝ} {pos : Vec} {c : Cable}
    (h : Cable.make q taper cfg w pos t = .ok c) (hap : Apart c.splitEdgeRaw)
    (hends : c.splitEdgeRaw.getLastD 0 ≠ c.splitEdgeRaw.headD 0) :
    c.wallEdgeF ≠ [] ∧ c.wallEdgeB ≠ [] ∧ c.splitEdgeG ≠ [] ∧ c.splitEdgeT ≠ [] ∧
    c.splitEdgeT.getLastD 0 = c.wallEdgeF.headD 0 ∧ c.wallEdgeF.getLastD 0 = c.splitEdgeG.headD 0 ∧
    c.splitEdgeG.getLastD 0 = c.wallEdgeB.headD 0 ∧ c.wallEdgeB.getLastD 0 = c.splitEdgeT.headD 0 := by
  obtain ⟨H, Hs, G, Gs, R, L, M, neH, neR, neL, neM, neG, hfirst, hLG, hne, rfl⟩ := cable_data h
  have hraw : L.reverse ++ G.reverse ++ (H :: Hs).map (fun l => l.getLastD 0) ≠ [] := by simp
  obtain ⟨c1, c2, c3, -⟩ := along_collapsed (g := fun (_ _ : Vec) => (0 : ℤ)) ⟨fun _ _ => by simp, fun _ => rfl⟩ hap hraw hends
  dsimp only
  have nHT : H.take (H.length / 2 + 1) ≠ [] := by
    cases H with
    | nil => exact absurd rfl neH
    | cons a l => simp
  have nL : (H :: Hs).getLastD [] ≠ [] := by
    apply hne
    rw [List.getLastD_eq_getLast?, List.getLast?_eq_some_getLast (List.cons_ne_nil H Hs)]
    exact List.getLast_mem _
  have hH : (H.take (H.length / 2 + 1)).headD 0 = H.headD 0 := by
    cases H with
    | nil => exact absurd rfl neH
    | cons a l => rfl
  have neLr : L.reverse ≠ [] := by simpa using neL
  have neGr : G.reverse ≠ [] := by simpa using neG
  refine ⟨by simp, by simpa using nL, c1, by simp, ?_, ?_, ?_, ?_⟩
  · rw [headD_append nHT, hH, List.map_reverse, getLastD_reverse]
    rfl
  · rw [c2, headD_append (by simp [neL]), headD_append neLr, headD_reverse, getLastD_append (by simp)]
    rfl
  · rw [c3, getLastD_append (by simp), getLastD_headD_map, headD_reverse]
  · rw [getLastD_reverse, List.map_reverse, headD_reverse, getLastD_headD_map]

end Chrumm.Part
