import Verif.Props.BracketTop
import Verif.Props.FloorMake
import Verif.Props.FloorShape

/-! C84: the floor brackets meet the lip exactly. -/

namespace Chrumm.Part
open Geo Geo.Spec Spec

/-- The split edge of a floor bracket ends exactly at the lip if the lip is not too thin, or if the bracket is wide enough to reach it by itself. -/
theorem floorForward_meets {q : Quality} {taper : Option ℝ} {cfg : BracketCfg} {a c d e : Vec} {x : ℝ} {n : Bool} {k : FloorBracket}
    (h : floorForward q taper cfg a c d e x n = .ok k) (hs : SaneFloorBracket q cfg a d) (he : e.z = d.z) (ex : e.x = 0)
    (hm : LipReached cfg a d e x) : k.splitEdge.headD 0 = e := by
  obtain ⟨hq, hd, hb', hn, hτ, hr, hgt, hh⟩ := hs
  unfold floorForward at h
  obtain ⟨⟨arch, z⟩, i1, h⟩ := bind_ok h
  dsimp only at h
  obtain ⟨hz, g, f, ig, ih, gx, gz, fx, fz, eg, ef⟩ := floorSketch_ok i1 hq hτ hr hgt hh
  obtain ⟨f', i2, h⟩ := bind_ok h
  obtain rfl : f = f' := Except.ok.inj (ih.symm.trans i2)
  obtain ⟨⟨ps, holeL, holeR⟩, i3, h⟩ := bind_ok h
  dsimp only at h
  obtain ⟨l1, i4, h⟩ := bind_ok h
  obtain ⟨l0, i5, h⟩ := bind_ok h
  obtain ⟨r0, i6, h⟩ := bind_ok h
  obtain rfl := Except.ok.inj h
  have il := pyIndex_last.mp ih
  have hl1 : l1 = f + (⟨0, floorCenterY cfg x d e f, z⟩ : Vec).xy := by
    have := pyIndex_last.mp i4
    unfold edgeTranslated at this
    rw [List.getLast?_map, il] at this
    exact (Option.some.inj this).symm
  dsimp only
  have hcase : l1 = e ∨ e.y + 1 / 1000000 ≤ l1.y := by
    have ly : l1.y = f.y + floorCenterY cfg x d e f := by rw [hl1]; rfl
    unfold floorCenterY at ly
    dsimp only at ly
    split_ifs at ly with hlt
    · rcases hm with hm | ⟨h1, h2⟩
      · right
        have := le_max_right (d.y + (max (cfg.counterboreDiameter / 2) cfg.nutRadius + cfg.wallMargin + x)) (e.y - f.y + d.y - e.y)
        linarith
      · exfalso
        rw [hz, fz] at ef
        have hlt' : -f.y < max (cfg.counterboreDiameter / 2) cfg.nutRadius + cfg.wallMargin + x := by linarith
        have := mul_lt_mul_of_pos_right hlt' hτ
        linarith
    · left
      ext
      · rw [hl1, ex]; simp [Vec.xy, fx]
      · linarith
      · rw [hl1, he, ← fz]; simp [Vec.xy]
  split_ifs with hcl
  · rcases hcase with hc | hc
    · have := pyIndex_last.mp i4
      rw [hc] at this
      rw [headD_reverse, List.getLastD_eq_getLast?, this]
      rfl
    · exfalso
      obtain ⟨-, h2, -⟩ := hcl
      unfold isZero at h2
      have := (abs_lt.mp h2).2
      linarith
  · rw [headD_reverse]
    simp

/-- C102: the split edge of a floor bracket reaches the given corner of the lip exactly, if the lip is not too thin. -/
theorem C102_meets {q : Quality} {taper : Option ℝ} {cfg : BracketCfg} {a b c d e : Vec} {n : Bool} {k : FloorBracket}
    (h : FloorBracket.make q taper cfg a b c d e n = .ok k) (hs : SaneFloorBracket q cfg a d) (he : e.z = d.z) :
    if b.y < a.y then LipReached cfg a.mirroredY d.mirroredY e.mirroredY 0 → k.splitEdge.getLastD 0 = e.yz
      else LipReached cfg a d e cfg.frontFloorExtraMargin → k.splitEdge.headD 0 = e.yz := by
  unfold FloorBracket.make at h
  dsimp only at h
  by_cases hab : b.y < a.y
  · rw [if_pos (by simpa only [Vec.yz] using hab)] at h
    rw [if_pos hab]
    intro hm
    obtain ⟨m, h1, h⟩ := bind_ok h
    obtain rfl := Except.ok.inj h
    have := floorForward_meets h1 ⟨hs.1, hs.2, hs.3, hs.4, hs.5, hs.6, hs.7, hs.8⟩ he (by simp [Vec.mirroredY, Vec.yz]) hm
    have ne := (floorForward_total h1).2.1
    simp only [FloorBracket.mirrored]
    rw [getLastD_reverse]
    cases hc : m.splitEdge with
    | nil => exact absurd hc ne
    | cons w ws =>
      rw [hc] at this
      have hw : w = e.yz.mirroredY := by simpa using this
      rw [hw]
      ext <;> simp [Vec.mirroredY]
  · rw [if_neg (by simpa only [Vec.yz] using hab)] at h
    rw [if_neg hab]
    intro hm
    exact floorForward_meets h ⟨hs.1, hs.2, hs.3, hs.4, hs.5, hs.6, hs.7, hs.8⟩ he rfl hm

/-- C84: the floor brackets meet the lip exactly if it is not too thin. -/
theorem C84_lip {cfg : KeyboardCfg} {fp : FullPlan} {body : Body} {floor : Floor} {bc : BracketCfg}
    (hb : Body.make cfg fp = .ok body) (hf : Floor.make cfg fp body = .ok floor) (hbr : cfg.bracket = some bc)
    (hs : SaneFloorBracket cfg.quality bc ⟨0, 0, -cfg.floor.outerHeight + cfg.floor.innerHeight⟩ ⟨0, 0, cfg.floor.lipHeight⟩)
    (hw : Backwards floor.sketch.p6)
    (hF : LipReached bc (floor.sketch.p6.headD 0) (floor.sketch.p4.headD 0) (floor.sketch.p3.headD 0) bc.frontFloorExtraMargin)
    (hB : LipReached bc (floor.sketch.p6.getLastD 0).mirroredY (floor.sketch.p4.getLastD 0).mirroredY (floor.sketch.p3.getLastD 0).mirroredY 0) :
    ∀ k ∈ floor.joint.brackets, MeetsLip floor.sketch k.1 k.2 := by
  obtain ⟨bi, bo⟩ : AtHeight 0 body.outlineI ∧ AtHeight 0 body.outlineO := by
    unfold Body.make at hb
    dsimp only at hb
    obtain ⟨_, -, hb⟩ := bind_ok hb
    obtain ⟨_, -, hb⟩ := bind_ok hb
    obtain ⟨_, -, hb⟩ := bind_ok hb
    obtain ⟨_, -, hb⟩ := bind_ok hb
    obtain ⟨_, -, hb⟩ := bind_ok hb
    obtain ⟨_, -, hb⟩ := bind_ok hb
    obtain ⟨_, -, hb⟩ := bind_ok hb
    obtain ⟨_, -, hb⟩ := bind_ok hb
    obtain ⟨_, -, hb⟩ := bind_ok hb
    obtain ⟨_, -, hb⟩ := bind_ok hb
    obtain rfl := Except.ok.inj hb
    exact ⟨atHeight_reverse collapsed_ground, collapsed_ground⟩
  unfold Floor.make at hf
  obtain ⟨p, h1, hf⟩ := bind_ok hf
  obtain ⟨j, h2, hf⟩ := bind_ok hf
  dsimp only at hf
  obtain ⟨⟨hi, ho⟩, -, hf⟩ := bind_ok hf
  dsimp only at hf
  obtain ⟨bumpers, -, hf⟩ := bind_ok hf
  obtain ⟨bosses, -, hf⟩ := bind_ok hf
  obtain ⟨q2, -, hf⟩ := bind_ok hf
  obtain ⟨q3, -, hf⟩ := bind_ok hf
  obtain rfl := Except.ok.inj hf
  clear hf
  have hh := (profile_heights bi bo h1).1
  rw [hbr] at h2
  unfold floorJoint at h2
  dsimp only at h2 hw hF hB ⊢
  obtain ⟨a0, i1, h2⟩ := bind_ok h2
  obtain ⟨a1, i2, h2⟩ := bind_ok h2
  obtain ⟨c0, -, h2⟩ := bind_ok h2
  obtain ⟨d0, i3, h2⟩ := bind_ok h2
  obtain ⟨e0, i4, h2⟩ := bind_ok h2
  obtain ⟨f, mf, h2⟩ := bind_ok h2
  obtain ⟨c1, -, h2⟩ := bind_ok h2
  obtain ⟨d1, i5, h2⟩ := bind_ok h2
  obtain ⟨e1, i6, h2⟩ := bind_ok h2
  obtain ⟨b, mb, h2⟩ := bind_ok h2
  obtain ⟨u, -, h2⟩ := bind_ok h2
  obtain ⟨f1, -, h2⟩ := bind_ok h2
  obtain ⟨b1, -, h2⟩ := bind_ok h2
  obtain ⟨p6, -, h2⟩ := bind_ok h2
  obtain ⟨f2, -, h2⟩ := bind_ok h2
  obtain ⟨b2, -, h2⟩ := bind_ok h2
  obtain ⟨p5, -, h2⟩ := bind_ok h2
  obtain ⟨f3, -, h2⟩ := bind_ok h2
  obtain ⟨b3, -, h2⟩ := bind_ok h2
  obtain ⟨p4, -, h2⟩ := bind_ok h2
  obtain ⟨f4, -, h2⟩ := bind_ok h2
  obtain ⟨b4, -, h2⟩ := bind_ok h2
  obtain ⟨p3, -, h2⟩ := bind_ok h2
  obtain ⟨st, -, h2⟩ := bind_ok h2
  obtain ⟨en, -, h2⟩ := bind_ok h2
  obtain rfl := Except.ok.inj h2
  clear h2
  dsimp only
  rintro k ⟨⟩
  have z1 := hh.h6 _ (List.mem_of_getElem? (pyIndex_zero.mp i1))
  have z2 := hh.h6 _ (List.mem_of_getLast? (pyIndex_last.mp i2))
  have z3 := hh.h4 _ (List.mem_of_getElem? (pyIndex_zero.mp i3))
  have z4 := hh.h3 _ (List.mem_of_getElem? (pyIndex_zero.mp i4))
  have z5 := hh.h4 _ (List.mem_of_getLast? (pyIndex_last.mp i5))
  have z6 := hh.h3 _ (List.mem_of_getLast? (pyIndex_last.mp i6))
  have e1' := (index_zero i1).2
  have e2' := (index_last i2).2
  have e3' := (index_zero i3).2
  have e4' := (index_zero i4).2
  have e5' := (index_last i5).2
  have e6' := (index_last i6).2
  unfold Backwards at hw
  rw [← e1', ← e2'] at hw
  rw [← e1', ← e3', ← e4'] at hF
  rw [← e2', ← e5', ← e6'] at hB
  unfold MeetsLip
  rw [← e4', ← e6']
  have lip := hs.lip
  dsimp only at lip
  have kf := C102_meets mf ⟨hs.1, hs.2, hs.3, hs.4, hs.5, hs.6, by rw [z1, z3]; exact lip, hs.8⟩ (by rw [z3, z4])
  have kb := C102_meets mb ⟨hs.1, hs.2, hs.3, hs.4, hs.5, hs.6, by rw [z2, z5]; exact lip, hs.8⟩ (by rw [z5, z6])
  rw [if_neg (by linarith)] at kf
  rw [if_pos (by linarith)] at kb
  exact ⟨kf hF, kb hB⟩

/-- **C84** The triangles of a floor with brackets fit together if its lip is not too thin. -/
theorem C84_brackets {cfg : KeyboardCfg} {side : Side} {fp : FullPlan} {body : Body} {floor : Floor} {bc : BracketCfg}
    (h : FullPlan.make cfg side = .ok fp) (hb : Body.make cfg fp = .ok body) (hf : Floor.make cfg fp body = .ok floor) (hbr : cfg.bracket = some bc)
    (hs : SaneFloor cfg) (hk : SaneFloorBracket cfg.quality bc ⟨0, 0, -cfg.floor.outerHeight + cfg.floor.innerHeight⟩ ⟨0, 0, cfg.floor.lipHeight⟩)
    (hp : SaneProfile floor.sketch True)
    (hF : LipReached bc (floor.sketch.p6.headD 0) (floor.sketch.p4.headD 0) (floor.sketch.p3.headD 0) bc.frontFloorExtraMargin)
    (hB : LipReached bc (floor.sketch.p6.getLastD 0).mirroredY (floor.sketch.p4.getLastD 0).mirroredY (floor.sketch.p3.getLastD 0).mirroredY 0) :
    Fit (floor.faces ++ floor.pieces) [] :=
  C84_floor h hf hs ⟨hp.first, hp.last, fun _ => hp.outer trivial, fun _ => hp.inner trivial, fun _ => hp.chamfer trivial⟩
    (C84_lip hb hf hbr hk (hp.chamfer trivial) hF hB)

end Chrumm.Part
