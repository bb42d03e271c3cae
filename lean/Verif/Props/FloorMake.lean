import Verif.Props.FloorFit

/-! C84: the floor of a plan. -/

namespace Chrumm.Part
open Geo Geo.Spec Spec Classical

theorem boss_head {q : Quality} {w o : ℝ} {cfg : BossCfg} {s : Option SupportCfg} {pos d : Vec} {wd : Option Vec} {rp : Option Plane}
    {b : Boss} (h : Boss.make q w o cfg s pos d wd rp = .ok b) (hq : SaneQuality q) (hc : SaneHead o cfg) :
    Closes b.headTriangles (cycPairs b.clearanceHole ++ cycPairs b.headHole) := by
  unfold Boss.make at h
  obtain ⟨_, -, h⟩ := bind_ok h
  obtain ⟨⟨c1, c2, c3⟩, h2, h⟩ := bind_ok h
  obtain ⟨⟨t1, t2⟩, -, h⟩ := bind_ok h
  obtain rfl := Except.ok.inj h
  exact (C78_head _ _ _ _ _ _ _ hq hc h2).1

theorem floor_heads {cfg : KeyboardCfg} {side : Side} {fp : FullPlan} {bs : List Boss} (h : FullPlan.make cfg side = .ok fp)
    (hb : floorBosses fp cfg.palm = .ok bs) (hq : SaneQuality cfg.quality) (hc : SaneHead cfg.floor.outerHeight cfg.boss) :
    ∀ b ∈ bs, Closes b.headTriangles (cycPairs b.clearanceHole ++ cycPairs b.headHole) := by
  obtain ⟨-, h1, h2⟩ := fullPlan_ok h
  unfold Bosses.make at h1
  obtain ⟨b1, k1, h1⟩ := bind_ok h1
  obtain ⟨b2, k2, h1⟩ := bind_ok h1
  obtain ⟨b3, k3, h1⟩ := bind_ok h1
  obtain ⟨b4, k4, h1⟩ := bind_ok h1
  have h1 := Except.ok.inj h1
  have four : ∀ b ∈ [fp.bosses.alnumB, fp.bosses.thumbF, fp.bosses.pinkyB, fp.bosses.pinkyF],
      Closes b.headTriangles (cycPairs b.clearanceHole ++ cycPairs b.headHole) := by
    rw [← h1]
    intro b hm
    simp only [List.mem_cons, List.not_mem_nil, or_false] at hm
    rcases hm with rfl | rfl | rfl | rfl
    · exact boss_head k1 hq hc
    · exact boss_head k4 hq hc
    · exact boss_head k2 hq hc
    · exact boss_head k3 hq hc
  cases hp : cfg.palm with
  | none =>
    rw [hp] at hb
    obtain rfl := Except.ok.inj hb
    exact four
  | some palm =>
    rw [hp] at hb h2
    unfold Hitch.make at h2
    obtain ⟨⟨olb, orb, olf, orf, pl, pr, o⟩, -, h2⟩ := bind_ok h2
    obtain ⟨bl, l1, h2⟩ := bind_ok h2
    obtain ⟨br, l2, h2⟩ := bind_ok h2
    have h2 := Except.ok.inj h2
    unfold floorBosses at hb
    rw [← h2] at hb
    obtain rfl := Except.ok.inj hb
    intro b hm
    change b ∈ [fp.bosses.alnumB, fp.bosses.thumbF, fp.bosses.pinkyB, fp.bosses.pinkyF] ++ [bl, br] at hm
    rcases List.mem_append.mp hm with hm | hm
    · exact four b hm
    · simp only [List.mem_cons, List.not_mem_nil, or_false] at hm
      rcases hm with rfl | rfl
      · exact boss_head l1 hq hc
      · exact boss_head l2 hq hc

theorem floor_bosses {cfg : KeyboardCfg} {fp : FullPlan} {body : Body} {floor : Floor} (h : Floor.make cfg fp body = .ok floor) :
    floorBosses fp cfg.palm = .ok floor.bosses := by
  unfold Floor.make at h
  dsimp only at h
  obtain ⟨sk, -, h⟩ := bind_ok h
  obtain ⟨j, -, h⟩ := bind_ok h
  obtain ⟨⟨hI, hO⟩, -, h⟩ := bind_ok h
  obtain ⟨bu, -, h⟩ := bind_ok h
  obtain ⟨bs, h5, h⟩ := bind_ok h
  obtain ⟨_, -, h⟩ := bind_ok h
  obtain ⟨_, -, h⟩ := bind_ok h
  obtain rfl := Except.ok.inj h
  exact h5

/-- **C84** The surface of each floor that is made from a plan and a body has no gap, if the screw heads and the bumpers have
sensible dimensions, the lip reaches the split plane, and the brackets meet the lip. -/
theorem C84_floor {cfg : KeyboardCfg} {side : Side} {fp : FullPlan} {body : Body} {floor : Floor}
    (h : FullPlan.make cfg side = .ok fp) (hf : Floor.make cfg fp body = .ok floor) (hs : SaneFloor cfg)
    (hp : SaneProfile floor.sketch cfg.bracket.isSome) (hb : ∀ k ∈ floor.joint.brackets, MeetsLip floor.sketch k.1 k.2) :
    Fit (floor.faces ++ floor.pieces) [] :=
  C84_fit hf hs.quality hp hb hs.bumper (floor_heads h (floor_bosses hf) hs.quality hs.head)

/-- **C84** The mesh of such a floor is watertight, if none of its pieces has a flaw. -/
theorem C84_watertight {cfg : KeyboardCfg} {side : Side} {fp : FullPlan} {body : Body} {floor : Floor}
    (h : FullPlan.make cfg side = .ok fp) (hf : Floor.make cfg fp body = .ok floor) (hs : SaneFloor cfg)
    (hp : SaneProfile floor.sketch cfg.bracket.isSome) (hb : ∀ k ∈ floor.joint.brackets, MeetsLip floor.sketch k.1 k.2)
    {tss : List (List (Tri Vec))} (hm : SoundMesh (floor.faces ++ floor.pieces) tss) : Watertight tss.flatten :=
  watertight_of_fit (C84_floor h hf hs hp hb) hm

end Chrumm.Part
