import Verif.Props.BodyFit
import Verif.Props.PlanMore
import Verif.Spec.Body
import Verif.Props.BossRoof

/-! C83: the body of a plan. -/

namespace Chrumm.Part
open Geo Geo.Spec Spec

theorem fullPlan_ok {cfg : KeyboardCfg} {side : Side} {fp : FullPlan} (h : FullPlan.make cfg side = .ok fp) :
    Plan.make cfg.plan side = .ok fp.plan ∧ Bosses.make cfg fp.plan = .ok fp.bosses ∧
      Hitch.make cfg fp.plan cfg.palm = .ok fp.hitch := by
  unfold FullPlan.make at h
  obtain ⟨p, h1, h⟩ := bind_ok h
  obtain ⟨b, h2, h⟩ := bind_ok h
  obtain ⟨t, h3, h⟩ := bind_ok h
  obtain rfl := Except.ok.inj h
  exact ⟨h1, h2, h3⟩

theorem body_keys {cfg : KeyboardCfg} {fp : FullPlan} {body : Body} (h : Body.make cfg fp = .ok body) :
    bodyKeys fp.plan = .ok body.keys := by
  unfold Body.make at h
  dsimp only at h
  obtain ⟨_, -, h⟩ := bind_ok h
  obtain ⟨keys, h0, h⟩ := bind_ok h
  obtain ⟨c, h1, h⟩ := bind_ok h
  obtain ⟨s, h2, h⟩ := bind_ok h
  obtain ⟨o, h3, h⟩ := bind_ok h
  obtain ⟨i, h4, h⟩ := bind_ok h
  obtain ⟨e, h5, h⟩ := bind_ok h
  obtain ⟨r, h6, h⟩ := bind_ok h
  obtain ⟨j, h7, h⟩ := bind_ok h
  obtain ⟨_, -, h⟩ := bind_ok h
  obtain rfl := Except.ok.inj h
  exact h0

/-- The keys of a plan all have the same shape. -/
theorem plan_factory {cfg : PlanCfg} {side : Side} {plan : Plan} (h : Plan.make cfg side = .ok plan) :
    ∃ f, KeyFactory.make cfg.switch cfg.body.roofThickness = .ok f ∧
      ∀ (g : Group) (s : Option Side), ∃ ks, g.keys plan.layout s = .ok ks ∧ ∀ k ∈ ks, k.factory = f := by
  obtain ⟨hm⟩ := make_made h
  obtain ⟨f, hf, hflat⟩ := hm.flat
  refine ⟨f, hf, fun g s => ⟨_, groupOf_ok hm.two s g, fun k hk => ?_⟩⟩
  rw [hm.groupOf] at hk
  obtain ⟨k0, hk0, rfl⟩ := List.mem_map.mp hk
  exact (hflat s g k0 hk0).factory

theorem roof_up {cfg : PlanCfg} {side : Side} {plan : Plan} (h : Plan.make cfg side = .ok plan) (g : Group) :
    UnitNormal (g.roofO plan) ∧ (g.roofO plan).normal.z = g.steepness cfg.body := by
  obtain ⟨_, _, u, _⟩ := C68_flush h g none
  refine ⟨u, ?_⟩
  rw [((C74_directions h).1 g).1]
  simp only [oriented, Group.steepness]
  ring

theorem roof_steep {cfg : KeyboardCfg} {side : Side} {plan : Plan} (h : Plan.make cfg.plan side = .ok plan) (hs : SaneBody cfg)
    (g : Group) : UnitNormal (g.roofO plan) ∧ NotTooSteep cfg.boss (g.roofO plan) := by
  obtain ⟨u, z⟩ := roof_up h g
  obtain ⟨s1, s2⟩ := hs.steep g
  have z : (g.roofO plan).normal.z = g.steepness cfg.body := z
  refine ⟨u, by rw [z]; exact s1, ?_⟩
  have e : (g.roofO plan).normal.x ^ 2 + (g.roofO plan).normal.y ^ 2 = 1 - g.steepness cfg.body ^ 2 := by
    rw [← z]
    have : _ + _ + _ = (1 : ℝ) := u
    linarith
  rw [e, z]
  exact s2

theorem bodyBoss_ok {cfg : KeyboardCfg} {pos d : Vec} {roof : Plane} {b : Boss} (h : bodyBoss cfg pos d roof = .ok b) :
    bossThread cfg.quality cfg.boss cfg.support pos ⟨1, 0, 0⟩ (some roof) = .ok (b.threadHole, b.threadTriangles) := by
  unfold bodyBoss Boss.make at h
  obtain ⟨w, -, h⟩ := bind_ok h
  obtain ⟨⟨c1, c2, c3⟩, -, h⟩ := bind_ok h
  obtain ⟨⟨t1, t2⟩, h3, h⟩ := bind_ok h
  obtain rfl := Except.ok.inj h
  exact h3

/-- The bosses of a body are closed by their threads. -/
theorem bosses_close {cfg : KeyboardCfg} {side : Side} {fp : FullPlan} (h : FullPlan.make cfg side = .ok fp) (hs : SaneBody cfg) :
    ∀ boss ∈ [fp.bosses.alnumB, fp.bosses.pinkyB, fp.bosses.pinkyF, fp.bosses.thumbF],
      Closes boss.threadTriangles (cycPairs boss.threadHole) := by
  obtain ⟨hp, hb, -⟩ := fullPlan_ok h
  unfold Bosses.make at hb
  obtain ⟨b1, k1, hb⟩ := bind_ok hb
  obtain ⟨b2, k2, hb⟩ := bind_ok hb
  obtain ⟨b3, k3, hb⟩ := bind_ok hb
  obtain ⟨b4, k4, hb⟩ := bind_ok hb
  have hb := Except.ok.inj hb
  have one : ∀ {pos d : Vec} (g : Group) {b : Boss}, bodyBoss cfg pos d (g.roofO fp.plan) = .ok b →
      Closes b.threadTriangles (cycPairs b.threadHole) := fun g b hb =>
    (C78_thread _ _ _ _ _ _ _ _ hs.quality hs.thread (by rintro _ ⟨⟩; exact roof_steep hp hs g) (bodyBoss_ok hb)).1
  rw [← hb]
  intro boss hm
  simp only [List.mem_cons, List.not_mem_nil, or_false] at hm
  rcases hm with rfl | rfl | rfl | rfl
  · exact one .alnum k1
  · exact one .pinky k2
  · exact one .pinky k3
  · exact one .thumb k4

/-- The holes of the keys of a body are closed. -/
theorem keys_close {cfg : KeyboardCfg} {side : Side} {fp : FullPlan} {body : Body} (h : FullPlan.make cfg side = .ok fp)
    (hb : Body.make cfg fp = .ok body) (hs : SaneBody cfg) :
    ∀ key ∈ body.keys.alnum ++ body.keys.pinky ++ body.keys.thumb,
      Closes key.triangles (cycPairs key.roofHoleO ++ cycPairs key.roofHoleI) := by
  obtain ⟨hp, -, -⟩ := fullPlan_ok h
  obtain ⟨f, hf, hk⟩ := plan_factory hp
  have hb := body_keys hb
  unfold bodyKeys at hb
  obtain ⟨al, k1, hb⟩ := bind_ok hb
  obtain ⟨pi, k2, hb⟩ := bind_ok hb
  have hb := Except.ok.inj hb
  rw [← hb]
  intro key hm
  have hkf : key.factory = f := by
    simp only [List.mem_append] at hm
    rcases hm with (hm | hm) | hm
    · obtain ⟨ks, e, hall⟩ := hk .alnum (some fp.plan.side)
      rw [show Group.keys _ _ Group.alnum = _ from k1] at e
      obtain rfl := Except.ok.inj e
      exact hall _ hm
    · obtain ⟨ks, e, hall⟩ := hk .pinky (some fp.plan.side)
      rw [show Group.keys _ _ Group.pinky = _ from k2] at e
      obtain rfl := Except.ok.inj e
      exact hall _ hm
    · obtain ⟨ks, e, hall⟩ := hk .thumb (some fp.plan.side)
      obtain rfl := Except.ok.inj e
      exact hall _ hm
  exact C77_key_closes cfg.switch cfg.body.roofThickness key hs.hole (by rw [hkf]; exact hf)

/-- **C83** The surface of each body that is made from a plan has no gap, if the dimensions are sensible: the pieces fit
together. With an encoder, the ridge has a width and leads to the back. With brackets, the front of the ridge leads to the
front, and the cable hole has no sides that are too short. -/
theorem C83_body {cfg : KeyboardCfg} {side : Side} {fp : FullPlan} {body : Body} (h : FullPlan.make cfg side = .ok fp)
    (hb : Body.make cfg fp = .ok body) (hs : SaneBody cfg)
    (he : ∀ ec ∈ cfg.encoder, 0 < (body.step.alnumOLF.y - fp.plan.points.ridgeORF.y) * fp.plan.points.ridgeORF.x)
    (hj : ∀ bc ∈ cfg.bracket, body.ridge.ilft.y < fp.plan.points.ridgeIRF.y ∧ body.step.alnumILF.y ≤ body.inner.alnumILBT.y ∧
      CableApart cfg bc (fp.plan.points.alnumOLB.y - fp.plan.points.alnumILB.y)) :
    Fit (body.faces ++ body.pieces) [] :=
  C83_fit hb (by linarith [hs.quality.angle]) hs.wall hs.corner (keys_close h hb hs) (bosses_close h hs)
    (fun ec hec => ⟨hs.encoder ec hec, he ec hec⟩) hj

/-- **C83** The mesh of such a body is watertight, if none of its pieces has a flaw. -/
theorem C83_watertight {cfg : KeyboardCfg} {side : Side} {fp : FullPlan} {body : Body} (h : FullPlan.make cfg side = .ok fp)
    (hb : Body.make cfg fp = .ok body) (hs : SaneBody cfg)
    (he : ∀ ec ∈ cfg.encoder, 0 < (body.step.alnumOLF.y - fp.plan.points.ridgeORF.y) * fp.plan.points.ridgeORF.x)
    (hj : ∀ bc ∈ cfg.bracket, body.ridge.ilft.y < fp.plan.points.ridgeIRF.y ∧ body.step.alnumILF.y ≤ body.inner.alnumILBT.y ∧
      CableApart cfg bc (fp.plan.points.alnumOLB.y - fp.plan.points.alnumILB.y))
    {tss : List (List (Tri Vec))} (hm : SoundMesh (body.faces ++ body.pieces) tss) : Watertight tss.flatten :=
  watertight_of_fit (C83_body h hb hs he hj) hm

end Chrumm.Part
