import Verif.Props.KeyMesh
import Verif.Props.Rings
import Verif.Spec.Key

/-! C94: the cutout of a key has the configured dimensions. -/

namespace Chrumm.Part
open Geo Geo.Spec Spec Classical

theorem mem_keepNe {p z : Vec} : ∀ {l : List Vec}, p ∈ l → p ∈ keepNe z l ∨ p = z
  | [], h => by cases h
  | [x], h => by
    simp only [List.mem_singleton] at h
    subst h
    unfold keepNe
    split_ifs with e
    · exact .inr e
    · simp
  | x :: y :: l, h => by
    unfold keepNe
    rcases List.mem_cons.mp h with rfl | h
    · split_ifs with e
      · subst e; exact mem_keepNe (by simp)
      · simp
    · rcases mem_keepNe (z := z) h with h | h
      · split_ifs with e
        · exact .inl h
        · exact .inl (List.mem_cons_of_mem _ h)
      · exact .inr h

/-- If neighbouring points are equal or far apart, then collapsing drops only duplicates. -/
theorem mem_collapsed {e : List Vec} {d : ℝ} (hd : 0 < d)
    (h : ∀ s ∈ cycPairs e, s.1 = s.2 ∨ d ≤ Real.sqrt (distSq s.1 s.2)) (he : e ≠ []) (hne : e.getLast he ≠ e.head he)
    (p : Vec) : p ∈ collapsed e d ↔ p ∈ e := by
  constructor
  · exact fun hp => (C35_subsequence e d).1.subset hp
  · intro hp
    obtain ⟨hk, e1, -, -⟩ := collapsed_path (g := fun _ _ => (0 : ℤ)) ⟨fun _ _ => by simp, fun _ => rfl⟩ hd h he hne
    have e2 := collapsed_eq_keepNe hd h he
    rcases mem_keepNe (z := e.head he) hp with h1 | h1
    · rw [e2]; exact h1
    · rw [h1, ← e1]; exact List.head_mem _

/-- Reordering a disjunction of eight. -/
theorem or_pick {a b c d e f g h : Prop} {p : Prop} (ha : a → p) (hb : b → p) (hc : c → p) (hd : d → p) (he : e → p) (hf : f → p)
    (hg : g → p) (hh : h → p) : a ∨ b ∨ c ∨ d ∨ e ∨ f ∨ g ∨ h → p := by
  rintro (x | x | x | x | x | x | x | x)
  exacts [ha x, hb x, hc x, hd x, he x, hf x, hg x, hh x]

macro "reorder" : tactic => `(tactic| (simp only [or_assoc]; constructor <;> apply or_pick <;> intro h <;>
    first
    | exact .inl h | exact .inr (.inl h) | exact .inr (.inr (.inl h)) | exact .inr (.inr (.inr (.inl h)))
    | exact .inr (.inr (.inr (.inr (.inl h)))) | exact .inr (.inr (.inr (.inr (.inr (.inl h)))))
    | exact .inr (.inr (.inr (.inr (.inr (.inr (.inl h)))))) | exact .inr (.inr (.inr (.inr (.inr (.inr (.inr h))))))))

theorem or_halves {a b c d e f : Prop} : ((a ∨ b) ∨ e) ∨ (c ∨ d) ∨ f ↔ ((a ∨ b) ∨ c ∨ d) ∨ (e ∨ f) := by tauto

/-- A quarter turn. -/
theorem quarterTurn_eq (v : Vec) : v.transformed ((1 : Mat).rotatedZ (2 * Real.pi / 4)) = ⟨-v.y, v.x, v.z⟩ := by
  have h : 2 * Real.pi / 4 = Real.pi / 2 := by ring
  ext <;> simp [Vec.transformed, Mat.rotatedZ, Mat.rotateBy, Mat.one_def, Mat.mul_def, h, Real.cos_pi_div_two, Real.sin_pi_div_two]

theorem corner_turn {w d z : ℝ} {q : Vec} : Corner d w z q ↔ Corner w d z ⟨-q.y, q.x, q.z⟩ := by
  unfold Corner
  dsimp only
  constructor
  · rintro ⟨h1, h2, h3⟩
    exact ⟨by rcases h2 with h | h <;> rw [h] <;> simp, h1, h3⟩
  · rintro ⟨h1, h2, h3⟩
    refine ⟨h2, ?_, h3⟩
    rcases h1 with h | h
    · exact .inr (by linarith)
    · exact .inl (by linarith)

theorem turn_true (q : Vec) : sidewaysTurn true q = ⟨-q.y, q.x, q.z⟩ := by
  unfold sidewaysTurn
  rw [if_pos rfl, quarterTurn_eq]

theorem turn_false (q : Vec) : sidewaysTurn false q = q := by
  unfold sidewaysTurn
  simp

theorem hole_corner {switch : SwitchCfg} {roof m n z : ℝ} {q : Vec} (hmn : m = n) :
    Corner (holeWidth switch roof + m) (holeDepth switch roof + n) z q ↔
      Corner (switch.width + m) (switch.depth + n) z (sidewaysTurn (isSideways switch roof) q) := by
  unfold holeWidth holeDepth
  subst hmn
  cases isSideways switch roof
  · rw [turn_false]; simp
  · rw [turn_true, ← corner_turn]; simp

theorem notch_corner {switch : SwitchCfg} {roof a b z : ℝ} {q : Vec} :
    Corner a (holeDepth switch roof + 2 * b) z q ↔
      NotchCorner switch (isSideways switch roof) a b z (sidewaysTurn (isSideways switch roof) q) := by
  unfold holeDepth NotchCorner
  cases isSideways switch roof
  · rw [turn_false]; simp
  · rw [turn_true, corner_turn]; simp

theorem turn_surjective (s : Bool) (p : Vec) : ∃ q, sidewaysTurn s q = p := by
  cases s
  · exact ⟨p, turn_false p⟩
  · exact ⟨⟨p.y, -p.x, p.z⟩, by rw [turn_true]; ext <;> simp⟩

/-- Membership in a turned list. -/
theorem mem_turned {s : Bool} {l : List Vec} {P : Vec → Prop} (h : ∀ q, q ∈ l ↔ P (sidewaysTurn s q)) (p : Vec) :
    p ∈ l.map (sidewaysTurn s) ↔ P p := by
  rw [List.mem_map]
  constructor
  · rintro ⟨q, hq, rfl⟩; exact (h q).mp hq
  · intro hp
    obtain ⟨q, rfl⟩ := turn_surjective s p
    exact ⟨q, (h q).mpr hp, rfl⟩

theorem corner_mem {w d z : ℝ} {p : Vec} : Corner w d z p ↔
    p = ⟨-(w / 2), -(d / 2), z⟩ ∨ p = ⟨-(w / 2), d / 2, z⟩ ∨ p = ⟨w / 2, d / 2, z⟩ ∨ p = ⟨w / 2, -(d / 2), z⟩ := by
  unfold Corner
  obtain ⟨x, y, t⟩ := p
  simp only [Vec.mk.injEq]
  tauto

/-- C94. The inner bounds of a key, which the walls and the floor keep clear of: the hole with the inner margin, on the
inner side of the roof, and the switch housing below, as deep as its pins. -/
theorem C94_boundsI {switch : SwitchCfg} {roofThickness : ℝ} {key : Key}
    (h : KeyFactory.make switch roofThickness = .ok key.factory) (p : Vec) :
    p ∈ key.boundsI ↔ ∃ q : Vec, p = q.transformed key.matrix ∧
      (Corner (switch.width + 2 * switch.innerMargin) (switch.depth + 2 * switch.innerMargin) (-roofThickness) q ∨
        Corner switch.width switch.depth (-(switch.innerHeight + switch.pinHeight)) q) := by
  unfold Key.boundsI
  unfold KeyFactory.make at h
  dsimp only at h
  obtain ⟨⟨half, notch⟩, h1, h⟩ := bind_ok h
  replace h := Except.ok.inj h
  rw [← h]
  dsimp only
  rw [List.mem_map]
  have := mem_turned (s := isSideways switch roofThickness) (l := factoryBoundsI (holeWidth switch roofThickness)
    (holeDepth switch roofThickness) roofThickness switch.innerMargin switch.innerHeight switch.pinHeight)
    (P := fun q => Corner (switch.width + 2 * switch.innerMargin) (switch.depth + 2 * switch.innerMargin) (-roofThickness) q ∨
        Corner switch.width switch.depth (-(switch.innerHeight + switch.pinHeight)) q) (by
      intro q
      rw [← hole_corner rfl]
      have := hole_corner (switch := switch) (roof := roofThickness) (m := 0) (n := 0)
        (z := -(switch.innerHeight + switch.pinHeight)) (q := q) rfl
      simp only [add_zero] at this
      rw [← this, corner_mem, corner_mem]
      unfold factoryBoundsI
      generalize holeWidth switch roofThickness = W
      generalize holeDepth switch roofThickness = D
      have e1 : ∀ W, -W / 2 - switch.innerMargin = -((W + 2 * switch.innerMargin) / 2) := by intro W; ring
      have e2 : ∀ W, W / 2 + switch.innerMargin = (W + 2 * switch.innerMargin) / 2 := by intro W; ring
      have e3 : ∀ W : ℝ, -W / 2 = -(W / 2) := by intro W; ring
      have e4 : -switch.innerHeight - switch.pinHeight = -(switch.innerHeight + switch.pinHeight) := by ring
      simp only [List.mem_cons, List.not_mem_nil, or_false, e1, e2]
      simp only [e3, e4, or_assoc])
  constructor
  · rintro ⟨q, hq, rfl⟩; exact ⟨q, rfl, (this q).mp hq⟩
  · rintro ⟨q, rfl, hq⟩; exact ⟨q, (this q).mpr hq, rfl⟩

/-- C94. The outer bounds of a key: the hole with the outer margin, and the key cap with a full gap around it, both on the
outer side of the roof. -/
theorem C94_boundsO {cfg : LayoutCfg} {switch : SwitchCfg} {roofThickness units : ℝ} {f : KeyFactory} {m : Mat}
    (h : KeyFactory.make switch roofThickness = .ok f) (p : Vec) :
    p ∈ ((Key.make cfg f units).transform m).boundsO ↔ ∃ q : Vec, p = q.transformed m ∧
      (Corner (switch.width + 2 * switch.outerMargin) (switch.depth + 2 * switch.outerMargin) 0 q ∨
        Corner (cfg.columnPitch * units + (cfg.columnPitch - cfg.capWidth)) (cfg.rowPitch + (cfg.rowPitch - cfg.capDepth)) 0 q) := by
  unfold Key.boundsO
  have hm : ((Key.make cfg f units).transform m).matrix = m := by
    unfold Key.transform Key.make
    dsimp only
    exact one_mul_mat m
  have hf : ((Key.make cfg f units).transform m).factory = f := rfl
  rw [hm, hf]
  unfold KeyFactory.make at h
  dsimp only at h
  obtain ⟨⟨half, notch⟩, h1, h⟩ := bind_ok h
  replace h := Except.ok.inj h
  rw [← h]
  dsimp only
  rw [List.mem_map]
  have h1 := mem_turned (s := isSideways switch roofThickness) (l := factoryBoundsO (holeWidth switch roofThickness)
    (holeDepth switch roofThickness) switch.outerMargin)
    (P := fun q => Corner (switch.width + 2 * switch.outerMargin) (switch.depth + 2 * switch.outerMargin) 0 q) (by
      intro q
      rw [← hole_corner rfl, corner_mem]
      unfold factoryBoundsO
      generalize holeWidth switch roofThickness = W
      generalize holeDepth switch roofThickness = D
      have e1 : ∀ W, -W / 2 - switch.outerMargin = -((W + 2 * switch.outerMargin) / 2) := by intro W; ring
      have e2 : ∀ W, W / 2 + switch.outerMargin = (W + 2 * switch.outerMargin) / 2 := by intro W; ring
      simp only [List.mem_cons, List.not_mem_nil, or_false, e1, e2])
  have h2 : ∀ q, q ∈ ((Key.make cfg f units).transform m).capBounds0 ↔
      Corner (cfg.columnPitch * units + (cfg.columnPitch - cfg.capWidth)) (cfg.rowPitch + (cfg.rowPitch - cfg.capDepth)) 0 q := by
    intro q
    rw [corner_mem]
    unfold Key.transform Key.make
    dsimp only
    have e1 : -(cfg.columnPitch * units - (cfg.columnPitch - cfg.capWidth)) / 2 - (cfg.columnPitch - cfg.capWidth) =
      -((cfg.columnPitch * units + (cfg.columnPitch - cfg.capWidth)) / 2) := by ring
    have e2 : (cfg.columnPitch * units - (cfg.columnPitch - cfg.capWidth)) / 2 + (cfg.columnPitch - cfg.capWidth) =
      (cfg.columnPitch * units + (cfg.columnPitch - cfg.capWidth)) / 2 := by ring
    have e3 : -(cfg.rowPitch - (cfg.rowPitch - cfg.capDepth)) / 2 - (cfg.rowPitch - cfg.capDepth) =
      -((cfg.rowPitch + (cfg.rowPitch - cfg.capDepth)) / 2) := by ring
    have e4 : (cfg.rowPitch - (cfg.rowPitch - cfg.capDepth)) / 2 + (cfg.rowPitch - cfg.capDepth) =
      (cfg.rowPitch + (cfg.rowPitch - cfg.capDepth)) / 2 := by ring
    simp only [List.mem_cons, List.not_mem_nil, or_false, e1, e2, e3, e4]
    tauto
  constructor
  · rintro ⟨q, hq, rfl⟩
    refine ⟨q, rfl, ?_⟩
    rcases List.mem_append.mp hq with hq | hq
    · exact .inl ((h1 q).mp hq)
    · exact .inr ((h2 q).mp hq)
  · rintro ⟨q, rfl, hq⟩
    refine ⟨q, List.mem_append.mpr ?_, rfl⟩
    rcases hq with hq | hq
    · exact .inl ((h1 q).mpr hq)
    · exact .inr ((h2 q).mpr hq)

/-- The points of an edge and its copy on the other side. -/
theorem mem_withMirroredY {e : List Vec} {p : Vec} : p ∈ withMirroredY e ↔ p ∈ e ∨ p.mirroredY ∈ e := by
  unfold withMirroredY
  rw [List.mem_append, List.mem_reverse, List.mem_map]
  constructor
  · rintro (h | ⟨q, hq, rfl⟩)
    · exact .inl h
    · exact .inr (by simpa [Vec.mirroredY] using hq)
  · rintro (h | h)
    · exact .inl h
    · exact .inr ⟨_, h, by ext <;> simp [Vec.mirroredY]⟩

theorem mem_halves {l : List Vec} {q : Vec} : q ∈ l ++ l.map halfTurn ↔ q ∈ l ∨ halfTurn q ∈ l := by
  rw [List.mem_append, List.mem_map]
  constructor
  · rintro (h | ⟨r, hr, rfl⟩)
    · exact .inl h
    · exact .inr (by rwa [halfTurn_halfTurn])
  · rintro (h | h)
    · exact .inl h
    · exact .inr ⟨_, h, halfTurn_halfTurn q⟩

/-- C94. The hole in the outer side of the roof is the configured `width` by `depth`, widened by the entry chamfer on each
side; its corners are cut off. -/
theorem C94_holeO {switch : SwitchCfg} {roofThickness : ℝ} {f : KeyFactory}
    (hs : SaneHole (holeWidth switch roofThickness) (holeDepth switch roofThickness) roofThickness switch.entryChamfer
      (activeClip switch roofThickness))
    (h : KeyFactory.make switch roofThickness = .ok f) (p : Vec) :
    p ∈ f.roofHoleO ↔ Corner switch.width (switch.depth + 2 * switch.entryChamfer) 0 p ∨
      Corner (switch.width + 2 * switch.entryChamfer) switch.depth 0 p := by
  unfold KeyFactory.make at h
  dsimp only at h
  obtain ⟨⟨half, notch⟩, h1, h⟩ := bind_ok h
  replace h := Except.ok.inj h
  rw [← h]
  dsimp only
  refine mem_turned (P := fun p => Corner switch.width (switch.depth + 2 * switch.entryChamfer) 0 p ∨
      Corner (switch.width + 2 * switch.entryChamfer) switch.depth 0 p) ?_ p
  intro q
  rw [mem_halves]
  obtain ⟨f1, he', f2⟩ := entry_far hs.width hs.depth hs.chamfer_size
  rw [mem_collapsed (by norm_num) f1 he' f2, mem_collapsed (by norm_num) f1 he' f2, mem_withMirroredY, mem_withMirroredY]
  have key : ∀ W D : ℝ, (((q ∈ entryEdge0 W D switch.entryChamfer ∨ q.mirroredY ∈ entryEdge0 W D switch.entryChamfer) ∨
      halfTurn q ∈ entryEdge0 W D switch.entryChamfer ∨ (halfTurn q).mirroredY ∈ entryEdge0 W D switch.entryChamfer) ↔
      Corner W (D + 2 * switch.entryChamfer) 0 q ∨ Corner (W + 2 * switch.entryChamfer) D 0 q) := by
    intro W D
    rw [corner_mem, corner_mem]
    obtain ⟨x, y, z⟩ := q
    simp only [entryEdge0, List.mem_cons, List.not_mem_nil, or_false, halfTurn, Vec.mirroredX, Vec.mirroredY, Vec.mk.injEq]
    have a1 : ∀ A B : ℝ, (-A = B) ↔ (A = -B) := by intro A B; constructor <;> intro h <;> linarith
    simp only [a1]
    have b1 : -W / 2 = -(W / 2) := by ring
    have b2 : -D / 2 - switch.entryChamfer = -((D + 2 * switch.entryChamfer) / 2) := by ring
    have b3 : -W / 2 - switch.entryChamfer = -((W + 2 * switch.entryChamfer) / 2) := by ring
    have b4 : -D / 2 = -(D / 2) := by ring
    rw [b2, b3]
    simp only [b1, b4, neg_neg]
    reorder
  rw [key]
  unfold holeWidth holeDepth
  cases isSideways switch roofThickness
  · rw [turn_false]; simp
  · rw [turn_true, ← corner_turn, ← corner_turn]; simp only [if_true]; tauto

/-- C94. The hole in the inner side of the roof is the configured `width` by `depth`; it has a notch in two opposite walls,
unless there is none, or it would cut through the roof: the notch has the configured width at the wall and depth, and becomes
narrower by the taper angle on both sides. -/
theorem C94_holeI {switch : SwitchCfg} {roofThickness : ℝ} {f : KeyFactory}
    (hs : SaneHole (holeWidth switch roofThickness) (holeDepth switch roofThickness) roofThickness switch.entryChamfer
      (activeClip switch roofThickness))
    (h : KeyFactory.make switch roofThickness = .ok f) (p : Vec) :
    p ∈ f.roofHoleI ↔ Corner switch.width switch.depth (-roofThickness) p ∨
      ∃ c, HasNotch switch roofThickness c ∧ (NotchCorner switch c.isSideways c.width 0 (-roofThickness) p ∨
        NotchCorner switch c.isSideways (c.width - 2 * (c.depth * Real.tan c.taperAngle)) c.depth (-roofThickness) p) := by
  unfold KeyFactory.make at h
  dsimp only at h
  obtain ⟨⟨half, notch⟩, h1, h⟩ := bind_ok h
  replace h := Except.ok.inj h
  rw [← h]
  dsimp only
  refine mem_turned (P := fun p => Corner switch.width switch.depth (-roofThickness) p ∨
      ∃ c, HasNotch switch roofThickness c ∧ (NotchCorner switch c.isSideways c.width 0 (-roofThickness) p ∨
        NotchCorner switch c.isSideways (c.width - 2 * (c.depth * Real.tan c.taperAngle)) c.depth (-roofThickness) p)) ?_ p
  intro q
  rw [mem_halves]
  obtain ⟨f1, he', f2⟩ := exit_far hs h1
  rw [List.mem_reverse, List.mem_reverse, mem_collapsed (by norm_num) f1 he' f2, mem_collapsed (by norm_num) f1 he' f2,
    List.mem_append, List.mem_append, mem_withMirroredY, mem_withMirroredY]
  have key : ∀ W D : ℝ, (((q ∈ exitEdge0 W D roofThickness ∨ q.mirroredY ∈ exitEdge0 W D roofThickness) ∨
      halfTurn q ∈ exitEdge0 W D roofThickness ∨ (halfTurn q).mirroredY ∈ exitEdge0 W D roofThickness) ↔
      Corner W D (-roofThickness) q) := by
    intro W D
    rw [corner_mem]
    obtain ⟨x, y, z⟩ := q
    simp only [exitEdge0, List.mem_cons, List.not_mem_nil, or_false, or_self, halfTurn, Vec.mirroredX, Vec.mirroredY, Vec.mk.injEq]
    have a1 : ∀ A B : ℝ, (-A = B) ↔ (A = -B) := by intro A B; constructor <;> intro h <;> linarith
    simp only [a1]
    have b1 : -W / 2 = -(W / 2) := by ring
    have b4 : -D / 2 = -(D / 2) := by ring
    simp only [b1, b4, neg_neg, or_assoc]
  have k0 := key (holeWidth switch roofThickness) (holeDepth switch roofThickness)
  have k1 := hole_corner (switch := switch) (roof := roofThickness) (m := 0) (n := 0) (z := -roofThickness) (q := q) rfl
  simp only [add_zero] at k1
  rw [k1] at k0
  rw [or_halves, k0]
  refine or_congr Iff.rfl ?_
  have hact : ∀ c, activeClip switch roofThickness = some c ↔ HasNotch switch roofThickness c := by
    intro c
    unfold activeClip HasNotch
    rw [Option.filter_eq_some_iff]
    simp
  rcases notch_eq hs h1 with ⟨hn, rfl⟩ | ⟨c, τ, hn, hc, hτ, rfl⟩
  · simp only [List.not_mem_nil, or_self, false_iff]
    rintro ⟨c, hc, -⟩
    rw [← hact, hn] at hc
    cases hc
  · have hside : isSideways switch roofThickness = c.isSideways := by
      unfold isSideways; rw [hn]; rfl
    have n1 := notch_corner (switch := switch) (roof := roofThickness) (a := c.width) (b := 0) (z := -roofThickness) (q := q)
    have n2 := notch_corner (switch := switch) (roof := roofThickness) (a := c.width - 2 * (c.depth * Real.tan c.taperAngle))
      (b := c.depth) (z := -roofThickness) (q := q)
    rw [hside] at n1 n2
    have e0 : (∃ c, HasNotch switch roofThickness c ∧ (NotchCorner switch c.isSideways c.width 0 (-roofThickness)
        (sidewaysTurn (isSideways switch roofThickness) q) ∨
        NotchCorner switch c.isSideways (c.width - 2 * (c.depth * Real.tan c.taperAngle)) c.depth (-roofThickness)
        (sidewaysTurn (isSideways switch roofThickness) q))) ↔ (NotchCorner switch c.isSideways c.width 0 (-roofThickness)
        (sidewaysTurn c.isSideways q) ∨
        NotchCorner switch c.isSideways (c.width - 2 * (c.depth * Real.tan c.taperAngle)) c.depth (-roofThickness)
        (sidewaysTurn c.isSideways q)) := by
      rw [hside]
      constructor
      · rintro ⟨c', hc', h⟩
        rw [← hact, hn] at hc'
        cases hc'
        exact h
      · exact fun h => ⟨c, (hact c).mp hn, h⟩
    rw [e0, ← n1, ← n2, corner_mem, corner_mem, ← hτ]
    generalize holeDepth switch roofThickness = D
    clear * -
    obtain ⟨x, y, z⟩ := q
    simp only [List.mem_cons, List.not_mem_nil, or_false, halfTurn, Vec.mirroredX, Vec.mirroredY, Vec.mk.injEq]
    have a1 : ∀ A B : ℝ, (-A = B) ↔ (A = -B) := by intro A B; constructor <;> intro h <;> linarith
    have b1 : -c.width / 2 + τ = -((c.width - 2 * τ) / 2) := by ring
    have b2 : c.width / 2 - τ = (c.width - 2 * τ) / 2 := by ring
    have b3 : -c.width / 2 = -(c.width / 2) := by ring
    have b4 : D / 2 + c.depth = (D + 2 * c.depth) / 2 := by ring
    have b5 : D + 2 * 0 = D := by ring
    rw [b1, b2, b3, b4, b5]
    simp only [a1, neg_neg]
    reorder

/-- All corners of a triangle satisfy `P`. -/
def allCorners (P : Vec → Prop) (t : Tri Vec) : Prop := P t.a ∧ P t.b ∧ P t.c

theorem mesh_allCorners {P : Vec → Prop} {self other : List Vec} {k : Bool} {ts : List (Tri Vec)}
    (h : meshPairwise self other k = .ok ts) (h1 : ∀ v ∈ self, P v) (h2 : ∀ v ∈ other, P v) : ∀ t ∈ ts, allCorners P t := by
  intro t ht
  have : ∀ v, v = t.a ∨ v = t.b ∨ v = t.c → P v := fun v hv => (mesh_vertices h ht hv).elim (h1 v) (h2 v)
  exact ⟨this _ (.inl rfl), this _ (.inr (.inl rfl)), this _ (.inr (.inr rfl))⟩

/-- The corners of half the mesh: they are left of the hole, or all behind it; each is on the entry, the chamfer, the exit, or
in the notch. -/
theorem half_corners {W D H ch : ℝ} {clip : Option ClipCfg} {half : List (Tri Vec)} {notch : List Vec} (hch : 0 ≤ ch)
    (hn : ∀ c ∈ clip, 0 ≤ c.depth) (h : halfTriangles W D H ch clip = .ok (half, notch)) :
    ∀ t ∈ half, (allCorners (fun v => v.x ≤ -(W / 2)) t ∨ allCorners (fun v => D / 2 ≤ v.y) t) ∧
      allCorners (fun v => Corner W (D + 2 * ch) 0 v ∨ Corner (W + 2 * ch) D 0 v ∨ Corner W D (-ch) v ∨ Corner W D (-H) v ∨
        ∃ c ∈ clip, ∃ z, (z = -H ∨ z = -c.height) ∧ (Corner c.width D z v ∨
          Corner (c.width - 2 * (c.depth * Real.tan c.taperAngle)) (D + 2 * c.depth) z v)) t := by
  unfold halfTriangles at h
  dsimp only at h
  obtain ⟨t1, h1, h⟩ := bind_ok h
  obtain ⟨t2, h2, h⟩ := bind_ok h
  have m1 : ∀ v ∈ withMirroredY (exitEdge0 W D H), v.x = -(W / 2) ∧ Corner W D (-H) v := by
    intro v hv
    rw [corner_mem]
    simp only [withMirroredY, exitEdge0, List.map_cons, List.map_nil, List.reverse_cons, List.reverse_nil, List.nil_append,
      List.cons_append, List.mem_cons, List.not_mem_nil, or_false, Vec.mirroredY] at hv
    rcases hv with rfl | rfl | rfl | rfl <;> simp [neg_div]
  have m2 : ∀ v ∈ withMirroredY (chamferEdge0 W D ch), v.x = -(W / 2) ∧ Corner W D (-ch) v := by
    intro v hv
    rw [corner_mem]
    simp only [withMirroredY, chamferEdge0, List.map_cons, List.map_nil, List.reverse_cons, List.reverse_nil, List.nil_append,
      List.cons_append, List.mem_cons, List.not_mem_nil, or_false, Vec.mirroredY] at hv
    rcases hv with rfl | rfl | rfl | rfl <;> simp [neg_div]
  have m3 : ∀ v ∈ withMirroredY (entryEdge0 W D ch), v.x ≤ -(W / 2) ∧ (Corner W (D + 2 * ch) 0 v ∨ Corner (W + 2 * ch) D 0 v) := by
    intro v hv
    simp only [withMirroredY, entryEdge0, List.map_cons, List.map_nil, List.reverse_cons, List.reverse_nil, List.nil_append,
      List.cons_append, List.mem_cons, List.not_mem_nil, or_false, Vec.mirroredY] at hv
    rcases hv with rfl | rfl | rfl | rfl
    · exact ⟨by dsimp only; linarith, .inl ⟨.inr (by dsimp only; ring), .inr (by dsimp only; ring), rfl⟩⟩
    · exact ⟨by dsimp only; linarith, .inr ⟨.inr (by dsimp only; ring), .inr (by dsimp only; ring), rfl⟩⟩
    · exact ⟨by dsimp only; linarith, .inr ⟨.inr (by dsimp only; ring), .inl (by dsimp only; ring), rfl⟩⟩
    · exact ⟨by dsimp only; linarith, .inl ⟨.inr (by dsimp only; ring), .inl (by dsimp only; ring), rfl⟩⟩
  have c1 := mesh_allCorners h1 (P := fun v => v.x ≤ -(W / 2)) (fun v hv => (m1 v hv).1.le) (fun v hv => (m2 v hv).1.le)
  have c2 := mesh_allCorners h2 (P := fun v => v.x ≤ -(W / 2)) (fun v hv => (m2 v hv).1.le) (fun v hv => (m3 v hv).1)
  set P : Vec → Prop := fun v => Corner W (D + 2 * ch) 0 v ∨ Corner (W + 2 * ch) D 0 v ∨ Corner W D (-ch) v ∨ Corner W D (-H) v ∨
        ∃ c ∈ clip, ∃ z, (z = -H ∨ z = -c.height) ∧ (Corner c.width D z v ∨
          Corner (c.width - 2 * (c.depth * Real.tan c.taperAngle)) (D + 2 * c.depth) z v) with hP
  have p1 : ∀ v ∈ withMirroredY (exitEdge0 W D H), P v := fun v hv => .inr (.inr (.inr (.inl (m1 v hv).2)))
  have p2 : ∀ v ∈ withMirroredY (chamferEdge0 W D ch), P v := fun v hv => .inr (.inr (.inl (m2 v hv).2))
  have p3 : ∀ v ∈ withMirroredY (entryEdge0 W D ch), P v := fun v hv => (m3 v hv).2.elim .inl fun h => .inr (.inl h)
  have d1 := mesh_allCorners h1 p1 p2
  have d2 := mesh_allCorners h2 p2 p3
  have pe : ∀ v : Vec, v = (⟨-W / 2, -D / 2 - ch, 0⟩ : Vec).mirroredY ∨ v = (⟨-W / 2, -D / 2 - ch, 0⟩ : Vec).mirroredY.mirroredX →
      P v ∧ D / 2 ≤ v.y := by
    rintro v (rfl | rfl)
    · exact ⟨.inl ⟨.inr (by simp [Vec.mirroredY, neg_div]), .inl (by simp [Vec.mirroredY]; ring), rfl⟩, by simp [Vec.mirroredY]; linarith⟩
    · exact ⟨.inl ⟨.inl (by simp [Vec.mirroredX, Vec.mirroredY, neg_div]), .inl (by simp [Vec.mirroredX, Vec.mirroredY]; ring), rfl⟩,
        by simp [Vec.mirroredX, Vec.mirroredY]; linarith⟩
  have pc : ∀ v : Vec, v = (⟨-W / 2, -D / 2, -ch⟩ : Vec).mirroredY ∨ v = (⟨-W / 2, -D / 2, -ch⟩ : Vec).mirroredY.mirroredX →
      P v ∧ D / 2 ≤ v.y := by
    rintro v (rfl | rfl)
    · exact ⟨.inr (.inr (.inl ⟨.inr (by simp [Vec.mirroredY, neg_div]), .inl (by simp [Vec.mirroredY]; ring), rfl⟩)),
        by simp [Vec.mirroredY]; linarith⟩
    · exact ⟨.inr (.inr (.inl ⟨.inl (by simp [Vec.mirroredX, Vec.mirroredY, neg_div]), .inl (by simp [Vec.mirroredX, Vec.mirroredY]; ring), rfl⟩)),
        by simp [Vec.mirroredX, Vec.mirroredY]; linarith⟩
  have px : ∀ v : Vec, v = (⟨-W / 2, -D / 2, -H⟩ : Vec).mirroredY ∨ v = (⟨-W / 2, -D / 2, -H⟩ : Vec).mirroredY.mirroredX →
      P v ∧ D / 2 ≤ v.y := by
    rintro v (rfl | rfl)
    · exact ⟨.inr (.inr (.inr (.inl ⟨.inr (by simp [Vec.mirroredY, neg_div]), .inl (by simp [Vec.mirroredY]; ring), rfl⟩))),
        by simp [Vec.mirroredY]; linarith⟩
    · exact ⟨.inr (.inr (.inr (.inl ⟨.inl (by simp [Vec.mirroredX, Vec.mirroredY, neg_div]), .inl (by simp [Vec.mirroredX, Vec.mirroredY]; ring), rfl⟩))),
        by simp [Vec.mirroredX, Vec.mirroredY]; linarith⟩
  generalize (⟨-W / 2, -D / 2 - ch, 0⟩ : Vec).mirroredY = entryB at h pe
  generalize (⟨-W / 2, -D / 2, -ch⟩ : Vec).mirroredY = chamferB at h pc
  generalize (⟨-W / 2, -D / 2, -H⟩ : Vec).mirroredY = exitB at h px
  have two : ∀ {a b : List Vec} {ts : List (Tri Vec)}, meshPairwise a b false = .ok ts → (∀ v ∈ a, P v ∧ D / 2 ≤ v.y) →
      (∀ v ∈ b, P v ∧ D / 2 ≤ v.y) → ∀ t ∈ ts, (allCorners (fun v => v.x ≤ -(W / 2)) t ∨ allCorners (fun v => D / 2 ≤ v.y) t) ∧ allCorners P t :=
    fun h ha hb t ht => ⟨.inr (mesh_allCorners h (fun v hv => (ha v hv).2) (fun v hv => (hb v hv).2) t ht),
      mesh_allCorners h (fun v hv => (ha v hv).1) (fun v hv => (hb v hv).1) t ht⟩
  cases clip with
  | none =>
    obtain ⟨t3, h3, h⟩ := bind_ok h
    cases h
    have d3 := two h3 (by
        intro v hv
        simp only [List.map_cons, List.map_nil, List.mem_cons, List.not_mem_nil, or_false] at hv
        rcases hv with h | h | h
        exacts [px v (.inr h), pc v (.inr h), pe v (.inr h)]) (by
        intro v hv
        simp only [List.mem_cons, List.not_mem_nil, or_false] at hv
        rcases hv with h | h | h
        exacts [px v (.inl h), pc v (.inl h), pe v (.inl h)])
    intro t ht
    rcases List.mem_append.mp ht with ht | ht
    · rcases List.mem_append.mp ht with ht | ht
      · exact ⟨.inl (c1 t ht), d1 t ht⟩
      · exact ⟨.inl (c2 t ht), d2 t ht⟩
    · exact d3 t ht
  | some c =>
    obtain ⟨⟨t3, n3⟩, h3, h⟩ := bind_ok h
    cases h
    have d3 : ∀ t ∈ t3, (allCorners (fun v => v.x ≤ -(W / 2)) t ∨ allCorners (fun v => D / 2 ≤ v.y) t) ∧ allCorners P t := by
      unfold clipTriangles at h3
      dsimp only at h3
      obtain ⟨quot, hq, h3⟩ := bind_ok h3
      have hτ : quot * Real.sin c.taperAngle = c.depth * Real.tan c.taperAngle := by
        rw [(pyDiv_val hq).2, Real.tan_eq_sin_div_cos]; ring
      rw [hτ] at h3
      obtain ⟨s1, q1, h3⟩ := bind_ok h3
      obtain ⟨s2, q2, h3⟩ := bind_ok h3
      obtain ⟨s3, q3, h3⟩ := bind_ok h3
      obtain ⟨s4, q4, h3⟩ := bind_ok h3
      cases h3
      have hd := hn c rfl
      set g0 : Vec := ⟨-c.width / 2, D / 2, -H⟩ with hg0
      set g1 : Vec := ⟨-c.width / 2 + c.depth * Real.tan c.taperAngle, D / 2 + c.depth, -H⟩ with hg1
      set g2 : Vec := ⟨c.width / 2 - c.depth * Real.tan c.taperAngle, D / 2 + c.depth, -H⟩ with hg2
      set g3 : Vec := ⟨c.width / 2, D / 2, -H⟩ with hg3
      set up : Vec := ⟨0, 0, H - c.height⟩ with hup
      have pg : ∀ v, v = g0 ∨ v = g1 ∨ v = g2 ∨ v = g3 → (P v ∧ D / 2 ≤ v.y) ∧ (P (v + up) ∧ D / 2 ≤ (v + up).y) := by
        have hz : (-H : ℝ) + (H - c.height) = -c.height := by ring
        rintro v (h | h | h | h) <;> rw [h] <;>
        refine ⟨⟨.inr (.inr (.inr (.inr ⟨c, rfl, -H, .inl rfl, ?_⟩))), ?_⟩, .inr (.inr (.inr (.inr ⟨c, rfl, -c.height, .inr rfl, ?_⟩))), ?_⟩
        · exact .inl ⟨.inr (by simp [hg0, neg_div]), .inl rfl, rfl⟩
        · exact le_rfl
        · exact .inl ⟨.inr (by simp [hg0, hup, neg_div]), .inl (by simp [hg0, hup]), by simp only [hg0, hup, Vec.add_z]; exact hz⟩
        · simp [hg0, hup]
        · exact .inr ⟨.inr (by simp [hg1]; ring), .inl (by simp [hg1]; ring), rfl⟩
        · simp [hg1, hd]
        · exact .inr ⟨.inr (by simp [hg1, hup]; ring), .inl (by simp [hg1, hup]; ring), by simp only [hg1, hup, Vec.add_z]; exact hz⟩
        · simp [hg1, hup, hd]
        · exact .inr ⟨.inl (by simp [hg2]; ring), .inl (by simp [hg2]; ring), rfl⟩
        · simp [hg2, hd]
        · exact .inr ⟨.inl (by simp [hg2, hup]; ring), .inl (by simp [hg2, hup]; ring), by simp only [hg2, hup, Vec.add_z]; exact hz⟩
        · simp [hg2, hup, hd]
        · exact .inl ⟨.inl (by simp [hg3]), .inl rfl, rfl⟩
        · exact le_rfl
        · exact .inl ⟨.inl (by simp [hg3, hup]), .inl (by simp [hg3, hup]), by simp only [hg3, hup, Vec.add_z]; exact hz⟩
        · simp [hg3, hup]
      clear_value g0 g1 g2 g3 up
      have o0 := pg g0 (.inl rfl)
      have o1 := pg g1 (.inr (.inl rfl))
      have o2 := pg g2 (.inr (.inr (.inl rfl)))
      have o3 := pg g3 (.inr (.inr (.inr rfl)))
      have e1 := two q1 (by
        intro v hv
        simp only [List.mem_cons, List.not_mem_nil, or_false] at hv
        exact pc v hv) (by
        intro v hv
        simp only [List.mem_cons, List.not_mem_nil, or_false] at hv
        exact pe v hv)
      have e2 := two q2 (by
        intro v hv
        simp only [List.mem_cons, List.not_mem_nil, or_false] at hv
        rcases hv with rfl | rfl | rfl | rfl
        exacts [o0.1, o0.2, o3.2, o3.1]) (by
        intro v hv
        simp only [List.cons_append, List.nil_append, List.mem_cons, List.not_mem_nil, or_false] at hv
        rcases hv with h | h | h | h
        exacts [px v (.inl h), pc v (.inl h), pc v (.inr h), px v (.inr h)])
      have e3 := two q3 (by
        intro v hv
        simp only [List.mem_cons, List.not_mem_nil, or_false] at hv
        exact (pg v hv).1) (by
        intro v hv
        simp only [List.map_cons, List.map_nil, List.mem_cons, List.not_mem_nil, or_false] at hv
        rcases hv with rfl | rfl | rfl | rfl
        exacts [o0.2, o1.2, o2.2, o3.2])
      have e4 := two q4 (by
        intro v hv
        simp only [List.map_cons, List.map_nil, List.take_succ_cons, List.take_zero, List.mem_cons, List.not_mem_nil, or_false] at hv
        rcases hv with rfl | rfl
        exacts [o0.2, o1.2]) (by
        intro v hv
        simp only [List.map_cons, List.map_nil, List.drop_succ_cons, List.drop_zero, List.mem_reverse, List.mem_cons, List.not_mem_nil, or_false] at hv
        rcases hv with rfl | rfl
        exacts [o2.2, o3.2])
      intro t ht
      simp only [List.mem_append] at ht
      rcases ht with ((ht | ht) | ht) | ht
      exacts [e1 t ht, e2 t ht, e3 t ht, e4 t ht]
    intro t ht
    rcases List.mem_append.mp ht with ht | ht
    · rcases List.mem_append.mp ht with ht | ht
      · exact ⟨.inl (c1 t ht), d1 t ht⟩
      · exact ⟨.inl (c2 t ht), d2 t ht⟩
    · exact d3 t ht

theorem turn_outside {switch : SwitchCfg} {roof : ℝ} {t : Tri Vec}
    (h : OutsideColumn (holeWidth switch roof) (holeDepth switch roof) t) :
    OutsideColumn switch.width switch.depth (t.map (sidewaysTurn (isSideways switch roof))) := by
  revert h
  unfold holeWidth holeDepth OutsideColumn Tri.map
  cases isSideways switch roof
  · simp only [turn_false, Bool.false_eq_true, if_false]; exact id
  · simp only [turn_true, if_true]
    rintro (⟨h1, h2, h3⟩ | ⟨h1, h2, h3⟩ | ⟨h1, h2, h3⟩ | ⟨h1, h2, h3⟩)
    · exact .inr (.inr (.inl ⟨h1, h2, h3⟩))
    · exact .inr (.inr (.inr ⟨h1, h2, h3⟩))
    · exact .inr (.inl ⟨by linarith, by linarith, by linarith⟩)
    · exact .inl ⟨by linarith, by linarith, by linarith⟩

/-- C94. The switch housing fits: no triangle of a key reaches into the `width` by `depth` column. The corners of the triangles
are on the two holes, on the inner end of the entry chamfer, or at the top of a notch; the top of a notch is `height` below the
outer side of the roof. -/
theorem C94_triangles {switch : SwitchCfg} {roofThickness : ℝ} {f : KeyFactory}
    (hs : SaneHole (holeWidth switch roofThickness) (holeDepth switch roofThickness) roofThickness switch.entryChamfer
      (activeClip switch roofThickness))
    (h : KeyFactory.make switch roofThickness = .ok f) :
    ∀ t ∈ f.triangles, OutsideColumn switch.width switch.depth t ∧ ∀ v, v = t.a ∨ v = t.b ∨ v = t.c →
      v ∈ f.roofHoleO ∨ v ∈ f.roofHoleI ∨ Corner switch.width switch.depth (-switch.entryChamfer) v ∨
        ∃ c, HasNotch switch roofThickness c ∧ (NotchCorner switch c.isSideways c.width 0 (-c.height) v ∨
          NotchCorner switch c.isSideways (c.width - 2 * (c.depth * Real.tan c.taperAngle)) c.depth (-c.height) v) := by
  have hO := C94_holeO hs h
  have hI := C94_holeI hs h
  unfold KeyFactory.make at h
  dsimp only at h
  obtain ⟨⟨half, notch⟩, h1, h⟩ := bind_ok h
  replace h := Except.ok.inj h
  have ht : f.triangles = (half ++ half.map fun t => t.map halfTurn).map
      fun t => t.map (sidewaysTurn (isSideways switch roofThickness)) := by rw [← h]
  have hc0 : 0 ≤ switch.entryChamfer := by rcases hs.chamfer_size with h | h <;> linarith
  have hh := half_corners hc0 (fun c hc => by have := (hs.notch c hc).depth_pos; linarith) h1
  rw [ht]
  clear ht h h1
  have hact : ∀ c, c ∈ activeClip switch roofThickness → HasNotch switch roofThickness c ∧
      c.isSideways = isSideways switch roofThickness := by
    intro c hc
    refine ⟨?_, ?_⟩
    · unfold activeClip at hc
      have := Option.mem_filter_iff.mp hc
      exact ⟨this.1, by simpa using this.2⟩
    · unfold isSideways; rw [Option.mem_def.mp hc]; rfl
  have good : ∀ t : Tri Vec, OutsideColumn (holeWidth switch roofThickness) (holeDepth switch roofThickness) t →
      allCorners (fun v => Corner (holeWidth switch roofThickness) (holeDepth switch roofThickness + 2 * switch.entryChamfer) 0 v ∨
        Corner (holeWidth switch roofThickness + 2 * switch.entryChamfer) (holeDepth switch roofThickness) 0 v ∨
        Corner (holeWidth switch roofThickness) (holeDepth switch roofThickness) (-switch.entryChamfer) v ∨
        Corner (holeWidth switch roofThickness) (holeDepth switch roofThickness) (-roofThickness) v ∨
        ∃ c ∈ activeClip switch roofThickness, ∃ z, (z = -roofThickness ∨ z = -c.height) ∧
          (Corner c.width (holeDepth switch roofThickness) z v ∨
          Corner (c.width - 2 * (c.depth * Real.tan c.taperAngle)) (holeDepth switch roofThickness + 2 * c.depth) z v)) t →
      OutsideColumn switch.width switch.depth (t.map (sidewaysTurn (isSideways switch roofThickness))) ∧
      ∀ v, v = (t.map (sidewaysTurn (isSideways switch roofThickness))).a ∨ v = (t.map (sidewaysTurn (isSideways switch roofThickness))).b ∨
        v = (t.map (sidewaysTurn (isSideways switch roofThickness))).c →
      v ∈ f.roofHoleO ∨ v ∈ f.roofHoleI ∨ Corner switch.width switch.depth (-switch.entryChamfer) v ∨
        ∃ c, HasNotch switch roofThickness c ∧ (NotchCorner switch c.isSideways c.width 0 (-c.height) v ∨
          NotchCorner switch c.isSideways (c.width - 2 * (c.depth * Real.tan c.taperAngle)) c.depth (-c.height) v) := by
    intro t ho hv
    refine ⟨turn_outside ho, ?_⟩
    have one : ∀ q : Vec, (Corner (holeWidth switch roofThickness) (holeDepth switch roofThickness + 2 * switch.entryChamfer) 0 q ∨
        Corner (holeWidth switch roofThickness + 2 * switch.entryChamfer) (holeDepth switch roofThickness) 0 q ∨
        Corner (holeWidth switch roofThickness) (holeDepth switch roofThickness) (-switch.entryChamfer) q ∨
        Corner (holeWidth switch roofThickness) (holeDepth switch roofThickness) (-roofThickness) q ∨
        ∃ c ∈ activeClip switch roofThickness, ∃ z, (z = -roofThickness ∨ z = -c.height) ∧
          (Corner c.width (holeDepth switch roofThickness) z q ∨
          Corner (c.width - 2 * (c.depth * Real.tan c.taperAngle)) (holeDepth switch roofThickness + 2 * c.depth) z q)) →
        sidewaysTurn (isSideways switch roofThickness) q ∈ f.roofHoleO ∨ sidewaysTurn (isSideways switch roofThickness) q ∈ f.roofHoleI ∨
        Corner switch.width switch.depth (-switch.entryChamfer) (sidewaysTurn (isSideways switch roofThickness) q) ∨
        ∃ c, HasNotch switch roofThickness c ∧ (NotchCorner switch c.isSideways c.width 0 (-c.height) (sidewaysTurn (isSideways switch roofThickness) q) ∨
          NotchCorner switch c.isSideways (c.width - 2 * (c.depth * Real.tan c.taperAngle)) c.depth (-c.height)
            (sidewaysTurn (isSideways switch roofThickness) q)) := by
      intro q hq
      have hc : ∀ z, Corner (holeWidth switch roofThickness) (holeDepth switch roofThickness) z q ↔
          Corner switch.width switch.depth z (sidewaysTurn (isSideways switch roofThickness) q) := by
        intro z
        have := hole_corner (switch := switch) (roof := roofThickness) (m := 0) (n := 0) (z := z) (q := q) rfl
        simpa only [add_zero] using this
      have e1 : Corner (holeWidth switch roofThickness) (holeDepth switch roofThickness + 2 * switch.entryChamfer) 0 q ∨
          Corner (holeWidth switch roofThickness + 2 * switch.entryChamfer) (holeDepth switch roofThickness) 0 q →
          sidewaysTurn (isSideways switch roofThickness) q ∈ f.roofHoleO := by
        rw [hO]
        unfold holeWidth holeDepth
        cases isSideways switch roofThickness
        · rw [turn_false]; simp
        · rw [turn_true, ← corner_turn, ← corner_turn]; simp only [if_true]; exact Or.symm
      rcases hq with hq | hq | hq | hq | ⟨c, hcm, z, hz, hq⟩
      · exact .inl (e1 (.inl hq))
      · exact .inl (e1 (.inr hq))
      · exact .inr (.inr (.inl ((hc _).mp hq)))
      · exact .inr (.inl ((hI _).mpr (.inl ((hc _).mp hq))))
      · obtain ⟨hn, hside⟩ := hact c hcm
        have n1 := notch_corner (switch := switch) (roof := roofThickness) (a := c.width) (b := 0) (z := z) (q := q)
        have n2 := notch_corner (switch := switch) (roof := roofThickness) (a := c.width - 2 * (c.depth * Real.tan c.taperAngle))
          (b := c.depth) (z := z) (q := q)
        rw [mul_zero, add_zero] at n1
        rw [n1, n2, ← hside] at hq
        rcases hz with rfl | rfl
        · exact .inr (.inl ((hI _).mpr (.inr ⟨c, hn, by rw [← hside]; exact hq⟩)))
        · exact .inr (.inr (.inr ⟨c, hn, by rw [← hside]; exact hq⟩))
    rintro v (rfl | rfl | rfl)
    · exact one _ hv.1
    · exact one _ hv.2.1
    · exact one _ hv.2.2
  intro t ht
  obtain ⟨t0, ht0, rfl⟩ := List.mem_map.mp ht
  rcases List.mem_append.mp ht0 with ht0 | ht0
  · obtain ⟨ho, hv⟩ := hh t0 ht0
    refine good t0 ?_ hv
    rcases ho with ho | ho
    · exact .inr (.inl ho)
    · exact .inr (.inr (.inl ho))
  · obtain ⟨t1, ht1, rfl⟩ := List.mem_map.mp ht0
    obtain ⟨ho, hv⟩ := hh t1 ht1
    have hc : ∀ w d z (q : Vec), Corner w d z q → Corner w d z (halfTurn q) := by
      rintro w d z q ⟨h1, h2, h3⟩
      refine ⟨?_, ?_, h3⟩
      · rcases h1 with h | h <;> simp [halfTurn, Vec.mirroredX, Vec.mirroredY, h]
      · rcases h2 with h | h <;> simp [halfTurn, Vec.mirroredX, Vec.mirroredY, h]
    refine good (t1.map halfTurn) ?_ ?_
    · unfold OutsideColumn Tri.map halfTurn Vec.mirroredX Vec.mirroredY
      dsimp only
      rcases ho with ⟨a, b, c⟩ | ⟨a, b, c⟩
      · exact .inl ⟨by linarith, by linarith, by linarith⟩
      · exact .inr (.inr (.inr ⟨by linarith, by linarith, by linarith⟩))
    · have up : ∀ q : Vec, (Corner (holeWidth switch roofThickness) (holeDepth switch roofThickness + 2 * switch.entryChamfer) 0 q ∨
          Corner (holeWidth switch roofThickness + 2 * switch.entryChamfer) (holeDepth switch roofThickness) 0 q ∨
          Corner (holeWidth switch roofThickness) (holeDepth switch roofThickness) (-switch.entryChamfer) q ∨
          Corner (holeWidth switch roofThickness) (holeDepth switch roofThickness) (-roofThickness) q ∨
          ∃ c ∈ activeClip switch roofThickness, ∃ z, (z = -roofThickness ∨ z = -c.height) ∧
            (Corner c.width (holeDepth switch roofThickness) z q ∨
            Corner (c.width - 2 * (c.depth * Real.tan c.taperAngle)) (holeDepth switch roofThickness + 2 * c.depth) z q)) →
          (Corner (holeWidth switch roofThickness) (holeDepth switch roofThickness + 2 * switch.entryChamfer) 0 (halfTurn q) ∨
          Corner (holeWidth switch roofThickness + 2 * switch.entryChamfer) (holeDepth switch roofThickness) 0 (halfTurn q) ∨
          Corner (holeWidth switch roofThickness) (holeDepth switch roofThickness) (-switch.entryChamfer) (halfTurn q) ∨
          Corner (holeWidth switch roofThickness) (holeDepth switch roofThickness) (-roofThickness) (halfTurn q) ∨
          ∃ c ∈ activeClip switch roofThickness, ∃ z, (z = -roofThickness ∨ z = -c.height) ∧
            (Corner c.width (holeDepth switch roofThickness) z (halfTurn q) ∨
            Corner (c.width - 2 * (c.depth * Real.tan c.taperAngle)) (holeDepth switch roofThickness + 2 * c.depth) z (halfTurn q))) := by
        intro q hq
        exact hq.imp (hc _ _ _ _) (Or.imp (hc _ _ _ _) (Or.imp (hc _ _ _ _) (Or.imp (hc _ _ _ _)
          (fun ⟨c, hcm, z, hz, hq⟩ => ⟨c, hcm, z, hz, hq.imp (hc _ _ _ _) (hc _ _ _ _)⟩))))
      exact ⟨up _ hv.1, up _ hv.2.1, up _ hv.2.2⟩

/-- A switch with a sideways notch. -/
noncomputable def sidewaysSwitch : SwitchCfg :=
  ⟨141 / 10, 139 / 10, 3, 5, 4, 2, 1 / 3, 2 / 5, some ⟨8, 9 / 10, 14 / 10, 0, true⟩⟩

/-- Its key meets the hypotheses, and its notches are in the left and right walls. -/
example : ∃ f, KeyFactory.make sidewaysSwitch 4 = .ok f ∧
    SaneHole (holeWidth sidewaysSwitch 4) (holeDepth sidewaysSwitch 4) 4 sidewaysSwitch.entryChamfer (activeClip sidewaysSwitch 4) ∧
    (⟨159 / 20, 4, -4⟩ : Vec) ∈ f.roofHoleI := by
  have ha : activeClip sidewaysSwitch 4 = some ⟨8, 9 / 10, 14 / 10, 0, true⟩ := by
    unfold activeClip sidewaysSwitch
    rw [Option.filter_eq_some_iff]
    norm_num
  have hw : holeWidth sidewaysSwitch 4 = 139 / 10 := by
    unfold holeWidth isSideways
    rw [ha]
    simp [sidewaysSwitch]
  have hd : holeDepth sidewaysSwitch 4 = 141 / 10 := by
    unfold holeDepth isSideways
    rw [ha]
    simp [sidewaysSwitch]
  have hs : SaneHole (holeWidth sidewaysSwitch 4) (holeDepth sidewaysSwitch 4) 4 sidewaysSwitch.entryChamfer
      (activeClip sidewaysSwitch 4) := by
    rw [hw, hd, ha]
    refine ⟨by norm_num, by norm_num, Or.inr (by norm_num [sidewaysSwitch]), by norm_num [sidewaysSwitch], ?_⟩
    rintro c ⟨⟩
    refine ⟨by norm_num, by norm_num, by norm_num, by norm_num, by norm_num [sidewaysSwitch], by norm_num, by norm_num⟩
  obtain ⟨f, hf⟩ := C77_succeeds sidewaysSwitch 4 (by rw [ha]; rintro c ⟨⟩; norm_num)
  refine ⟨f, hf, hs, ?_⟩
  rw [C94_holeI hs hf]
  refine .inr ⟨⟨8, 9 / 10, 14 / 10, 0, true⟩, ⟨rfl, by norm_num⟩, .inr ?_⟩
  unfold NotchCorner Corner
  norm_num [sidewaysSwitch]

end Chrumm.Part
