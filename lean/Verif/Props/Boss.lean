import Verif.Props.Wall
import Verif.Props.HullDist

/-! C55: fitting bosses between the keys and the wall. -/

namespace Chrumm.Part
open Geo Geo.Spec Spec

theorem planar_unit {l : Line} (h : Planar l) : l.dir.dot l.dir = 1 := by
  obtain ⟨-, h2, h3⟩ := h
  simp only [Vec.dot, h2]
  linarith

theorem make_self {l : Line} (h : l.dir.dot l.dir = 1) : Line.make l.pos l.dir = .ok l := make_unit h

theorem planar_det {l m : Line} (hl : Planar l) (hm : Planar m) :
    1 - m.dir.dot l.dir ^ 2 = (l.dir.x * m.dir.y - l.dir.y * m.dir.x) ^ 2 := by
  obtain ⟨-, h2, h3⟩ := hl
  obtain ⟨-, k2, k3⟩ := hm
  simp only [Vec.dot, h2, k2]
  linear_combination (-1 : ℝ) * h3 - (l.dir.x ^ 2 + l.dir.y ^ 2) * k3

/-- Lines in the xy plane meet where they should. -/
theorem planar_intersect {l m : Line} {r : Vec} (hl : Planar l) (hm : Planar m) (h : l.intersect m = .ok r) :
    OnLine l.pos l.dir r ∧ OnLine m.pos m.dir r := by
  have hc : l.dir.x * m.dir.y - l.dir.y * m.dir.x ≠ 0 := by
    intro h0
    have e := intersect_eq (planar_unit hl) (planar_unit hm)
    dsimp only at e
    rw [planar_det hl hm, h0, if_pos (by simp [isZero]), h] at e
    cases e
  obtain ⟨t, ht⟩ : ∃ t : ℝ, t * (l.dir.x * m.dir.y - l.dir.y * m.dir.x) =
      (m.pos.x - l.pos.x) * m.dir.y - (m.pos.y - l.pos.y) * m.dir.x := ⟨_, div_mul_cancel₀ _ hc⟩
  obtain ⟨s, hs⟩ : ∃ s : ℝ, s * (l.dir.x * m.dir.y - l.dir.y * m.dir.x) =
      (m.pos.x - l.pos.x) * l.dir.y - (m.pos.y - l.pos.y) * l.dir.x := ⟨_, div_mul_cancel₀ _ hc⟩
  have hx : OnLine l.pos l.dir (l.pos + l.dir * t) := ⟨t, rfl⟩
  have hx' : OnLine m.pos m.dir (l.pos + l.dir * t) := by
    refine ⟨s, ?_⟩
    ext
    · apply mul_right_cancel₀ hc
      simp only [Vec.add_x, Vec.mul_x]
      linear_combination l.dir.x * ht - m.dir.x * hs
    · apply mul_right_cancel₀ hc
      simp only [Vec.add_y, Vec.mul_y]
      linear_combination l.dir.y * ht - m.dir.y * hs
    · simp [hl.1, hl.2.1, hm.1, hm.2.1]
  rw [C25_common_point l.pos l.dir m.pos m.dir l m r _ (make_self (planar_unit hl)) (make_self (planar_unit hm)) h hx hx']
  exact ⟨hx, hx'⟩

theorem planar_online {l : Line} {x : Vec} (hl : Planar l) (h : OnLine l.pos l.dir x) :
    x.z = 0 ∧ left l.pos (l.pos + l.dir) x = 0 := by
  obtain ⟨t, rfl⟩ := h
  simp only [Vec.add_z, Vec.mul_z, hl.1, hl.2.1, left, Vec.add_x, Vec.add_y, Vec.mul_x, Vec.mul_y]
  constructor <;> ring

/-- The line of a key, seen from above. -/
theorem keyLine_ok {key : Key} {l : Line} (h : keyLine2D key = .ok l) :
    Planar l ∧ ∀ x, OnLine l.pos l.dir x → OnKeyAxis key x := by
  unfold keyLine2D at h
  rw [make_unit (p := 0) (d := ⟨0, 1, 0⟩) (by simp [Vec.dot])] at h
  obtain ⟨ax, h1, h⟩ := bind_ok h
  cases h1
  obtain ⟨l1, h1, h⟩ := bind_ok h
  obtain ⟨-, h2, -⟩ := C64_line _ _ _ h1
  obtain ⟨e1, hu, k, hk, he⟩ := line_make h
  have ex := congrArg Vec.x he
  have ey := congrArg Vec.y he
  have ez := congrArg Vec.z he
  simp only [Vec.xy, Vec.mul_x, Vec.mul_y, Vec.mul_z] at ex ey ez
  have hz : l.dir.z = 0 := by
    rcases mul_eq_zero.mp ez.symm with h | h
    · exact h
    · exact absurd h hk.ne'
  refine ⟨⟨by rw [e1]; rfl, hz, ?_⟩, ?_⟩
  · simp only [Vec.dot, hz] at hu
    linarith
  · rintro x ⟨t, rfl⟩
    obtain ⟨p, ⟨s, hs⟩, hp⟩ := (h2 (l1.pos + l1.dir * (t / k))).mp ⟨_, rfl⟩
    refine ⟨s, ?_⟩
    have hps : p = ⟨0, s, 0⟩ := by rw [hs]; ext <;> simp
    rw [← hps, ← hp, e1]
    constructor
    · simp only [Vec.add_x, Vec.mul_x, Vec.xy]
      rw [ex]
      field_simp
    · simp only [Vec.add_y, Vec.mul_y, Vec.xy]
      rw [ey]
      field_simp

theorem left_move (w : Line) (v x : Vec) (c : ℝ) (hd : w.dir.x ^ 2 + w.dir.y ^ 2 = 1) :
    left (w.pos + outward w.dir * c) (w.pos + outward w.dir * c + w.dir) x = left w.pos (w.pos + w.dir) x + c := by
  simp only [left, outward, Vec.add_x, Vec.add_y, Vec.mul_x, Vec.mul_y]
  linear_combination c * hd

theorem ortho_outward (w : Line) (hz : w.dir.z = 0) : -w.dir.ortho2D = outward w.dir := by
  ext <;> simp [Vec.ortho2D, outward]

/-- A boss line: inside of the wall. -/
noncomputable def bossLineOf (wO : Line) (distance : ℝ) : Line := ⟨wO.pos + outward wO.dir * (-distance), wO.dir⟩

theorem bossLine_planar {wO : Line} (h : Planar wO) (d : ℝ) : Planar (bossLineOf wO d) :=
  ⟨by simp [bossLineOf, outward, h.1], h.2.1, h.2.2⟩

theorem bossLine_left {wO : Line} (h : Planar wO) {d : ℝ} {x : Vec}
    (hx : OnLine (bossLineOf wO d).pos (bossLineOf wO d).dir x) : x.z = 0 ∧ left wO.pos (wO.pos + wO.dir) x = d := by
  obtain ⟨h1, h2⟩ := planar_online (bossLine_planar h d) hx
  refine ⟨h1, ?_⟩
  simp only [bossLineOf] at h2
  rw [left_move wO x x _ h.2.2] at h2
  linarith

/-- The candidates around the middle. -/
noncomputable def candidates (radius : ℝ) (dir m : Vec) : List Vec :=
  (bossSteps radius).map fun (step : ℤ) => m + dir * ((step : ℝ) * (1 / 2 : ℝ))

theorem tryBoss_eq {hull0 hull1 : List Vec} {line0 line1 : Line} {radius margin : ℝ} {wO : Line} (hw : Planar wO) :
    tryBoss hull0 hull1 line0 line1 radius wO.dir (-(-wO.dir.ortho2D) * (radius + margin)) wO = (do
      let a ← (bossLineOf wO (radius + margin)).intersect line0
      let b ← (bossLineOf wO (radius + margin)).intersect line1
      findBoss hull0 hull1 radius (candidates radius wO.dir ((a + b) * (1 / 2 : ℝ)))) := by
  unfold tryBoss
  rw [translated_unit (planar_unit hw)]
  have hb : (⟨wO.pos + -(-wO.dir.ortho2D) * (radius + margin), wO.dir⟩ : Line) = bossLineOf wO (radius + margin) := by
    rw [ortho_outward wO hw.2.1]
    unfold bossLineOf
    congr 2
    ext <;> simp only [Vec.mul_x, Vec.mul_y, Vec.mul_z, Vec.neg_x, Vec.neg_y, Vec.neg_z] <;> ring
  rw [hb]
  dsimp only [bind, Except.bind]
  cases (bossLineOf wO (radius + margin)).intersect line0 with
  | error e => rfl
  | ok a =>
    dsimp only
    cases (bossLineOf wO (radius + margin)).intersect line1 with
    | error e => rfl
    | ok b =>
      dsimp only
      have : (a + b).div 2 = .ok ((a + b) * (1 / 2 : ℝ)) := by
        unfold Vec.div
        rw [if_neg two_ne_zero]
        congr 1
        ext <;> simp <;> ring
      rw [this]
      rfl

/-- Is the position far enough from both keys? -/
def FarEnough (key0 key1 : Key) (radius : ℝ) (b : Vec) : Prop :=
  ∀ k ∈ [key0, key1], ∀ p, InHull2D k.boundsI p → radius ≤ dist2D b p

theorem far_iff {key0 key1 : Key} {radius : ℝ} {b : Vec} {d0 d1 : ℝ}
    (h0 : edgeDistance2D (fromConvexHull2D key0.boundsI) b = .ok d0)
    (h1 : edgeDistance2D (fromConvexHull2D key1.boundsI) b = .ok d1) :
    (d0 ≥ radius ∧ d1 ≥ radius) ↔ FarEnough key0 key1 radius b := by
  obtain ⟨a1, p, a2, a3⟩ := C61_hull _ _ _ h0
  obtain ⟨b1, q, b2, b3⟩ := C61_hull _ _ _ h1
  constructor
  · rintro ⟨g0, g1⟩ k hk p hp
    simp only [List.mem_cons, List.not_mem_nil, or_false] at hk
    rcases hk with rfl | rfl
    · exact g0.le.trans (a1 p hp)
    · exact g1.le.trans (b1 p hp)
  · intro h
    exact ⟨by rw [a3]; exact h key0 (by simp) p a2, by rw [b3]; exact h key1 (by simp) q b2⟩

theorem findBoss_some {key0 key1 : Key} {radius : ℝ} {b : Vec} : ∀ {l : List Vec},
    findBoss (fromConvexHull2D key0.boundsI) (fromConvexHull2D key1.boundsI) radius l = .ok (some b) →
    b ∈ l ∧ FarEnough key0 key1 radius b
  | [], h => by cases h
  | x :: l, h => by
    unfold findBoss at h
    obtain ⟨d0, h0, h⟩ := bind_ok h
    obtain ⟨d1, h1, h⟩ := bind_ok h
    split_ifs at h with hc
    · cases h
      exact ⟨by simp, (far_iff h0 h1).mp hc⟩
    · obtain ⟨i1, i2⟩ := findBoss_some h
      exact ⟨List.mem_cons_of_mem _ i1, i2⟩

theorem findBoss_none {key0 key1 : Key} {radius : ℝ} : ∀ {l : List Vec},
    findBoss (fromConvexHull2D key0.boundsI) (fromConvexHull2D key1.boundsI) radius l = .ok none →
    ∀ b ∈ l, ¬ FarEnough key0 key1 radius b
  | [], _ => by simp
  | x :: l, h => by
    unfold findBoss at h
    obtain ⟨d0, h0, h⟩ := bind_ok h
    obtain ⟨d1, h1, h⟩ := bind_ok h
    split_ifs at h with hc
    · cases h
    · intro b hb
      rcases List.mem_cons.mp hb with rfl | hb
      · exact fun hf => hc ((far_iff h0 h1).mpr hf)
      · exact findBoss_none h b hb

theorem zero_mem_steps {radius : ℝ} (h : -1 < radius * 2) : (0 : ℤ) ∈ bossSteps radius := by
  unfold bossSteps
  dsimp only
  have hn : (0 : ℤ) < (if 0 ≤ radius / (1 / 2) then ⌊radius / (1 / 2)⌋ else ⌈radius / (1 / 2)⌉) + 1 := by
    split_ifs with h0
    · have := Int.floor_nonneg.mpr h0
      omega
    · have : (-1 : ℤ) < ⌈radius / (1 / 2)⌉ := Int.lt_ceil.mpr (by push_cast; linarith)
      omega
  rw [List.mem_flatMap]
  exact ⟨0, List.mem_range.mpr (by omega), by simp⟩

/-- Every half millimetre up to the boss's radius is tried, to both sides. -/
theorem mem_steps {radius : ℝ} {s : ℤ} (h : |(s : ℝ)| ≤ 2 * radius) : s ∈ bossSteps radius := by
  have h0 : 0 ≤ radius := by linarith [abs_nonneg (s : ℝ)]
  have h2 : (s.natAbs : ℤ) ≤ ⌊radius / (1 / 2)⌋ := by
    rw [Int.le_floor]
    rw [show ((s.natAbs : ℤ) : ℝ) = |(s : ℝ)| by rw [Int.natCast_natAbs]; push_cast; rfl]
    linarith
  unfold bossSteps
  dsimp only
  rw [if_pos (by linarith), List.mem_flatMap]
  refine ⟨s.natAbs, List.mem_range.mpr (by omega), ?_⟩
  simp only [List.mem_cons, List.not_mem_nil, or_false]
  omega

/-- The steps are tried in the order of their length. -/
theorem steps_sorted (radius : ℝ) : (bossSteps radius).Pairwise fun a b => |a| ≤ |b| := by
  unfold bossSteps
  dsimp only
  rw [List.pairwise_flatMap]
  refine ⟨fun i _ => by simp, ?_⟩
  refine List.pairwise_lt_range.imp fun {a b} hab => ?_
  intro x hx y hy
  simp only [List.mem_cons, List.not_mem_nil, or_false] at hx hy
  rcases hx with rfl | rfl <;> rcases hy with rfl | rfl <;> simp <;> omega

/-- The places before the found one are too close. -/
theorem findBoss_first {key0 key1 : Key} {radius : ℝ} {b : Vec} : ∀ {l : List Vec},
    findBoss (fromConvexHull2D key0.boundsI) (fromConvexHull2D key1.boundsI) radius l = .ok (some b) →
    ∃ pre post, l = pre ++ b :: post ∧ ∀ x ∈ pre, ¬ FarEnough key0 key1 radius x
  | [], h => by cases h
  | x :: l, h => by
    unfold findBoss at h
    obtain ⟨d0, h0, h⟩ := bind_ok h
    obtain ⟨d1, h1, h⟩ := bind_ok h
    split_ifs at h with hc
    · cases h
      exact ⟨[], l, rfl, by simp⟩
    · obtain ⟨pre, post, rfl, i2⟩ := findBoss_first h
      refine ⟨x :: pre, post, rfl, ?_⟩
      intro y hy
      rcases List.mem_cons.mp hy with rfl | hy
      · exact fun hf => hc ((far_iff h0 h1).mpr hf)
      · exact i2 y hy

theorem steps_bound {radius : ℝ} (h0 : 0 ≤ radius) {s : ℤ} (h : s ∈ bossSteps radius) : |(s : ℝ)| ≤ 2 * radius := by
  unfold bossSteps at h
  dsimp only at h
  obtain ⟨i, hi, hs⟩ := List.mem_flatMap.mp h
  rw [List.mem_range, if_pos (by linarith)] at hi
  have h1 : (i : ℤ) ≤ ⌊radius / (1 / 2)⌋ := by omega
  have h2 : ((i : ℤ) : ℝ) ≤ radius / (1 / 2) := Int.le_floor.mp h1
  have h3 : |(s : ℝ)| = (i : ℝ) := by
    simp only [List.mem_cons, List.not_mem_nil, or_false] at hs
    rcases hs with rfl | rfl <;> simp
  rw [h3]
  push_cast at h2
  linarith

/-- The wall, moved outwards by some rounds. -/
noncomputable def movedOut (w : Line) (dir : Vec) (n : ℕ) : Line := ⟨w.pos + outward dir * ((n : ℝ) / 4), w.dir⟩

theorem movedOut_zero (w : Line) (dir : Vec) : movedOut w dir 0 = w := by
  unfold movedOut
  congr 1
  ext <;> simp

theorem movedOut_planar {w : Line} {dir : Vec} (h : Planar w) (n : ℕ) : Planar (movedOut w dir n) :=
  ⟨by simp [movedOut, outward, h.1], h.2.1, h.2.2⟩

/-- One round of the loop. -/
theorem bossLoop_step {hull0 hull1 : List Vec} {line0 line1 : Line} {radius margin : ℝ} {wI wO : Line}
    (hI : wI.dir.dot wI.dir = 1) (hO : Planar wO) (fuel : ℕ) (n : ℕ) :
    bossLoop hull0 hull1 line0 line1 radius wO.dir (-(-wO.dir.ortho2D) * (radius + margin)) (-wO.dir.ortho2D * (1 / 4 : ℝ))
      (fuel + 1) (movedOut wI wO.dir n, movedOut wO wO.dir n) =
    match tryBoss hull0 hull1 line0 line1 radius wO.dir (-(-wO.dir.ortho2D) * (radius + margin)) (movedOut wO wO.dir n) with
    | .error e => some (.error e)
    | .ok (some b) => some (.ok (b, movedOut wI wO.dir n, movedOut wO wO.dir n))
    | .ok none => bossLoop hull0 hull1 line0 line1 radius wO.dir (-(-wO.dir.ortho2D) * (radius + margin))
        (-wO.dir.ortho2D * (1 / 4 : ℝ)) fuel (movedOut wI wO.dir (n + 1), movedOut wO wO.dir (n + 1)) := by
  rw [bossLoop]
  cases tryBoss hull0 hull1 line0 line1 radius wO.dir (-(-wO.dir.ortho2D) * (radius + margin)) (movedOut wO wO.dir n) with
  | error e => rfl
  | ok o =>
    cases o with
    | some b => rfl
    | none =>
      dsimp only
      rw [translated_unit (l := movedOut wI wO.dir n) hI, translated_unit (l := movedOut wO wO.dir n) (planar_unit (movedOut_planar hO n)),
        ortho_outward wO hO.2.1]
      dsimp only
      have : ∀ w : Line, (⟨(movedOut w wO.dir n).pos + outward wO.dir * (1 / 4 : ℝ), (movedOut w wO.dir n).dir⟩ : Line) =
          movedOut w wO.dir (n + 1) := by
        intro w
        unfold movedOut
        congr 1
        ext <;> simp <;> ring
      rw [this, this]

theorem bossLoop_ok {hull0 hull1 : List Vec} {line0 line1 : Line} {radius margin : ℝ} {wI wO : Line}
    (hI : wI.dir.dot wI.dir = 1) (hO : Planar wO) {b : Vec} {wI' wO' : Line} : ∀ (fuel k : ℕ),
    bossLoop hull0 hull1 line0 line1 radius wO.dir (-(-wO.dir.ortho2D) * (radius + margin)) (-wO.dir.ortho2D * (1 / 4 : ℝ))
      fuel (movedOut wI wO.dir k, movedOut wO wO.dir k) = some (.ok (b, wI', wO')) →
    ∃ n, k ≤ n ∧ wI' = movedOut wI wO.dir n ∧ wO' = movedOut wO wO.dir n ∧
      tryBoss hull0 hull1 line0 line1 radius wO.dir (-(-wO.dir.ortho2D) * (radius + margin)) (movedOut wO wO.dir n) =
        .ok (some b) ∧ ∀ i, k ≤ i → i < n →
      tryBoss hull0 hull1 line0 line1 radius wO.dir (-(-wO.dir.ortho2D) * (radius + margin)) (movedOut wO wO.dir i) = .ok none
  | 0, k, h => by cases h
  | fuel + 1, k, h => by
    rw [bossLoop_step hI hO] at h
    split at h
    · cases h
    · rename_i heq
      cases h
      exact ⟨k, le_rfl, rfl, rfl, heq, fun i h1 h2 => by omega⟩
    · rename_i heq
      obtain ⟨n, hn, h1, h2, h3, h4⟩ := bossLoop_ok hI hO fuel (k + 1) h
      refine ⟨n, by omega, h1, h2, h3, ?_⟩
      intro i hi hin
      rcases Nat.eq_or_lt_of_le hi with rfl | hi
      · exact heq
      · exact h4 i hi hin

theorem fitBoss_ok {cfg : BossFit} {wI wO : Line} {key0 key1 : Key} {fuel : ℕ} {b : Vec} {wI' wO' : Line}
    (hI : wI.dir.dot wI.dir = 1) (hO : Planar wO)
    (h : fitBoss2D cfg (wI, wO) key0 key1 fuel = some (.ok (b, wI', wO'))) :
    ∃ line0 line1 n, keyLine2D key0 = .ok line0 ∧ keyLine2D key1 = .ok line1 ∧ wI' = movedOut wI wO.dir n ∧
      wO' = movedOut wO wO.dir n ∧
      tryBoss (fromConvexHull2D key0.boundsI) (fromConvexHull2D key1.boundsI) line0 line1 (cfg.diameter / 2) wO.dir
        (-(-wO.dir.ortho2D) * (cfg.diameter / 2 + cfg.outerWallMargin)) (movedOut wO wO.dir n) = .ok (some b) ∧
      ∀ i < n, tryBoss (fromConvexHull2D key0.boundsI) (fromConvexHull2D key1.boundsI) line0 line1 (cfg.diameter / 2) wO.dir
        (-(-wO.dir.ortho2D) * (cfg.diameter / 2 + cfg.outerWallMargin)) (movedOut wO wO.dir i) = .ok none := by
  unfold fitBoss2D at h
  dsimp only at h
  split at h
  · cases h
  · rename_i line0 h0
    split at h
    · cases h
    · rename_i line1 h1
      have := bossLoop_ok (k := 0) hI hO fuel (by rw [movedOut_zero, movedOut_zero]; exact h)
      obtain ⟨n, -, e1, e2, e3, e4⟩ := this
      exact ⟨line0, line1, n, h0, h1, e1, e2, e3, fun i hi => e4 i (by omega) hi⟩

/-- The places that a round tries. -/
theorem tryBoss_ok {key0 key1 : Key} {line0 line1 : Line} {radius margin : ℝ} {wO : Line} {o : Option Vec}
    (h0 : keyLine2D key0 = .ok line0) (h1 : keyLine2D key1 = .ok line1) (hw : Planar wO)
    (h : tryBoss (fromConvexHull2D key0.boundsI) (fromConvexHull2D key1.boundsI) line0 line1 radius wO.dir
      (-(-wO.dir.ortho2D) * (radius + margin)) wO = .ok o) :
    ∃ m, Between key0 key1 wO (radius + margin) m ∧
      findBoss (fromConvexHull2D key0.boundsI) (fromConvexHull2D key1.boundsI) radius (candidates radius wO.dir m) = .ok o := by
  rw [tryBoss_eq hw] at h
  obtain ⟨a, ha, h⟩ := bind_ok h
  obtain ⟨c, hc, h⟩ := bind_ok h
  obtain ⟨p0, k0⟩ := keyLine_ok h0
  obtain ⟨p1, k1⟩ := keyLine_ok h1
  obtain ⟨a1, a2⟩ := planar_intersect (bossLine_planar hw _) p0 ha
  obtain ⟨c1, c2⟩ := planar_intersect (bossLine_planar hw _) p1 hc
  obtain ⟨az, al⟩ := bossLine_left hw a1
  obtain ⟨cz, cl⟩ := bossLine_left hw c1
  refine ⟨_, ⟨a, c, k0 a a2, k1 c c2, al, cl, rfl⟩, ?_⟩
  convert h using 3
  ext <;> simp [az, cz] <;> ring

/-- **C55** A boss gets a place in the xy plane at the distance of its radius and the margin to the inside of the outer wall
line, near the middle between the lines of both keys, and at least its radius away from the inner bounds of both keys (their
convex hull, seen from above). Both wall lines are moved outwards by the same multiple of 1/4 to make room. -/
theorem C55_result {cfg : BossFit} {wI wO : Line} {key0 key1 : Key} {fuel : ℕ} {b : Vec} {wI' wO' : Line}
    (hI : wI.dir.dot wI.dir = 1) (hO : Planar wO) (hr : 0 ≤ cfg.diameter)
    (h : fitBoss2D cfg (wI, wO) key0 key1 fuel = some (.ok (b, wI', wO'))) :
    (∃ n : ℕ, wI' = ⟨wI.pos + outward wO.dir * ((n : ℝ) / 4), wI.dir⟩ ∧
      wO' = ⟨wO.pos + outward wO.dir * ((n : ℝ) / 4), wO.dir⟩) ∧
    b.z = 0 ∧ left wO'.pos (wO'.pos + wO'.dir) b = cfg.diameter / 2 + cfg.outerWallMargin ∧
    (∃ m, ∃ step : ℤ, Between key0 key1 wO' (cfg.diameter / 2 + cfg.outerWallMargin) m ∧
      b = m + wO.dir * ((step : ℝ) / 2) ∧ |(step : ℝ)| ≤ cfg.diameter) ∧
    ∀ k ∈ [key0, key1], ∀ p, InHull2D k.boundsI p → cfg.diameter / 2 ≤ dist2D b p := by
  obtain ⟨line0, line1, n, h0, h1, e1, e2, e3, -⟩ := fitBoss_ok hI hO h
  have hP : Planar wO' := by rw [e2]; exact movedOut_planar hO n
  have hdir : wO'.dir = wO.dir := by rw [e2]; rfl
  rw [← e2, ← hdir] at e3
  obtain ⟨m, hm, hf⟩ := tryBoss_ok h0 h1 hP e3
  obtain ⟨hmem, hfar⟩ := findBoss_some hf
  obtain ⟨step, hstep, hb⟩ := List.mem_map.mp hmem
  have hb' : b = m + wO.dir * ((step : ℝ) / 2) := by
    rw [← hb, hdir]
    ext <;> simp only [Vec.add_x, Vec.add_y, Vec.add_z, Vec.mul_x, Vec.mul_y, Vec.mul_z] <;> ring
  refine ⟨⟨n, e1, e2⟩, ?_, ?_, ⟨m, step, hm, hb', ?_⟩, hfar⟩
  · obtain ⟨x, y, -, -, -, -, rfl⟩ := hm
    rw [hb']
    simp [hO.2.1]
  · obtain ⟨x, y, -, -, hx, hy, rfl⟩ := hm
    rw [← hb]
    simp only [left, Vec.add_x, Vec.add_y, Vec.mul_x, Vec.mul_y] at hx hy ⊢
    linarith
  · have := steps_bound (by linarith) hstep
    linarith

/-- **C55** The walls are moved only if necessary: closer to the keys, every place that is tried, half millimetre by half
millimetre along the wall up to the radius of the boss to both sides of the middle, would be too close to one of the keys. -/
theorem C55_necessary {cfg : BossFit} {wI wO : Line} {key0 key1 : Key} {fuel : ℕ} {b : Vec} {wI' wO' : Line}
    (hI : wI.dir.dot wI.dir = 1) (hO : Planar wO)
    (h : fitBoss2D cfg (wI, wO) key0 key1 fuel = some (.ok (b, wI', wO'))) (n : ℕ)
    (hn : wO'.pos = wO.pos + outward wO.dir * ((n : ℝ) / 4)) (k : ℕ) (hk : k < n) :
    ∃ m, Between key0 key1 ⟨wO.pos + outward wO.dir * ((k : ℝ) / 4), wO.dir⟩ (cfg.diameter / 2 + cfg.outerWallMargin) m ∧
      ∀ step : ℤ, |(step : ℝ)| ≤ cfg.diameter → ∃ key ∈ [key0, key1], ∃ p, InHull2D key.boundsI p ∧
        dist2D (m + wO.dir * ((step : ℝ) / 2)) p < cfg.diameter / 2 := by
  obtain ⟨line0, line1, n', h0, h1, e1, e2, -, e4⟩ := fitBoss_ok hI hO h
  have hnn : n' = n := by
    rw [e2] at hn
    have hx := congrArg Vec.x hn
    have hy := congrArg Vec.y hn
    simp only [movedOut, outward, Vec.add_x, Vec.add_y, Vec.mul_x, Vec.mul_y, add_right_inj] at hx hy
    have : ((n' : ℝ) / 4 - n / 4) = 0 := by
      linear_combination wO.dir.y * hx - wO.dir.x * hy - ((n' : ℝ) / 4 - n / 4) * hO.2.2
    have : (n' : ℝ) = n := by linarith
    exact_mod_cast this
  have h3 := e4 k (by omega)
  obtain ⟨m, hm, hf⟩ := tryBoss_ok h0 h1 (movedOut_planar (dir := wO.dir) hO k) h3
  refine ⟨m, hm, fun step hs => ?_⟩
  have := findBoss_none hf (m + wO.dir * ((step : ℝ) / 2)) (List.mem_map.mpr ⟨step, mem_steps (by linarith), by
    ext <;> simp [movedOut, div_eq_mul_inv]⟩)
  unfold FarEnough at this
  push Not at this
  exact this

/-- **C55** Of the places that are tried along the wall, the boss gets the one closest to the middle: any closer one would be
too close to one of the keys. -/
theorem C55_nearest {cfg : BossFit} {wI wO : Line} {key0 key1 : Key} {fuel : ℕ} {b : Vec} {wI' wO' : Line}
    (hI : wI.dir.dot wI.dir = 1) (hO : Planar wO)
    (h : fitBoss2D cfg (wI, wO) key0 key1 fuel = some (.ok (b, wI', wO'))) :
    ∃ m, ∃ step : ℤ, Between key0 key1 wO' (cfg.diameter / 2 + cfg.outerWallMargin) m ∧
      b = m + wO.dir * ((step : ℝ) / 2) ∧
      ∀ closer : ℤ, |closer| < |step| → |(closer : ℝ)| ≤ cfg.diameter → ∃ key ∈ [key0, key1], ∃ p, InHull2D key.boundsI p ∧
        dist2D (m + wO.dir * ((closer : ℝ) / 2)) p < cfg.diameter / 2 := by
  obtain ⟨line0, line1, n, h0, h1, e1, e2, e3, -⟩ := fitBoss_ok hI hO h
  have hP : Planar wO' := by rw [e2]; exact movedOut_planar hO n
  have hdir : wO'.dir = wO.dir := by rw [e2]; rfl
  rw [← e2, ← hdir] at e3
  obtain ⟨m, hm, hf⟩ := tryBoss_ok h0 h1 hP e3
  obtain ⟨pre, post, he, hpre⟩ := findBoss_first hf
  obtain ⟨pre', rest, hl, rfl, hr⟩ := List.map_eq_append_iff.mp he
  obtain ⟨step, post', rfl, hb, rfl⟩ := List.map_eq_cons_iff.mp hr
  have half : ∀ s : ℤ, m + wO'.dir * ((s : ℝ) * (1 / 2 : ℝ)) = m + wO.dir * ((s : ℝ) / 2) := by
    intro s
    rw [hdir]
    ext <;> simp [div_eq_mul_inv]
  refine ⟨m, step, hm, by rw [← hb, half], fun closer hc hd => ?_⟩
  have hmem : closer ∈ bossSteps (cfg.diameter / 2) := mem_steps (by linarith)
  have hs := steps_sorted (cfg.diameter / 2)
  rw [hl] at hmem hs
  have hin : closer ∈ pre' := by
    rcases List.mem_append.mp hmem with h | h
    · exact h
    · have h2 := (List.pairwise_cons.mp (List.pairwise_append.mp hs).2.1).1
      rcases List.mem_cons.mp h with rfl | h
      · omega
      · have := h2 closer h
        omega
  have := hpre _ (List.mem_map_of_mem hin)
  rw [half] at this
  unfold FarEnough at this
  push Not at this
  exact this

/-- A place far outside of the hulls is far enough. -/
theorem far_outside {vs : List Vec} {w : Line} (hw : Planar w) {b : Vec} {c r : ℝ} (hvs : ∀ u ∈ vs, c ≤ left w.pos (w.pos + w.dir) u)
    (hb : left w.pos (w.pos + w.dir) b ≤ c - r) (hr : 0 ≤ r) (p : Vec) (hp : InHull2D vs p) : r ≤ dist2D b p := by
  have h1 : c ≤ left w.pos (w.pos + w.dir) p := by
    have := hp w.dir.y (-w.dir.x) (w.dir.y * w.pos.x - w.dir.x * w.pos.y - c) (by
      intro u hu
      have := hvs u hu
      simp only [left, Vec.add_x, Vec.add_y] at this
      linarith)
    simp only [left, Vec.add_x, Vec.add_y]
    linarith
  apply Real.le_sqrt_of_sq_le
  simp only [left, Vec.add_x, Vec.add_y] at h1 hb
  unfold distSq2D
  have h2 : r ≤ w.dir.x * (p.y - b.y) - w.dir.y * (p.x - b.x) := by linarith
  have h3 := hw.2.2
  have h4 : r ^ 2 ≤ (w.dir.x * (p.y - b.y) - w.dir.y * (p.x - b.x)) ^ 2 := pow_le_pow_left₀ hr h2 2
  have h5 : (w.dir.x * (p.y - b.y) - w.dir.y * (p.x - b.x)) ^ 2 +
      (w.dir.x * (p.x - b.x) + w.dir.y * (p.y - b.y)) ^ 2 = (b.x - p.x) ^ 2 + (b.y - p.y) ^ 2 := by
    linear_combination ((b.x - p.x) ^ 2 + (b.y - p.y) ^ 2) * h3
  nlinarith [sq_nonneg (w.dir.x * (p.x - b.x) + w.dir.y * (p.y - b.y))]

theorem exists_lower (w : Line) (vs : List Vec) : ∃ c, ∀ u ∈ vs, c ≤ left w.pos (w.pos + w.dir) u := by
  induction vs with
  | nil => exact ⟨0, by simp⟩
  | cons a vs ih =>
    obtain ⟨c, hc⟩ := ih
    refine ⟨min c (left w.pos (w.pos + w.dir) a), ?_⟩
    intro u hu
    rcases List.mem_cons.mp hu with rfl | hu
    · exact min_le_right _ _
    · exact (min_le_left _ _).trans (hc u hu)

/-- **C55** The search ends, after finitely many rounds. -/
theorem C55_terminates (cfg : BossFit) (wI wO : Line) (key0 key1 : Key)
    (hI : wI.dir.dot wI.dir = 1) (hO : Planar wO) (hr : -1 < cfg.diameter) :
    ∃ rounds result, ∀ fuel ≥ rounds, fitBoss2D cfg (wI, wO) key0 key1 fuel = some result := by
  unfold fitBoss2D
  dsimp only
  rcases h0 : keyLine2D key0 with e | line0
  · exact ⟨0, .error e, fun _ _ => rfl⟩
  dsimp only
  rcases h1 : keyLine2D key1 with e | line1
  · exact ⟨0, .error e, fun _ _ => rfl⟩
  dsimp only
  obtain ⟨c, hc⟩ := exists_lower wO (key0.boundsI ++ key1.boundsI)
  obtain ⟨N, hN⟩ := exists_nat_ge (4 * (cfg.diameter / 2 + cfg.outerWallMargin + max 0 (cfg.diameter / 2) - c))
  -- in a late round, there is a place
  have late : ∀ n ≥ N, tryBoss (fromConvexHull2D key0.boundsI) (fromConvexHull2D key1.boundsI) line0 line1 (cfg.diameter / 2)
      wO.dir (-(-wO.dir.ortho2D) * (cfg.diameter / 2 + cfg.outerWallMargin)) (movedOut wO wO.dir n) ≠ .ok none := by
    intro n hn h
    obtain ⟨m, ⟨x, y, -, -, hx, hy, rfl⟩, hf⟩ := tryBoss_ok h0 h1 (movedOut_planar (dir := wO.dir) hO n) h
    have hno := findBoss_none hf ⟨(x.x + y.x) / 2, (x.y + y.y) / 2, 0⟩
      (List.mem_map.mpr ⟨0, zero_mem_steps (by linarith), by ext <;> simp⟩)
    apply hno
    have hm : left wO.pos (wO.pos + wO.dir) ⟨(x.x + y.x) / 2, (x.y + y.y) / 2, 0⟩ + (n : ℝ) / 4 =
        cfg.diameter / 2 + cfg.outerWallMargin := by
      rw [← left_move wO x _ _ hO.2.2]
      simp only [movedOut] at hx hy
      simp only [left, Vec.add_x, Vec.add_y] at hx hy ⊢
      linarith
    have hNn : (N : ℝ) ≤ n := by exact_mod_cast hn
    intro k hk p hp
    have hsub : ∀ u ∈ k.boundsI, c ≤ left wO.pos (wO.pos + wO.dir) u := by
      intro u hu
      apply hc
      simp only [List.mem_cons, List.not_mem_nil, or_false] at hk
      rcases hk with rfl | rfl <;> simp [hu]
    refine (le_max_right 0 (cfg.diameter / 2)).trans (far_outside hO hsub ?_ (le_max_left _ _) p hp)
    linarith
  have main : ∀ k n, N ≤ n + k → ∃ result, ∀ fuel ≥ k + 1,
      bossLoop (fromConvexHull2D key0.boundsI) (fromConvexHull2D key1.boundsI) line0 line1 (cfg.diameter / 2) wO.dir
        (-(-wO.dir.ortho2D) * (cfg.diameter / 2 + cfg.outerWallMargin)) (-wO.dir.ortho2D * (1 / 4 : ℝ)) fuel
        (movedOut wI wO.dir n, movedOut wO wO.dir n) = some result := by
    intro k
    induction k with
    | zero =>
      intro n hn
      have hl := late n (by omega)
      rcases ht : tryBoss (fromConvexHull2D key0.boundsI) (fromConvexHull2D key1.boundsI) line0 line1 (cfg.diameter / 2)
        wO.dir (-(-wO.dir.ortho2D) * (cfg.diameter / 2 + cfg.outerWallMargin)) (movedOut wO wO.dir n) with e | o
      · refine ⟨.error e, fun fuel hf => ?_⟩
        obtain ⟨f, rfl⟩ : ∃ f, fuel = f + 1 := ⟨fuel - 1, by omega⟩
        rw [bossLoop_step hI hO, ht]
      · cases o with
        | none => exact absurd ht hl
        | some b =>
          refine ⟨.ok (b, movedOut wI wO.dir n, movedOut wO wO.dir n), fun fuel hf => ?_⟩
          obtain ⟨f, rfl⟩ : ∃ f, fuel = f + 1 := ⟨fuel - 1, by omega⟩
          rw [bossLoop_step hI hO, ht]
    | succ k ih =>
      intro n hn
      rcases ht : tryBoss (fromConvexHull2D key0.boundsI) (fromConvexHull2D key1.boundsI) line0 line1 (cfg.diameter / 2)
        wO.dir (-(-wO.dir.ortho2D) * (cfg.diameter / 2 + cfg.outerWallMargin)) (movedOut wO wO.dir n) with e | o
      · refine ⟨.error e, fun fuel hf => ?_⟩
        obtain ⟨f, rfl⟩ : ∃ f, fuel = f + 1 := ⟨fuel - 1, by omega⟩
        rw [bossLoop_step hI hO, ht]
      · cases o with
        | none =>
          obtain ⟨r, hr⟩ := ih (n + 1) (by omega)
          refine ⟨r, fun fuel hf => ?_⟩
          obtain ⟨f, rfl⟩ : ∃ f, fuel = f + 1 := ⟨fuel - 1, by omega⟩
          rw [bossLoop_step hI hO, ht]
          exact hr f (by omega)
        | some b =>
          refine ⟨.ok (b, movedOut wI wO.dir n, movedOut wO wO.dir n), fun fuel hf => ?_⟩
          obtain ⟨f, rfl⟩ : ∃ f, fuel = f + 1 := ⟨fuel - 1, by omega⟩
          rw [bossLoop_step hI hO, ht]
  obtain ⟨r, hr⟩ := main N 0 (by omega)
  refine ⟨N + 1, r, fun fuel hf => ?_⟩
  have := hr fuel hf
  rw [movedOut_zero, movedOut_zero] at this
  exact this

/-! ### Success -/

theorem hull_ne_nil {vs : List Vec} (h : 2 ≤ vs.length) : fromConvexHull2D vs ≠ [] := by
  intro h0
  by_cases hd : ∃ u ∈ vs, ∃ w ∈ vs, u.xy ≠ w.xy
  · have := (C31_convex_hull vs hd).1
    rw [h0] at this
    simp at this
  · push Not at hd
    cases vs with
    | nil => simp at h
    | cons u us =>
      rw [C31_coincident _ u.xy (fun w hw => (hd u (by simp) w hw).symm), if_neg (by omega)] at h0
      cases h0

theorem edgeDistance_ok {e : List Vec} (h : e ≠ []) (v : Vec) : ∃ d, edgeDistance2D e v = .ok d := by
  rcases hd : edgeDistance2D e v with x | d
  · exact absurd ((C61_raises_iff e v x).mp hd).1 h
  · exact ⟨d, rfl⟩

theorem findBoss_succeeds {h0 h1 : List Vec} (n0 : h0 ≠ []) (n1 : h1 ≠ []) (radius : ℝ) :
    ∀ l, ∃ o, findBoss h0 h1 radius l = .ok o
  | [] => ⟨none, rfl⟩
  | x :: l => by
    unfold findBoss
    obtain ⟨d0, e0⟩ := edgeDistance_ok n0 x
    obtain ⟨d1, e1⟩ := edgeDistance_ok n1 x
    rw [e0, e1]
    dsimp only [bind, Except.bind]
    split_ifs
    · exact ⟨some x, rfl⟩
    · exact findBoss_succeeds n0 n1 radius l

theorem planar_meets {l m : Line} (hl : Planar l) (hm : Planar m)
    (h : 1e-6 ≤ (l.dir.x * m.dir.y - l.dir.y * m.dir.x) ^ 2) : ∃ r, l.intersect m = .ok r := by
  have e := intersect_eq (planar_unit hl) (planar_unit hm)
  dsimp only at e
  rw [planar_det hl hm, if_neg (by
    unfold isZero
    rw [abs_of_nonneg (sq_nonneg _)]
    norm_num at h ⊢
    exact h)] at e
  exact ⟨_, e⟩

/-- **C55** The search succeeds if the lines of the keys have at least a small angle to the wall. -/
theorem C55_succeeds (cfg : BossFit) (wI wO : Line) (key0 key1 : Key) (line0 line1 : Line)
    (hI : wI.dir.dot wI.dir = 1) (hO : Planar wO) (hr : -1 < cfg.diameter)
    (h0 : keyLine2D key0 = .ok line0) (h1 : keyLine2D key1 = .ok line1)
    (p0 : 1e-6 ≤ (wO.dir.x * line0.dir.y - wO.dir.y * line0.dir.x) ^ 2)
    (p1 : 1e-6 ≤ (wO.dir.x * line1.dir.y - wO.dir.y * line1.dir.x) ^ 2)
    (b0 : 2 ≤ key0.boundsI.length) (b1 : 2 ≤ key1.boundsI.length) :
    ∃ rounds result, ∀ fuel ≥ rounds, fitBoss2D cfg (wI, wO) key0 key1 fuel = some (.ok result) := by
  obtain ⟨rounds, result, hf⟩ := C55_terminates cfg wI wO key0 key1 hI hO hr
  rcases result with e | result
  swap
  · exact ⟨rounds, result, hf⟩
  exfalso
  have htry : ∀ n, ∃ o, tryBoss (fromConvexHull2D key0.boundsI) (fromConvexHull2D key1.boundsI) line0 line1
      (cfg.diameter / 2) wO.dir (-(-wO.dir.ortho2D) * (cfg.diameter / 2 + cfg.outerWallMargin)) (movedOut wO wO.dir n) =
      .ok o := by
    intro n
    have := tryBoss_eq (hull0 := fromConvexHull2D key0.boundsI) (hull1 := fromConvexHull2D key1.boundsI) (line0 := line0)
      (line1 := line1) (radius := cfg.diameter / 2) (margin := cfg.outerWallMargin) (movedOut_planar (dir := wO.dir) hO n)
    rw [show (movedOut wO wO.dir n).dir = wO.dir from rfl] at this
    rw [this]
    obtain ⟨a, ha⟩ := planar_meets (bossLine_planar (movedOut_planar (dir := wO.dir) hO n)
      (cfg.diameter / 2 + cfg.outerWallMargin)) (keyLine_ok h0).1 p0
    obtain ⟨c, hc⟩ := planar_meets (bossLine_planar (movedOut_planar (dir := wO.dir) hO n)
      (cfg.diameter / 2 + cfg.outerWallMargin)) (keyLine_ok h1).1 p1
    rw [ha, hc]
    exact findBoss_succeeds (hull_ne_nil b0) (hull_ne_nil b1) _ _
  have hloop : ∀ fuel n, bossLoop (fromConvexHull2D key0.boundsI) (fromConvexHull2D key1.boundsI) line0 line1
      (cfg.diameter / 2) wO.dir (-(-wO.dir.ortho2D) * (cfg.diameter / 2 + cfg.outerWallMargin))
      (-wO.dir.ortho2D * (1 / 4 : ℝ)) fuel (movedOut wI wO.dir n, movedOut wO wO.dir n) ≠ some (.error e) := by
    intro fuel
    induction fuel with
    | zero => intro n h; cases h
    | succ fuel ih =>
      intro n h
      rw [bossLoop_step hI hO] at h
      obtain ⟨o, ho⟩ := htry n
      rw [ho] at h
      cases o with
      | some b => cases h
      | none => exact ih _ h
  have := hf rounds le_rfl
  unfold fitBoss2D at this
  rw [h0, h1] at this
  dsimp only at this
  have h2 := hloop rounds 0
  rw [movedOut_zero, movedOut_zero] at h2
  exact h2 this

/-! ### The keys next to the boss -/

theorem plane_self {p : Plane} (h : p.normal.dot p.normal = 1) : Plane.make p.pos p.normal = .ok p := by
  have hm : p.normal.magnitude = 1 := by
    unfold Vec.magnitude
    rw [show p.normal.x * p.normal.x + p.normal.y * p.normal.y + p.normal.z * p.normal.z = 1 from h, Real.sqrt_one]
  unfold Plane.make Vec.normalized Vec.div
  rw [hm, if_neg one_ne_zero]
  simp [bind, Except.bind, pure, Except.pure]

/-- **C55** The boss behind the alnum keys is placed between two keys for which the place behind the key, where its line meets
the back plane, is closest to the middle of the back plane's upper edge. -/
theorem C55_boss_keys {keys ks : List Key} {planeL planeR planeB planeT : Plane}
    (hL : planeL.normal.dot planeL.normal = 1) (hR : planeR.normal.dot planeR.normal = 1)
    (hB : planeB.normal.dot planeB.normal = 1) (hT : planeT.normal.dot planeT.normal = 1)
    (h : alnumBossKeys keys planeL planeR planeB planeT = .ok ks) :
    ∃ (l r : Vec) (meet : Key → Vec) (rest : List Key),
      (OnPlane planeL.pos planeL.normal l ∧ OnPlane planeB.pos planeB.normal l ∧ OnPlane planeT.pos planeT.normal l) ∧
      (OnPlane planeR.pos planeR.normal r ∧ OnPlane planeB.pos planeB.normal r ∧ OnPlane planeT.pos planeT.normal r) ∧
      (∀ k ∈ keys, OnPlane planeB.pos planeB.normal (meet k) ∧ ∃ s : ℝ, meet k = (⟨0, s, 0⟩ : Vec).transformed k.matrix) ∧
      keys.Perm (ks ++ rest) ∧ ks.length = min 2 keys.length ∧
      ks.Pairwise (fun a b => distSq ((l + r) * (1 / 2 : ℝ)) (meet a) ≤ distSq ((l + r) * (1 / 2 : ℝ)) (meet b)) ∧
      ∀ a ∈ ks, ∀ b ∈ rest, distSq ((l + r) * (1 / 2 : ℝ)) (meet a) ≤ distSq ((l + r) * (1 / 2 : ℝ)) (meet b) := by
  classical
  unfold alnumBossKeys at h
  obtain ⟨l, hl, h⟩ := bind_ok h
  obtain ⟨r, hr, h⟩ := bind_ok h
  obtain ⟨mid, hm, h⟩ := bind_ok h
  obtain ⟨ax, ha, h⟩ := bind_ok h
  rw [make_unit (p := 0) (d := ⟨0, 1, 0⟩) (by simp [Vec.dot])] at ha
  cases ha
  obtain ⟨ds, hds, h⟩ := bind_ok h
  have hmid : mid = (l + r) * (1 / 2 : ℝ) := by
    unfold Vec.div at hm
    rw [if_neg two_ne_zero] at hm
    cases hm
    ext <;> simp <;> ring
  rw [hmid] at hds
  -- where the line of a key meets the plane
  let meet : Key → Vec := fun k =>
    match (do let line ← Line.transformed ⟨0, ⟨0, 1, 0⟩⟩ k.matrix; planeB.intersectLine line : Py Vec) with
    | .ok v => v
    | .error _ => 0
  have hmeet : ∀ k line v, Line.transformed ⟨0, ⟨0, 1, 0⟩⟩ k.matrix = .ok line → planeB.intersectLine line = .ok v →
      meet k = v := by
    intro k line v h1 h2
    show (match (do let line ← Line.transformed ⟨0, ⟨0, 1, 0⟩⟩ k.matrix; planeB.intersectLine line : Py Vec) with
      | .ok v => v
      | .error _ => 0) = v
    rw [h1]
    dsimp only [bind, Except.bind]
    rw [h2]
  have hfor := mapM_ok hds
  have hds' := mapM_ok_eq (g := fun ki : Key × ℕ => (distSq ((l + r) * (1 / 2 : ℝ)) (meet ki.1), ki.2)) hds (by
    intro ki _ y hy
    obtain ⟨line, h1, hy⟩ := bind_ok hy
    obtain ⟨v, h2, hy⟩ := bind_ok hy
    cases hy
    rw [hmeet _ _ _ h1 h2]
    congr 1
    simp only [Vec.magSquared, distSq, Vec.sub_x, Vec.sub_y, Vec.sub_z]
    ring)
  have hon : ∀ k ∈ keys, OnPlane planeB.pos planeB.normal (meet k) ∧
      ∃ s : ℝ, meet k = (⟨0, s, 0⟩ : Vec).transformed k.matrix := by
    intro k hk
    obtain ⟨i, hi, rfl⟩ := List.mem_iff_getElem.mp hk
    have hik : (keys[i], i) ∈ keys.zipIdx := by
      rw [List.mem_iff_getElem]
      exact ⟨i, by simpa using hi, by simp⟩
    obtain ⟨j, hj, hje⟩ := List.mem_iff_getElem.mp hik
    have hj' : j < ds.length := by rw [← hfor.length_eq]; exact hj
    have hf := List.Forall₂.get hfor hj hj'
    simp only [List.get_eq_getElem, hje] at hf
    obtain ⟨line, h1, hf⟩ := bind_ok hf
    obtain ⟨v, h2, -⟩ := bind_ok hf
    rw [hmeet _ _ _ h1 h2]
    obtain ⟨-, h3, h4⟩ := C64_line _ _ _ h1
    obtain ⟨h5, h6⟩ := ((C27_plane_line planeB.pos planeB.normal line.pos line.dir planeB line (plane_self hB)
      (make_self h4)).2 v h2 v).mpr rfl
    obtain ⟨p, ⟨s, hs⟩, rfl⟩ := (h3 v).mp h6
    refine ⟨h5, s, ?_⟩
    congr 1
    rw [hs]
    ext <;> simp
  -- the sorted list
  have hsort := List.pairwise_mergeSort (le := fun a b : ℝ × ℕ => decide (pairLe a b)) (by
    intro a b c h1 h2
    have h1 : pairLe a b := of_decide_eq_true h1
    have h2 : pairLe b c := of_decide_eq_true h2
    apply decide_eq_true
    unfold pairLe at *
    rcases h1 with h1 | ⟨h1, h1'⟩ <;> rcases h2 with h2 | ⟨h2, h2'⟩
    · left; linarith
    · left; linarith
    · left; linarith
    · right; exact ⟨by linarith, by omega⟩) (by
    intro a b
    rw [Bool.or_eq_true]
    rcases lt_trichotomy a.1 b.1 with h | h | h
    · exact .inl (decide_eq_true (.inl h))
    · rcases Nat.le_total a.2 b.2 with h' | h'
      · exact .inl (decide_eq_true (.inr ⟨h, h'⟩))
      · exact .inr (decide_eq_true (.inr ⟨h.symm, h'⟩))
    · exact .inr (decide_eq_true (.inl h))) ds
  have hperm := List.mergeSort_perm ds (fun a b : ℝ × ℕ => decide (pairLe a b))
  set S := ds.mergeSort fun a b : ℝ × ℕ => decide (pairLe a b) with hS
  have hget : ∀ x ∈ S, ∃ hi : x.2 < keys.length, x.1 = distSq ((l + r) * (1 / 2 : ℝ)) (meet keys[x.2]) := by
    intro x hx
    have := hperm.mem_iff.mp hx
    rw [hds'] at this
    obtain ⟨⟨k, i⟩, hki, rfl⟩ := List.mem_map.mp this
    obtain ⟨h1, h2, h3⟩ := List.mem_zipIdx hki
    simp only [Nat.zero_add, Nat.sub_zero] at h2 h3
    exact ⟨h2, by rw [h3]⟩
  let K : ℝ × ℕ → Key := fun x => keys.getD x.2 ⟨⟨[], [], [], [], []⟩, 0, 0, [], 1⟩
  have hKeq : ∀ x, ∀ hi : x.2 < keys.length, K x = keys[x.2] := fun x hi => by
    show keys.getD x.2 _ = _
    rw [List.getD_eq_getElem?_getD, List.getElem?_eq_getElem hi]; rfl
  have hKall : ds.map K = keys := by
    rw [hds', List.map_map]
    apply List.ext_getElem
    · simp
    · intro i h1 h2
      simp only [List.getElem_map, List.getElem_zipIdx, Function.comp, Nat.zero_add]
      rw [hKeq _ h2]
  have hks : ks = (S.take 2).map K := by
    refine mapM_ok_eq h ?_
    intro x hx y hy
    obtain ⟨hi, -⟩ := hget x (List.mem_of_mem_take hx)
    rw [pyGet_ok, List.getElem?_eq_getElem hi] at hy
    cases hy
    exact (hKeq x hi).symm
  have hd : ∀ x ∈ S, x.1 = distSq ((l + r) * (1 / 2 : ℝ)) (meet (K x)) := by
    intro x hx
    obtain ⟨hi, he⟩ := hget x hx
    rw [he, hKeq x hi]
  have hsort' : S.Pairwise fun a b => a.1 ≤ b.1 := by
    refine hsort.imp ?_
    intro a b hab
    have hab : pairLe a b := of_decide_eq_true hab
    rcases hab with h | ⟨h, -⟩ <;> linarith
  have hlen : S.length = keys.length := by
    rw [hperm.length_eq, ← congrArg List.length hKall, List.length_map]
  have h3L := ((C27_three_planes planeL.pos planeL.normal planeB.pos planeB.normal planeT.pos planeT.normal planeL planeB planeT
    (plane_self hL) (plane_self hB) (plane_self hT)).2 l hl l).mpr rfl
  have h3R := ((C27_three_planes planeR.pos planeR.normal planeB.pos planeB.normal planeT.pos planeT.normal planeR planeB planeT
    (plane_self hR) (plane_self hB) (plane_self hT)).2 r hr r).mpr rfl
  refine ⟨l, r, meet, (S.drop 2).map K, h3L, h3R, hon, ?_, ?_, ?_, ?_⟩
  · rw [hks, ← List.map_append, List.take_append_drop]
    have := hperm.symm.map K
    rwa [hKall] at this
  · rw [hks, List.length_map, List.length_take, hlen]
  · rw [hks, List.pairwise_map]
    have : (S.take 2).Pairwise fun a b => a.1 ≤ b.1 := hsort'.sublist (List.take_sublist 2 S)
    refine this.imp_of_mem ?_
    intro a b ha hb hab
    rwa [hd a (List.mem_of_mem_take ha), hd b (List.mem_of_mem_take hb)] at hab
  · intro a ha b hb
    rw [hks] at ha
    obtain ⟨a', ha', ea⟩ := List.mem_map.mp ha
    obtain ⟨b', hb', eb⟩ := List.mem_map.mp hb
    rw [← ea, ← eb, ← hd a' (List.mem_of_mem_take ha'), ← hd b' (List.mem_of_mem_drop hb')]
    rw [← List.take_append_drop 2 S, List.pairwise_append] at hsort'
    exact hsort'.2.2 a' ha' b' hb'

/-! ### Examples -/

theorem keyLine_upright {key : Key} (h4 : key.matrix.m4 = 0) (h5 : key.matrix.m5 = 1) (h6 : key.matrix.m6 = 0) :
    keyLine2D key = .ok ⟨⟨key.matrix.m12, key.matrix.m13, 0⟩, ⟨0, 1, 0⟩⟩ := by
  have hu : (⟨0, 1, 0⟩ : Vec).dot ⟨0, 1, 0⟩ = 1 := by simp [Vec.dot]
  have hn : (⟨0, 1, 0⟩ : Vec).normalized = .ok ⟨0, 1, 0⟩ := by
    have hm : (⟨0, 1, 0⟩ : Vec).magnitude = 1 := by simp [Vec.magnitude]
    unfold Vec.normalized Vec.div
    rw [hm, if_neg one_ne_zero]
    simp
  unfold keyLine2D
  rw [make_unit hu]
  dsimp only [bind, Except.bind]
  unfold Line.transformed Vec.transformedNormal
  simp only [zero_mul, zero_add, one_mul, add_zero, h4, h5, h6]
  rw [hn]
  dsimp only [bind, Except.bind]
  rw [make_unit hu]
  dsimp only [Vec.xy]
  rw [make_unit hu]
  congr 3 <;> simp [Vec.transformed]

/-- Two keys side by side, and a wall in front of them. -/
example : ∃ f, KeyFactory.make exSwitch 4 = .ok f ∧ ∃ rounds result, ∀ fuel ≥ rounds,
    fitBoss2D ⟨8, 1⟩ (⟨⟨0, -8, 0⟩, ⟨1, 0, 0⟩⟩, ⟨⟨0, -10, 0⟩, ⟨1, 0, 0⟩⟩) (Key.make exLayout f 1)
      ((Key.make exLayout f 1).translate ⟨19, 3, 1⟩) fuel = some (.ok result) := by
  obtain ⟨f, hf⟩ := factory_ok exSwitch 4 (by simp [exSwitch])
  refine ⟨f, hf, ?_⟩
  have hb := (C56_key_bounds (cfg := exLayout) hf 1 1).1
  have hb' : f.boundsI.length = 8 := by simpa [Key.boundsI, Key.transform, Key.make] using hb
  refine C55_succeeds _ _ _ _ _ _ _ (by simp [Vec.dot]) ⟨rfl, rfl, by norm_num⟩ (by norm_num)
    (keyLine_upright ?_ ?_ ?_) (keyLine_upright ?_ ?_ ?_) (by norm_num) (by norm_num)
    (by simp [Key.boundsI, Key.make, hb']) (by simp [Key.boundsI, Key.translate, Key.make, hb'])
  all_goals simp [Key.make, Key.translate, Mat.translated, one_mul_mat] <;> rfl

end Chrumm.Part
