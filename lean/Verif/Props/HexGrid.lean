import Verif.Props.HexCell
import Verif.Props.CornerBumper

/-! C86: the grid of hexagonal holes. -/

namespace Chrumm.Part
open Geo Geo.Spec Spec Classical

/-! ### Cells keep their distance -/

/-- Two cells keep the margin. -/
def CellsApart (R margin : ℝ) (c d : ℝ × ℝ) : Prop :=
  ∀ p q : Vec, Within (hexagon c.1 c.2 R) p → Within (hexagon d.1 d.2 R) q → margin ^ 2 ≤ distSq2D p q

/-- A unit vector separates two sets. -/
theorem separated {p q : Vec} {nx ny d : ℝ} (hn : nx ^ 2 + ny ^ 2 = 1) (hd : 0 ≤ d) (h : d ≤ nx * (p.x - q.x) + ny * (p.y - q.y)) :
    d ^ 2 ≤ distSq2D p q := by
  unfold distSq2D
  have cs : (nx * (p.x - q.x) + ny * (p.y - q.y)) ^ 2 ≤ (nx ^ 2 + ny ^ 2) * ((p.x - q.x) ^ 2 + (p.y - q.y) ^ 2) := by
    have : (nx ^ 2 + ny ^ 2) * ((p.x - q.x) ^ 2 + (p.y - q.y) ^ 2) = (nx * (p.x - q.x) + ny * (p.y - q.y)) ^ 2 +
      (nx * (p.y - q.y) - ny * (p.x - q.x)) ^ 2 := by ring
    rw [this]
    linarith [sq_nonneg (nx * (p.y - q.y) - ny * (p.x - q.x))]
  rw [hn, one_mul] at cs
  exact (pow_le_pow_left₀ hd h 2).trans cs

theorem sq_eq_one_iff_of_side {σ : ℝ} (h : σ ^ 2 = 1) : σ = 1 ∨ σ = -1 := by
  rcases mul_eq_zero.mp (by linear_combination h : (σ - 1) * (σ + 1) = 0) with h | h
  · left; linarith
  · right; linarith

/-- Two cells of the lattice. -/
theorem lattice_apart {R margin X Y X' Y' : ℝ} (hR : 0 < R) (hm : 0 ≤ margin) (a b : ℤ) (hab : 2 ∣ a - b) (hne : a ≠ 0 ∨ b ≠ 0)
    (hX : X - X' = (3 * R + margin * Real.sqrt 3) / 2 * a) (hY : Y - Y' = (R * Real.sqrt 3 + margin) / 2 * b) :
    CellsApart R margin (X, Y) (X', Y') := by
  intro p q hp hq
  obtain ⟨p1, p2, p3⟩ := (hex_within hR).mp hp
  obtain ⟨q1, q2, q3⟩ := (hex_within hR).mp hq
  dsimp only at p1 p2 p3 q1 q2 q3
  have s3 := sqrt3
  have s0 : 0 < Real.sqrt 3 := by positivity
  simp only [abs_le] at p1 p2 p3 q1 q2 q3
  obtain ⟨yP, hyP⟩ : ∃ yP, yP = R * Real.sqrt 3 + margin := ⟨_, rfl⟩
  have yP0 : 0 < yP := by rw [hyP]; positivity
  have hX' : Real.sqrt 3 * (X - X') = 3 / 2 * yP * a := by
    rw [hX, hyP]
    have : Real.sqrt 3 * ((3 * R + margin * Real.sqrt 3) / 2 * a) = (3 * R * Real.sqrt 3 + margin * (Real.sqrt 3 * Real.sqrt 3)) / 2 * a := by ring
    rw [this, s3]; ring
  rw [← hyP] at hY
  generalize Real.sqrt 3 = k at *
  -- one of the three directions separates
  have dir0 : ∀ σ : ℝ, σ ^ 2 = 1 → 2 ≤ σ * b → margin ^ 2 ≤ distSq2D p q := by
    intro σ hσ h
    refine separated (nx := 0) (ny := σ) (by rw [hσ]; ring) hm ?_
    have g : yP ≤ σ * (Y - Y') := by rw [hY]; nlinarith
    have hσ' : σ = 1 ∨ σ = -1 := sq_eq_one_iff_of_side hσ
    rcases hσ' with rfl | rfl <;> linarith
  have dirs : ∀ σ τ : ℝ, σ ^ 2 = 1 → τ ^ 2 = 1 → 4 ≤ σ * (3 * a + τ * b) → margin ^ 2 ≤ distSq2D p q := by
    intro σ τ hσ hτ h
    refine separated (nx := σ * (k / 2)) (ny := σ * τ / 2) ?_ hm ?_
    · have : (σ * (k / 2)) ^ 2 + (σ * τ / 2) ^ 2 = σ ^ 2 * (k * k + τ ^ 2) / 4 := by ring
      rw [this, hσ, hτ, s3]; norm_num
    · have g : 2 * yP ≤ σ * (k * (X - X') + τ * (Y - Y')) := by
        rw [hX', hY]
        have : σ * (3 / 2 * yP * a + τ * (yP / 2 * b)) = yP / 2 * (σ * (3 * a + τ * b)) := by ring
        rw [this]
        nlinarith
      have hσ' : σ = 1 ∨ σ = -1 := sq_eq_one_iff_of_side hσ
      have hτ' : τ = 1 ∨ τ = -1 := sq_eq_one_iff_of_side hτ
      rcases hσ' with rfl | rfl <;> rcases hτ' with rfl | rfl <;> linarith
  rcases le_or_gt 2 b with hb | hb
  · exact dir0 1 (by norm_num) (by have : (2 : ℝ) ≤ b := by exact_mod_cast hb
                                   linarith)
  rcases le_or_gt b (-2) with hb' | hb'
  · exact dir0 (-1) (by norm_num) (by have : (b : ℝ) ≤ -2 := by exact_mod_cast hb'
                                      linarith)
  have hb3 : b = -1 ∨ b = 0 ∨ b = 1 := by omega
  have ha : 1 ≤ a ∨ a ≤ -1 := by omega
  have ha0 : b = 0 → 2 ≤ a ∨ a ≤ -2 := by omega
  rcases hb3 with rfl | rfl | rfl
  · rcases ha with ha | ha
    · have : (1 : ℝ) ≤ a := by exact_mod_cast ha
      exact dirs 1 (-1) (by norm_num) (by norm_num) (by push_cast; linarith)
    · have : (a : ℝ) ≤ -1 := by exact_mod_cast ha
      exact dirs (-1) 1 (by norm_num) (by norm_num) (by push_cast; linarith)
  · rcases ha0 rfl with ha | ha
    · have : (2 : ℝ) ≤ a := by exact_mod_cast ha
      exact dirs 1 1 (by norm_num) (by norm_num) (by push_cast; linarith)
    · have : (a : ℝ) ≤ -2 := by exact_mod_cast ha
      exact dirs (-1) 1 (by norm_num) (by norm_num) (by push_cast; linarith)
  · rcases ha with ha | ha
    · have : (1 : ℝ) ≤ a := by exact_mod_cast ha
      exact dirs 1 1 (by norm_num) (by norm_num) (by push_cast; linarith)
    · have : (a : ℝ) ≤ -1 := by exact_mod_cast ha
      exact dirs (-1) (-1) (by norm_num) (by norm_num) (by push_cast; linarith)

/-! ### The hexagon of a cell -/

/-- A hexagon scaled at one of its corners stays in the hexagon. -/
theorem scaled_within {x y R f : ℝ} (hR : 0 < R) (f0 : 0 < f) (f1 : f ≤ 1) {c : Vec} (hc : c ∈ hexagon x y R) {p : Vec}
    (hp : Within (hexagon (c.x + f * (x - c.x)) (c.y + f * (y - c.y)) (f * R)) p) : Within (hexagon x y R) p := by
  obtain ⟨h1, h2, h3⟩ := (hex_within (by positivity)).mp hp
  have hcw : Within (hexagon x y R) c := fun s hs => convex_corner (hex_convex x y hR) hs hc
  obtain ⟨c1, c2, c3⟩ := (hex_within hR).mp hcw
  refine (hex_within hR).mpr ?_
  simp only [abs_le] at h1 h2 h3 c1 c2 c3 ⊢
  have g : 0 ≤ 1 - f := by linarith
  have a1 := mul_le_mul_of_nonneg_left c1.1 g
  have a2 := mul_le_mul_of_nonneg_left c1.2 g
  have b1 := mul_le_mul_of_nonneg_left c2.1 g
  have b2 := mul_le_mul_of_nonneg_left c2.2 g
  have d1 := mul_le_mul_of_nonneg_left c3.1 g
  have d2 := mul_le_mul_of_nonneg_left c3.2 g
  generalize Real.sqrt 3 = k at *
  refine ⟨⟨?_, ?_⟩, ⟨?_, ?_⟩, ?_, ?_⟩ <;> linarith

theorem getD_mem_hex (x y R : ℝ) {i : ℕ} (hi : i < 6) : (hexagon x y R).getD i 0 ∈ hexagon x y R := by
  rw [← hexAt_zero hi]; exact hexAt_mem x y R i 0

/-- What one cell gives. -/
theorem hexCell_ok {cfg : HexCfg} {edge : List Vec} {x y : ℝ} {hex : List Vec} (h0 : 0 < cfg.minDiameter) (hm : cfg.minDiameter ≤ cfg.maxDiameter)
    (h : hexCell cfg edge x y = .ok (some hex)) :
    ∃ x' y' r : ℝ, hex = hexagon x' y' r ∧ cfg.minDiameter ≤ 2 * r ∧ 2 * r ≤ cfg.maxDiameter ∧
      (∀ p, Within (hexagon x' y' r) p → Within (hexagon x y (cfg.maxDiameter / 2)) p) ∧
      (5 ≤ cfg.maxDiameter → CleanBorder cfg edge → CleanCell cfg edge x y → ∀ p, Inside (hexagon x' y' r) p →
        contains2D edge p = true ∧ ¬ OnOutline edge p) := by
  have hR : 0 < cfg.maxDiameter / 2 := by linarith
  unfold hexCell at h
  obtain ⟨d, hd, h2⟩ := bind_ok h
  rw [hexAround_eq] at h2
  split_ifs at h2 with hfar hin
  · have h3 := Option.some.inj (Except.ok.inj h2)
    subst h3
    refine ⟨x, y, cfg.maxDiameter / 2, rfl, by linarith, by linarith, fun p hp => hp, fun _ _ _ p hp => ?_⟩
    obtain ⟨-, hmin⟩ := pyMin_ok hd
    refine whole_inside hR (fun s hs => ?_) hin hp
    exact le_trans hfar (hmin _ (List.mem_map_of_mem hs))
  · cases h2
  · obtain ⟨⟨f, c⟩, h3, h4⟩ := bind_ok h2
    dsimp only at h4
    split_ifs at h4 with hlarge
    · obtain ⟨hx, h5, h6⟩ := bind_ok h4
      have h7 := Option.some.inj (Except.ok.inj h6)
      subst h7
      rcases hexBest_ok h3 with h8 | ⟨i, hi, hc, hf, hcon, hfac⟩
      · rw [(Prod.mk.inj h8).2] at h5
        cases h5
      · dsimp only at hc hf hfac
        subst hc
        have hi6 : i < 6 := by simp only [List.mem_cons, List.not_mem_nil, or_false] at hi; omega
        have h9 := Except.ok.inj h5
        have hz : ((hexagon x y (cfg.maxDiameter / 2)).getD i 0).z = 0 := by rw [← hexAt_zero hi6]; exact hexAt_flat x y _ i 0
        have e := hex_scaled x y (cfg.maxDiameter / 2) f _ hz
        have f1 := (hexFactor_ok hfac).1
        refine ⟨_, _, f * (cfg.maxDiameter / 2), by rw [← h9, e], by linarith, by nlinarith,
          fun p hp => scaled_within hR hf f1 (getD_mem_hex x y _ hi6) hp, fun hD hcl hcc p hp => ?_⟩
        rw [← e] at hp
        exact scaled_inside hi6 hcl hcc hD hf hcon hfac hp
    · cases h4

/-! ### The centers -/

theorem gridCoords_ok {start pitch limit : ℝ} {l : List ℝ} (h : gridCoords start pitch limit = .ok l) :
    l = [] ∨ 0 < pitch ∧ ∃ n : ℕ, limit ≤ start + n * pitch ∧ l = (List.range n).map fun (k : ℕ) => start + k * pitch := by
  unfold gridCoords at h
  split_ifs at h with h1 h2
  · exact .inl (Except.ok.inj h).symm
  · refine .inr ⟨by linarith, _, ?_, (Except.ok.inj h).symm⟩
    have hp : 0 < pitch := by linarith
    have h3 := Int.le_ceil ((limit - start) / pitch)
    have h4 : (⌈(limit - start) / pitch⌉ : ℝ) ≤ (⌈(limit - start) / pitch⌉.toNat : ℕ) := by
      exact_mod_cast Int.self_le_toNat _
    have h5 := (div_le_iff₀ hp).mp (h3.trans h4)
    linarith

theorem gridCoords_mem {start pitch limit : ℝ} {l : List ℝ} (h : gridCoords start pitch limit = .ok l) {v : ℝ} (hv : v ∈ l) :
    ∃ k : ℕ, v = start + k * pitch := by
  rcases gridCoords_ok h with rfl | ⟨-, n, -, rfl⟩
  · cases hv
  · obtain ⟨k, -, rfl⟩ := List.mem_map.mp hv
    exact ⟨k, rfl⟩

theorem gridCoords_get {start pitch limit : ℝ} {l : List ℝ} (h : gridCoords start pitch limit = .ok l) {k : ℕ} (hk : k < l.length) :
    l[k] = start + k * pitch := by
  rcases gridCoords_ok h with rfl | ⟨-, n, -, rfl⟩
  · simp at hk
  · simp

theorem gridCoords_all {start pitch limit : ℝ} {l : List ℝ} (h : gridCoords start pitch limit = .ok l) {k : ℕ}
    (hk : start + k * pitch < limit) (hp : 0 < pitch) : ∃ h : k < l.length, l[k] = start + k * pitch := by
  have hn : start < limit := by nlinarith [(Nat.cast_nonneg k : (0 : ℝ) ≤ k)]
  rcases gridCoords_ok h with rfl | ⟨-, n, h1, rfl⟩
  · unfold gridCoords at h
    split_ifs at h with h1 h2
    · linarith
    · have e := Except.ok.inj h
      have : ⌈(limit - start) / pitch⌉.toNat = 0 := by
        have := congrArg List.length e
        simpa using this
      have h3 : (0 : ℝ) < (limit - start) / pitch := div_pos (by linarith) hp
      have := Int.ceil_pos.mpr h3
      omega
  · have : k < n := by
      by_contra hcon
      have : (n : ℝ) ≤ k := by exact_mod_cast not_lt.mp hcon
      nlinarith
    exact ⟨by simpa using this, by simp⟩

theorem hexCenters_ok {cfg : HexCfg} {edge : List Vec} {cs : List (ℝ × ℝ)} (hD : 0 < cfg.maxDiameter) (hm : 0 ≤ cfg.holeMargin)
    (h : hexCenters cfg edge = .ok cs) :
    (∀ c ∈ cs, ∃ a b : ℤ, 2 ∣ a - b ∧ GridCell cfg edge a b c.1 c.2) ∧ cs.Pairwise (CellsApart (cfg.maxDiameter / 2) cfg.holeMargin) ∧
    ∀ a b : ℤ, 2 ∣ a - b → 0 ≤ a → -2 ≤ b → ∀ x y, GridCell cfg edge a b x y →
      (∃ p ∈ edge, x < p.x + cfg.maxDiameter / 2) → (∃ p ∈ edge, y < p.y + cfg.maxDiameter / 2 / 2 * Real.sqrt 3) → (x, y) ∈ cs := by
  unfold hexCenters at h
  obtain ⟨minX, h1, g1⟩ := bind_ok h
  obtain ⟨maxX, h2, g2⟩ := bind_ok g1
  obtain ⟨minY, h3, g3⟩ := bind_ok g2
  obtain ⟨maxY, h4, g4⟩ := bind_ok g3
  obtain ⟨ys, h5, g5⟩ := bind_ok g4
  obtain ⟨rows, h6, g6⟩ := bind_ok g5
  have g7 := Except.ok.inj g6
  subst g7
  obtain ⟨m1, l1⟩ := pyMin_ok h1
  obtain ⟨m3, l3⟩ := pyMin_ok h3
  obtain ⟨p, hp, rfl⟩ := List.mem_map.mp m1
  obtain ⟨p', hp', rfl⟩ := List.mem_map.mp m3
  replace h6 := mapM_ok h6
  obtain ⟨len, h6⟩ := List.forall₂_iff_get.mp h6
  have row : ∀ r, (hr : r < rows.length) → ∃ xs, gridCoords (p.x + cfg.maxDiameter / 2 + cfg.xOffset +
      (3 * (cfg.maxDiameter / 2) + cfg.holeMargin * Real.sqrt 3) / 2 * ((r % 2 : ℕ) : ℝ)) (3 * (cfg.maxDiameter / 2) + cfg.holeMargin * Real.sqrt 3)
      (maxX + cfg.maxDiameter / 2) = .ok xs ∧ rows[r] = xs.map fun x => (x, p'.y + cfg.maxDiameter / 2 / 2 * Real.sqrt 3 + cfg.yOffset +
        (2 * (cfg.maxDiameter / 2 / 2 * Real.sqrt 3) + cfg.holeMargin) / 2 * ((r : ℤ) - 2 : ℤ)) := by
    intro r hr
    have hr' : r < ys.zipIdx.length := by rw [len]; exact hr
    obtain ⟨xs, e1, e2⟩ := bind_ok (h6 r hr' hr)
    have hy : r < ys.length := by simpa using hr'
    have e3 : (ys.zipIdx.get ⟨r, hr'⟩) = (ys[r], r) := by simp
    rw [e3] at e1 e2
    refine ⟨xs, e1, ?_⟩
    have e4 := Except.ok.inj e2
    rw [List.get_eq_getElem] at e4
    rw [← e4]
    dsimp only
    rw [gridCoords_get h5 hy]
    refine List.map_congr_left fun x _ => ?_
    congr 1
    push_cast
    ring
  have cells : ∀ r, (hr : r < rows.length) → ∀ k, (hk : k < rows[r].length) → rows[r][k] =
      (p.x + cfg.maxDiameter / 2 + cfg.xOffset + (3 * (cfg.maxDiameter / 2) + cfg.holeMargin * Real.sqrt 3) / 2 * (((r % 2 + 2 * k : ℕ) : ℤ) : ℝ),
       p'.y + cfg.maxDiameter / 2 / 2 * Real.sqrt 3 + cfg.yOffset +
        (2 * (cfg.maxDiameter / 2 / 2 * Real.sqrt 3) + cfg.holeMargin) / 2 * ((r : ℤ) - 2 : ℤ)) := by
    intro r hr k hk
    obtain ⟨xs, e1, e2⟩ := row r hr
    have hk' : k < xs.length := by rw [e2] at hk; simpa using hk
    have : rows[r][k] = (xs.map fun x => (x, p'.y + cfg.maxDiameter / 2 / 2 * Real.sqrt 3 + cfg.yOffset +
        (2 * (cfg.maxDiameter / 2 / 2 * Real.sqrt 3) + cfg.holeMargin) / 2 * ((r : ℤ) - 2 : ℤ)))[k]'(by simpa using hk') := by
      simp only [e2]
    rw [this, List.getElem_map, gridCoords_get e1 hk']
    congr 1
    simp only [Int.cast_natCast, Nat.cast_add, Nat.cast_mul, Nat.cast_ofNat, Int.cast_add, Int.cast_mul, Int.cast_ofNat]
    ring
  refine ⟨?_, ?_, ?_⟩
  · intro c hc
    obtain ⟨rw', h7, h8⟩ := List.mem_flatten.mp hc
    obtain ⟨r, hr, rfl⟩ := List.getElem_of_mem h7
    obtain ⟨k, hk, rfl⟩ := List.getElem_of_mem h8
    rw [cells r hr k hk]
    refine ⟨((r % 2 + 2 * k : ℕ) : ℤ), (r : ℤ) - 2, by push_cast; omega, p, hp, p', hp', fun q hq => l1 _ (List.mem_map_of_mem hq),
      fun q hq => l3 _ (List.mem_map_of_mem hq), ?_, ?_⟩ <;> dsimp only <;> ring
  · have apart : ∀ r, (hr : r < rows.length) → ∀ k, (hk : k < rows[r].length) → ∀ r', (hr' : r' < rows.length) → ∀ k',
        (hk' : k' < rows[r'].length) → (r < r' ∨ r = r' ∧ k < k') → CellsApart (cfg.maxDiameter / 2) cfg.holeMargin rows[r][k] rows[r'][k'] := by
      intro r hr k hk r' hr' k' hk' hlt
      rw [cells r hr k hk, cells r' hr' k' hk']
      refine lattice_apart (by linarith) hm (((r % 2 + 2 * k : ℕ) : ℤ) - ((r' % 2 + 2 * k' : ℕ) : ℤ)) ((r : ℤ) - r') (by push_cast; omega) (by push_cast; omega) ?_ ?_
      · push_cast; ring
      · push_cast; ring
    rw [List.pairwise_flatten]
    refine ⟨?_, ?_⟩
    · intro l hl
      obtain ⟨r, hr, rfl⟩ := List.getElem_of_mem hl
      rw [List.pairwise_iff_getElem]
      intro i j hi hj hij
      exact apart r hr i hi r hr j hj (.inr ⟨rfl, hij⟩)
    · rw [List.pairwise_iff_getElem]
      intro i j hi hj hij x hx y hy
      obtain ⟨k, hk, rfl⟩ := List.getElem_of_mem hx
      obtain ⟨k', hk', rfl⟩ := List.getElem_of_mem hy
      exact apart i hi k hk j hj k' hk' (.inl hij)
  · rintro a b hab ha hb x y ⟨o, ho, o', ho', hox, hoy, ex, ey⟩ ⟨e, he, hex⟩ ⟨e', he', hey⟩
    have eo : o.x = p.x := le_antisymm (hox _ hp) (l1 _ (List.mem_map_of_mem ho))
    have eo' : o'.y = p'.y := le_antisymm (hoy _ hp') (l3 _ (List.mem_map_of_mem ho'))
    have hmX := (pyMax_ok h2).2 _ (List.mem_map_of_mem he)
    have hmY := (pyMax_ok h4).2 _ (List.mem_map_of_mem he')
    have hs : 0 < Real.sqrt 3 := by positivity
    have xp : 0 < 3 * (cfg.maxDiameter / 2) + cfg.holeMargin * Real.sqrt 3 := by positivity
    have yp : 0 < (2 * (cfg.maxDiameter / 2 / 2 * Real.sqrt 3) + cfg.holeMargin) / 2 := by positivity
    have mR : 0 < cfg.maxDiameter / 2 / 2 * Real.sqrt 3 := by positivity
    obtain ⟨r, hr⟩ : ∃ r : ℕ, (r : ℤ) = b + 2 := ⟨(b + 2).toNat, by omega⟩
    have hbr : (b : ℝ) = r - 2 := by
      have : b = (r : ℤ) - 2 := by omega
      rw [this]; push_cast; ring
    obtain ⟨hry, hyr⟩ := gridCoords_all h5 (k := r) (by
      refine lt_of_le_of_lt (le_of_eq ?_) (lt_of_lt_of_le hey (by linarith))
      rw [ey, eo', hbr]; ring) yp
    have hrr : r < rows.length := by rw [← len]; simpa using hry
    obtain ⟨xs, e1, e2⟩ := row r hrr
    obtain ⟨k, hk⟩ : ∃ k : ℕ, a = (r % 2 : ℕ) + 2 * k := ⟨((a - (r % 2 : ℕ)) / 2).toNat, by omega⟩
    have hak : (a : ℝ) = ((r % 2 : ℕ) : ℝ) + 2 * k := by
      rw [hk]
      simp only [Int.cast_add, Int.cast_natCast, Int.cast_mul, Int.cast_ofNat]
    have exk : x = p.x + cfg.maxDiameter / 2 + cfg.xOffset +
        (3 * (cfg.maxDiameter / 2) + cfg.holeMargin * Real.sqrt 3) / 2 * ((r % 2 : ℕ) : ℝ) + k * (3 * (cfg.maxDiameter / 2) + cfg.holeMargin * Real.sqrt 3) := by
      rw [ex, eo, hak]; ring
    obtain ⟨hkx, hxk⟩ := gridCoords_all e1 (k := k) (by rw [← exk]; linarith) xp
    refine List.mem_flatten.mpr ⟨rows[r], List.getElem_mem hrr, ?_⟩
    rw [e2]
    refine List.mem_map.mpr ⟨xs[k], List.getElem_mem hkx, ?_⟩
    rw [hxk, ← exk]
    congr 1
    rw [ey, eo']
    have : (((r : ℤ) - 2 : ℤ) : ℝ) = b := by rw [hbr]; push_cast; ring
    rw [this]
    ring

/-- A point inside of a polygon is not beyond all of its corners. -/
theorem contains_box {e : List Vec} {v : Vec} (h : contains2D e v = true) : (∃ p ∈ e, v.x < p.x) ∧ ∃ p ∈ e, v.y < p.y := by
  obtain ⟨s, hs, h1⟩ : ∃ s ∈ cycPairs e, decide (RayCross v s.1 s.2) = true := by
    by_contra hcon
    push Not at hcon
    have h2 := (C34_even_odd e v).mp h
    rw [List.countP_eq_zero.mpr hcon] at h2
    simp at h2
  obtain ⟨h2, t, t0, t1, h3, h4⟩ := decide_eq_true_iff.mp h1
  obtain ⟨m1, m2⟩ := Geo.mem_cycPairs hs
  refine ⟨?_, ?_⟩
  · by_contra hcon
    push Not at hcon
    have a1 := hcon _ m1
    have a2 := hcon _ m2
    simp only [between2D] at h4
    nlinarith
  · rcases h2 with ⟨h2, -⟩ | ⟨-, h2⟩
    · exact ⟨_, m1, h2⟩
    · exact ⟨_, m2, h2⟩

/-! ### Rounded corners -/

theorem unit_side {u v : Vec} {r : ℝ} (hr : 0 < r) (h : UnitOf u v) (hv : v.dot v = r ^ 2) : v = u * r := by
  obtain ⟨h1, k, k0, rfl⟩ := h
  have : (u * k).dot (u * k) = k ^ 2 * u.dot u := by simp only [Vec.dot, Vec.mul_x, Vec.mul_y, Vec.mul_z]; ring
  rw [this, h1, mul_one] at hv
  rw [(sq_eq_sq₀ k0.le hr.le).mp hv]

/-- The center of a circle that touches two sides of a hexagon. -/
theorem corner_center {U W b C u w : Vec} {r D ρ : ℝ} (hr : 0 < r) (hD : 0 < D) (hρ : 0 < ρ) (hU : U.dot U = r ^ 2) (hW : W.dot W = r ^ 2) (hUW : U.dot W = -(r ^ 2 / 2))
    (zU : U.z = 0) (zW : W.z = 0) (hu : U = u * r) (hw : W = w * r) (h1 : (b.xy + u * D - C).dot u = 0) (h2 : (b.xy + w * D - C).dot w = 0)
    (hc : distSq2D C (b.xy + u * D) = ρ ^ 2) :
    C.x = b.x + 2 * D / r * (U.x + W.x) ∧ C.y = b.y + 2 * D / r * (U.y + W.y) ∧ D = ρ / Real.sqrt 3 := by
  have ux : u.x = U.x / r := by rw [hu]; simp only [Vec.mul_x]; field_simp
  have uy : u.y = U.y / r := by rw [hu]; simp only [Vec.mul_y]; field_simp
  have uz : u.z = 0 := by
    have : u.z * r = 0 := by rw [hu] at zU; exact zU
    exact (mul_eq_zero.mp this).resolve_right hr.ne'
  have wx : w.x = W.x / r := by rw [hw]; simp only [Vec.mul_x]; field_simp
  have wy : w.y = W.y / r := by rw [hw]; simp only [Vec.mul_y]; field_simp
  have wz : w.z = 0 := by
    have : w.z * r = 0 := by rw [hw] at zW; exact zW
    exact (mul_eq_zero.mp this).resolve_right hr.ne'
  simp only [Vec.dot, Vec.add_x, Vec.add_y, Vec.add_z, Vec.sub_x, Vec.sub_y, Vec.sub_z, Vec.mul_x, Vec.mul_y, Vec.mul_z, Vec.xy, distSq2D, zU, zW] at h1 h2 hU hW hUW hc
  rw [uz, ux, uy] at h1
  rw [wz, wx, wy] at h2
  rw [ux, uy] at hc
  clear hu hw ux uy uz wx wy wz
  have k1 : (C.x - b.x) * U.x + (C.y - b.y) * U.y = r * D := by
    field_simp at h1
    have e : (C.x - b.x) * U.x + (C.y - b.y) * U.y - r * D = (D * (U.x * U.x + U.y * U.y + 0 * 0) - r ^ 2 * D) / r := by
      field_simp
      linear_combination (-1) * h1
    have h3 : D * (U.x * U.x + U.y * U.y + 0 * 0) - r ^ 2 * D = 0 := by rw [hU]; ring
    rw [h3, zero_div] at e
    linarith
  have k2 : (C.x - b.x) * W.x + (C.y - b.y) * W.y = r * D := by
    field_simp at h2
    have e : (C.x - b.x) * W.x + (C.y - b.y) * W.y - r * D = (D * (W.x * W.x + W.y * W.y + 0 * 0) - r ^ 2 * D) / r := by
      field_simp
      linear_combination (-1) * h2
    have h3 : D * (W.x * W.x + W.y * W.y + 0 * 0) - r ^ 2 * D = 0 := by rw [hW]; ring
    rw [h3, zero_div] at e
    linarith
  have det : U.x * W.y - U.y * W.x ≠ 0 := by
    intro h0
    have : (U.x * W.y - U.y * W.x) ^ 2 = (U.x * U.x + U.y * U.y + 0 * 0) * (W.x * W.x + W.y * W.y + 0 * 0) - (U.x * W.x + U.y * W.y + 0 * 0) ^ 2 := by ring
    rw [h0, hU, hW, hUW] at this
    have : 0 < r ^ 4 := by positivity
    nlinarith
  obtain ⟨m, hm⟩ : ∃ m, m = 2 * D / r := ⟨_, rfl⟩
  have hmr : m * r = 2 * D := by rw [hm]; field_simp
  rw [← hm]
  obtain ⟨X, hX⟩ : ∃ X, X = C.x - b.x - m * (U.x + W.x) := ⟨_, rfl⟩
  obtain ⟨Y, hY⟩ : ∃ Y, Y = C.y - b.y - m * (U.y + W.y) := ⟨_, rfl⟩
  have v1 : X * U.x + Y * U.y = 0 := by
    rw [hX, hY]
    linear_combination k1 - m * hU - m * hUW - r / 2 * hmr
  have v2 : X * W.x + Y * W.y = 0 := by
    rw [hX, hY]
    linear_combination k2 - m * hW - m * hUW - r / 2 * hmr
  have X0 : X = 0 := by
    have : X * (U.x * W.y - U.y * W.x) = 0 := by linear_combination W.y * v1 - U.y * v2
    exact (mul_eq_zero.mp this).resolve_right det
  have Y0 : Y = 0 := by
    have : Y * (U.x * W.y - U.y * W.x) = 0 := by linear_combination U.x * v2 - W.x * v1
    exact (mul_eq_zero.mp this).resolve_right det
  have cx : C.x = b.x + m * (U.x + W.x) := by linarith
  have cy : C.y = b.y + m * (U.y + W.y) := by linarith
  refine ⟨cx, cy, ?_⟩
  have s3 := sqrt3
  have s0 : 0 < Real.sqrt 3 := by positivity
  rw [eq_div_iff s0.ne']
  refine (sq_eq_sq₀ (by positivity) hρ.le).mp ?_
  rw [← hc, cx, cy]
  have hDm : D / r = m / 2 := by rw [hm]; ring
  have e1 : U.x / r * D = m / 2 * U.x := by rw [← hDm]; ring
  have e2 : U.y / r * D = m / 2 * U.y := by rw [← hDm]; ring
  rw [e1, e2]
  have : (D * Real.sqrt 3) ^ 2 = D ^ 2 * 3 := by rw [mul_pow, sq (Real.sqrt 3), s3]
  rw [this]
  have hD' : D = m * r / 2 := by linarith
  rw [hD']
  linear_combination (-(m ^ 2 / 4)) * hU - m ^ 2 * hW - m ^ 2 * hUW

theorem forall₂_of_right {α β : Type} {R : α → β → Prop} : ∀ {l : List α} {l' : List β}, List.Forall₂ R l l' → ∀ {b}, b ∈ l' → ∃ a ∈ l, R a b
  | _, _, .nil, _, h => by cases h
  | _, _, .cons h1 h2, b, h => by
    rcases List.mem_cons.mp h with rfl | h
    · exact ⟨_, List.mem_cons_self, h1⟩
    · obtain ⟨a, h3, h4⟩ := forall₂_of_right h2 h
      exact ⟨a, List.mem_cons_of_mem _ h3, h4⟩

theorem forall₂_of_left {α β : Type} {R : α → β → Prop} : ∀ {l : List α} {l' : List β}, List.Forall₂ R l l' → ∀ {a}, a ∈ l → ∃ b ∈ l', R a b
  | _, _, .nil, _, h => by cases h
  | _, _, .cons h1 h2, b, h => by
    rcases List.mem_cons.mp h with rfl | h
    · exact ⟨_, List.mem_cons_self, h1⟩
    · obtain ⟨a, h3, h4⟩ := forall₂_of_left h2 h
      exact ⟨a, List.mem_cons_of_mem _ h3, h4⟩

/-- The arcs of a rounded hexagon. -/
theorem hexRounded_ok {q : Quality} {x y r ρ : ℝ} {hole : List Vec} (hr : 0 < r) (hρ : 1 / 1000000 ≤ ρ) (hq : 0 < q.maxChordAngle)
    (h : hexRounded q ρ (hexagon x y r) = .ok hole) {p : Vec} (hp : p ∈ hole) :
    ∃ c ∈ hexagon x y (r - 2 * (ρ / Real.sqrt 3)), OnCircle2D c ρ p := by
  have ρ0 : 0 < ρ := by linarith
  unfold hexRounded at h
  obtain ⟨arcs, h1, h2⟩ := bind_ok h
  have h3 := Except.ok.inj h2
  subst h3
  obtain ⟨pts, m1, m2⟩ := List.mem_flatten.mp hp
  obtain ⟨i, hi, h4⟩ : ∃ i ∈ [0, 1, 2, 3, 4, 5], cornerArc2D q ρ (hexAt (hexagon x y r) i 2) (hexAt (hexagon x y r) i 1) (hexAt (hexagon x y r) i 0) = .ok pts := by
    exact forall₂_of_right (mapM_ok h1) m1
  have hi6 : i < 6 := by simp only [List.mem_cons, List.not_mem_nil, or_false] at hi; omega
  obtain ⟨u, w, C, D, D0, hu, hw, hhead, -, t1, t2, hall⟩ := C54_tangent hρ hq h4
  have fl := fun j => hexAt_flat x y r i j
  have s3 := sqrt3
  have head := hall _ (List.mem_of_head? hhead)
  obtain ⟨U, hU⟩ : ∃ U, U = (hexAt (hexagon x y r) i 2 - hexAt (hexagon x y r) i 1).xy := ⟨_, rfl⟩
  obtain ⟨W, hW⟩ : ∃ W, W = (hexAt (hexagon x y r) i 0 - hexAt (hexagon x y r) i 1).xy := ⟨_, rfl⟩
  have dU : U.dot U = r ^ 2 ∧ W.dot W = r ^ 2 ∧ U.dot W = -(r ^ 2 / 2) := by
    rw [hU, hW]
    refine ⟨?_, ?_, ?_⟩ <;> interval_cases i <;> simp [hexAt, hexagon, Vec.dot, Vec.xy] <;> ring_nf <;> (try rw [Real.sq_sqrt (by norm_num : (0:ℝ) ≤ 3)]) <;> ring
  rw [← hU] at hu
  rw [← hW] at hw
  obtain ⟨cx, cy, hD⟩ := corner_center hr D0 ρ0 dU.1 dU.2.1 dU.2.2 (by rw [hU]; rfl) (by rw [hW]; rfl) (unit_side hr hu dU.1) (unit_side hr hw dU.2.1) t1 t2 head.1.2
  rw [← hD]
  refine ⟨hexAt (hexagon x y (r - 2 * D)) i 1, hexAt_mem _ _ _ _ _, (hall p m2).1.1, ?_⟩
  rw [← (hall p m2).1.2]
  have ex : (hexAt (hexagon x y (r - 2 * D)) i 1).x = C.x := by
    rw [cx, hU, hW]
    interval_cases i <;> simp [hexAt, hexagon, Vec.xy] <;> field_simp <;> ring
  have ey : (hexAt (hexagon x y (r - 2 * D)) i 1).y = C.y := by
    rw [cy, hU, hW]
    interval_cases i <;> simp [hexAt, hexagon, Vec.xy] <;> field_simp <;> ring
  unfold distSq2D
  rw [ex, ey]

/-- A disc around a corner of the smaller hexagon. -/
theorem disc_within {x y r ρ : ℝ} (ρ0 : 0 < ρ) (hr : 2 * (ρ / Real.sqrt 3) ≤ r) {c p : Vec} (hc : c ∈ hexagon x y (r - 2 * (ρ / Real.sqrt 3)))
    (hp : OnCircle2D c ρ p) : Within (hexagon x y r) p := by
  have s3 := sqrt3
  have s0 : 0 < Real.sqrt 3 := by positivity
  have r0 : 0 < r := lt_of_lt_of_le (by positivity) hr
  obtain ⟨D, hD⟩ : ∃ D, D = ρ / Real.sqrt 3 := ⟨_, rfl⟩
  have hρ : ρ = D * Real.sqrt 3 := by rw [hD]; field_simp
  rw [← hD] at hr hc
  have D0 : 0 < D := by rw [hD]; positivity
  -- the center
  have hcc : |c.y - y| ≤ (r - 2 * D) / 2 * Real.sqrt 3 ∧ |Real.sqrt 3 * (c.x - x) + (c.y - y)| ≤ (r - 2 * D) * Real.sqrt 3 ∧
      |Real.sqrt 3 * (c.x - x) - (c.y - y)| ≤ (r - 2 * D) * Real.sqrt 3 := by
    rcases hr.lt_or_eq with hlt | heq
    · exact (hex_within (by linarith)).mp fun s hs => convex_corner (hex_convex x y (by linarith)) hs hc
    · have : r - 2 * D = 0 := by linarith
      rw [this] at hc ⊢
      have e : c.x = x ∧ c.y = y := by
        simp only [hexagon, List.mem_cons, List.not_mem_nil, or_false] at hc
        rcases hc with rfl | rfl | rfl | rfl | rfl | rfl <;> simp
      rw [e.1, e.2]
      simp
  -- the disc
  have hd : (p.x - c.x) ^ 2 + (p.y - c.y) ^ 2 = ρ ^ 2 := by
    have := hp.2
    unfold distSq2D at this
    linarith
  have bound : ∀ m n : ℝ, ∀ k : ℝ, 0 ≤ k → m ^ 2 + n ^ 2 = k ^ 2 → |m * (p.x - c.x) + n * (p.y - c.y)| ≤ k * ρ := by
    intro m n k k0 hmn
    refine abs_le_of_sq_le_sq ?_ (by positivity)
    have : (k * ρ) ^ 2 = (m ^ 2 + n ^ 2) * ((p.x - c.x) ^ 2 + (p.y - c.y) ^ 2) := by rw [hmn, hd]; ring
    rw [this]
    nlinarith [sq_nonneg (m * (p.y - c.y) - n * (p.x - c.x))]
  have b1 := bound 0 1 1 (by norm_num) (by norm_num)
  have b2 := bound (Real.sqrt 3) 1 2 (by norm_num) (by rw [sq (Real.sqrt 3), s3]; norm_num)
  have b3 := bound (Real.sqrt 3) (-1) 2 (by norm_num) (by rw [sq (Real.sqrt 3), s3]; norm_num)
  refine (hex_within r0).mpr ?_
  obtain ⟨c1, c2, c3⟩ := hcc
  simp only [abs_le] at b1 b2 b3 c1 c2 c3 ⊢
  rw [hρ] at b1 b2 b3
  generalize Real.sqrt 3 = k at *
  refine ⟨⟨?_, ?_⟩, ⟨?_, ?_⟩, ?_, ?_⟩ <;> linarith

/-! ### The grid -/

/-- The hexagons of the cells. -/
theorem cells_ok {cfg : HexCfg} {edge : List Vec} (h0 : 0 < cfg.minDiameter) (hm : cfg.minDiameter ≤ cfg.maxDiameter) :
    ∀ {cs : List (ℝ × ℝ)} {cells : List (Option (List Vec))},
      List.Forall₂ (fun c cell => hexCell cfg edge c.1 c.2 = .ok cell) cs cells →
      cs.Pairwise (CellsApart (cfg.maxDiameter / 2) cfg.holeMargin) →
      ∃ hexes : List (ℝ × ℝ × ℝ), cells.filterMap id = hexes.map (fun h => hexagon h.1 h.2.1 h.2.2) ∧
        (∀ h ∈ hexes, ∃ c ∈ cs, hexCell cfg edge c.1 c.2 = .ok (some (hexagon h.1 h.2.1 h.2.2)) ∧
          (cfg.minDiameter ≤ 2 * h.2.2 ∧ 2 * h.2.2 ≤ cfg.maxDiameter) ∧
          (∀ p, Within (hexagon h.1 h.2.1 h.2.2) p → Within (hexagon c.1 c.2 (cfg.maxDiameter / 2)) p) ∧
          (5 ≤ cfg.maxDiameter → CleanBorder cfg edge → CleanCell cfg edge c.1 c.2 → ∀ p, Inside (hexagon h.1 h.2.1 h.2.2) p →
            contains2D edge p = true ∧ ¬ OnOutline edge p)) ∧
        hexes.Pairwise (fun h g => ∀ p q, Within (hexagon h.1 h.2.1 h.2.2) p → Within (hexagon g.1 g.2.1 g.2.2) q →
          cfg.holeMargin ^ 2 ≤ distSq2D p q)
  | _, _, .nil, _ => ⟨[], rfl, by simp, List.Pairwise.nil⟩
  | c :: cs, cell :: cells, .cons h1 h2, hp => by
    obtain ⟨p1, p2⟩ := List.pairwise_cons.mp hp
    obtain ⟨hexes, e, h3, h4⟩ := cells_ok h0 hm h2 p2
    cases cell with
    | none =>
      refine ⟨hexes, by simpa using e, fun h hh => ?_, h4⟩
      obtain ⟨d, hd, h5⟩ := h3 h hh
      exact ⟨d, List.mem_cons_of_mem _ hd, h5⟩
    | some hex =>
      obtain ⟨x', y', r, rfl, g1, g2, g3, g4⟩ := hexCell_ok h0 hm h1
      refine ⟨(x', y', r) :: hexes, by rw [List.map_cons, ← e]; rfl, fun h hh => ?_, List.pairwise_cons.mpr ⟨fun g hg => ?_, h4⟩⟩
      · rcases List.mem_cons.mp hh with rfl | hh
        · exact ⟨c, List.mem_cons_self, h1, ⟨g1, g2⟩, g3, g4⟩
        · obtain ⟨d, hd, h5⟩ := h3 h hh
          exact ⟨d, List.mem_cons_of_mem _ hd, h5⟩
      · obtain ⟨d, hd, -, -, h5, -⟩ := h3 g hg
        exact fun p q hp hq => p1 d hd p q (g3 p hp) (h5 q hq)

/-- **C86** Each hole of the grid is a regular hexagon, with rounded corners if the configuration asks for them. Its size is within the
configured limits, everything inside of it is inside of the border, and any two of them keep the configured margin. A cell
which fits completely always becomes a hole. -/
theorem C86_grid {q : Quality} {cfg : HexCfg} {edge : List Vec} {holes : List (List Vec)} (hq : 0 < q.maxChordAngle)
    (h0 : 0 < cfg.minDiameter) (hm : cfg.minDiameter ≤ cfg.maxDiameter) (hD : 5 ≤ cfg.maxDiameter) (hmar : 0 ≤ cfg.holeMargin)
    (hrad : cfg.cornerRadius ≤ 0 ∨ 1 / 1000000 ≤ cfg.cornerRadius ∧ cfg.cornerRadius ≤ cfg.minDiameter / 4 * Real.sqrt 3)
    (hcl : CleanBorder cfg edge) (hcc : ∀ a b x y, 2 ∣ a - b → GridCell cfg edge a b x y → CleanCell cfg edge x y)
    (h : hexGrid2D q cfg edge = .ok holes) :
    ∃ hexes : List (ℝ × ℝ × ℝ),
      List.Forall₂ (fun h hole => (cfg.cornerRadius ≤ 0 → hole = hexagon h.1 h.2.1 h.2.2) ∧
        (0 < cfg.cornerRadius → ∀ p ∈ hole, ∃ c ∈ hexagon h.1 h.2.1 (h.2.2 - 2 * (cfg.cornerRadius / Real.sqrt 3)), OnCircle2D c cfg.cornerRadius p) ∧
        ∀ p ∈ hole, Within (hexagon h.1 h.2.1 h.2.2) p) hexes holes ∧
      (∀ h ∈ hexes, cfg.minDiameter ≤ 2 * h.2.2 ∧ 2 * h.2.2 ≤ cfg.maxDiameter ∧
        ∀ p, Inside (hexagon h.1 h.2.1 h.2.2) p → contains2D edge p = true ∧ ¬ OnOutline edge p) ∧
      hexes.Pairwise (fun h g => ∀ p q, Within (hexagon h.1 h.2.1 h.2.2) p → Within (hexagon g.1 g.2.1 g.2.2) q →
          cfg.holeMargin ^ 2 ≤ distSq2D p q) ∧
      ∀ a b : ℤ, 2 ∣ a - b → 0 ≤ a → -2 ≤ b → ∀ x y, GridCell cfg edge a b x y → contains2D edge ⟨x, y, 0⟩ = true →
        (∀ s ∈ cycPairs edge, ∀ t : ℝ, 0 ≤ t → t ≤ 1 → (cfg.maxDiameter / 2) ^ 2 ≤ distSq2D (between2D s.1 s.2 t) ⟨x, y, 0⟩) →
        (x, y, cfg.maxDiameter / 2) ∈ hexes := by
  unfold hexGrid2D at h
  obtain ⟨cs, h1, g1⟩ := bind_ok h
  obtain ⟨cells, h2, g2⟩ := bind_ok g1
  obtain ⟨k1, k2, k3⟩ := hexCenters_ok (by linarith) hmar h1
  replace h2 := mapM_ok h2
  obtain ⟨hexes, e, h3, h4⟩ := cells_ok h0 hm h2 k2
  dsimp only at g2
  rw [e] at g2
  refine ⟨hexes, ?_, fun g hg => ?_, h4, ?_⟩
  · split_ifs at g2 with hr
    · obtain ⟨r1, r2⟩ := hrad.resolve_left (not_le.mpr hr)
      have g3 := mapM_ok g2
      rw [List.forall₂_map_left_iff] at g3
      rw [List.forall₂_iff_get] at g3 ⊢
      refine ⟨g3.1, fun i hi hi' => ⟨fun hc => absurd hr (not_lt.mpr hc), ?_⟩⟩
      have hh := g3.2 i hi hi'
      obtain ⟨-, -, -, ⟨l1, l2⟩, -, -⟩ := h3 _ (List.get_mem hexes ⟨i, hi⟩)
      generalize hexes.get ⟨i, hi⟩ = g at *
      have pos : 0 < g.2.2 := by linarith
      refine ⟨fun _ p hp => hexRounded_ok pos r1 hq hh hp, fun p hp => ?_⟩
      obtain ⟨c, hc, hpc⟩ := hexRounded_ok pos r1 hq hh hp
      refine disc_within hr ?_ hc hpc
      have s3 := sqrt3
      have s0 : 0 < Real.sqrt 3 := by positivity
      rw [← mul_div_assoc, div_le_iff₀ s0]
      nlinarith
    · have g3 := Except.ok.inj g2
      subst g3
      rw [List.forall₂_map_right_iff, List.forall₂_same]
      intro g hg
      obtain ⟨-, -, -, ⟨l1, l2⟩, -, -⟩ := h3 g hg
      exact ⟨fun _ => rfl, fun hc => absurd hc hr, fun p hp s hs => convex_corner (hex_convex _ _ (by linarith)) hs hp⟩
  · obtain ⟨c, hc, -, l, -, h5⟩ := h3 g hg
    obtain ⟨a, b, hab, hgc⟩ := k1 c hc
    exact ⟨l.1, l.2, h5 hD hcl (hcc a b _ _ hab hgc)⟩
  · intro a b hab ha hb x y hgc hin hfar
    obtain ⟨b1, b2⟩ := contains_box hin
    have hmem := k3 a b hab ha hb x y hgc (b1.imp fun p hp => ⟨hp.1, by linarith [hp.2]⟩) (b2.imp fun p hp => ⟨hp.1, by
      have : 0 < cfg.maxDiameter / 2 / 2 * Real.sqrt 3 := by have : 0 < cfg.maxDiameter := by linarith
                                                             positivity
      linarith [hp.2]⟩)
    obtain ⟨cell, hcell, hx⟩ := forall₂_of_left h2 hmem
    have hx' : hexCell cfg edge x y = .ok (some (hexagon x y (cfg.maxDiameter / 2))) := by
      have hx2 := hx
      dsimp only at hx2 ⊢
      unfold hexCell at hx2 ⊢
      obtain ⟨d, hd, h5⟩ := bind_ok hx2
      have hdist : d ≥ cfg.maxDiameter / 2 := by
        obtain ⟨hdm, -⟩ := pyMin_ok hd
        obtain ⟨s, hs, rfl⟩ := List.mem_map.mp hdm
        rw [toSegments_closed] at hs
        obtain ⟨s', hs', rfl⟩ := List.mem_map.mp hs
        obtain ⟨t, t0, t1, ht⟩ := (C28_segment_distance ⟨s'.1, s'.2⟩ ⟨x, y, 0⟩).2
        rw [ge_iff_le, ht]
        exact Real.le_sqrt_of_sq_le (hfar s' hs' t t0 t1)
      dsimp only
      rw [hd]
      show (if d ≥ cfg.maxDiameter / 2 then _ else _) = _
      rw [if_pos hdist, if_pos hin]
      rfl
    have : cell = some (hexagon x y (cfg.maxDiameter / 2)) := Except.ok.inj (hx.symm.trans hx')
    subst this
    have hmem2 : hexagon x y (cfg.maxDiameter / 2) ∈ cells.filterMap id := List.mem_filterMap.mpr ⟨_, hcell, rfl⟩
    rw [e] at hmem2
    obtain ⟨g, hg, hge⟩ := List.mem_map.mp hmem2
    have : g = (x, y, cfg.maxDiameter / 2) := by
      simp only [hexagon, List.cons.injEq, Vec.mk.injEq, and_true] at hge
      obtain ⟨gx, gy, gr⟩ := g
      dsimp only at hge
      obtain ⟨⟨e1, e2⟩, -, -, ⟨e3, -⟩, -⟩ := hge
      refine Prod.ext ?_ (Prod.ext ?_ ?_) <;> dsimp only <;> linarith
    rw [← this]
    exact hg

/-! ### Success -/

theorem foldlM_ok {α β : Type} {F : β → α → Py β} : ∀ {l : List α}, (∀ x ∈ l, ∀ b, ∃ r, F b x = .ok r) → ∀ b, ∃ r, l.foldlM F b = .ok r
  | [], _, b => ⟨b, rfl⟩
  | x :: l, h, b => by
    obtain ⟨b', h1⟩ := h x List.mem_cons_self b
    obtain ⟨r, h2⟩ := foldlM_ok (fun y hy => h y (List.mem_cons_of_mem _ hy)) b'
    exact ⟨r, by rw [List.foldlM_cons, h1]; exact h2⟩

theorem intersect_ok (s o : Segment) {m : ℤ} (h0 : 0 ≤ m) (h1 : m ≤ 2) : ∃ r, s.intersect2D o m = .ok r := by
  cases h : s.intersect2D o m with
  | ok r => exact ⟨r, rfl⟩
  | error e => exact absurd ⟨h0, h1⟩ ((C29_raises_iff s o m e).mp h).1

theorem magnitude_ne {v : Vec} (h : v.x ≠ 0 ∨ v.y ≠ 0) : v.magnitude ≠ 0 := by
  unfold Vec.magnitude
  rw [Real.sqrt_ne_zero']
  rcases h with h | h
  · nlinarith [mul_self_pos.mpr h, mul_self_nonneg v.y, mul_self_nonneg v.z]
  · nlinarith [mul_self_pos.mpr h, mul_self_nonneg v.x, mul_self_nonneg v.z]

theorem pyDiv_of {a b : ℝ} (h : b ≠ 0) : pyDiv a b = .ok (a / b) := by
  unfold pyDiv; rw [if_neg h]

theorem hexFactor_succeeds {x y R : ℝ} (hR : 0 < R) (segments : List Segment) (pts : List Vec) {i : ℕ} (hi : i < 6) :
    ∃ f, hexFactor (hexagon x y R) segments pts i ((hexagon x y R).getD i 0) = .ok f := by
  have hc0 := hexAt_zero (l := hexagon x y R) hi
  rw [← hc0]
  unfold hexFactor
  obtain ⟨m, h1⟩ := foldlM_ok (F := fun (m : ℝ) (p : Vec) => pointFactor (hexagon x y R) i (hexAt (hexagon x y R) i 0) p m) (l := pts) (by
    intro p _ b
    unfold pointFactor
    split_ifs with hcl
    · exact ⟨b, rfl⟩
    refine foldlM_ok ?_ b
    intro j hj m
    obtain ⟨hit, h2⟩ := intersect_ok ⟨hexAt (hexagon x y R) i (j + 1), hexAt (hexagon x y R) i j⟩ ⟨hexAt (hexagon x y R) i 0, p⟩ (m := 1) (by norm_num) (by norm_num)
    rw [h2]
    cases hit with
    | none => exact ⟨m, rfl⟩
    | some v =>
      have hv := h2
      have hj6 : 1 ≤ j ∧ j ≤ 4 := by simp only [List.mem_cons, List.not_mem_nil, or_false] at hj; omega
      have hpair := hexAt_pair (l := hexagon x y R) (by simp [hexagon]) hi (j := j) (by omega)
      have pos := (hex_convex x y hR).2.2 _ hpair _ (hexAt_mem x y R i 0) (hexAt_ne x y hR hi (by omega) (by omega) (by omega))
        (hexAt_ne x y hR hi (by omega) (by omega) (by omega))
      have hne : (v - hexAt (hexagon x y R) i 0).magnitude ≠ 0 := by
        refine magnitude_ne ?_
        by_contra hcon
        push Not at hcon
        have e1 : v.x = (hexAt (hexagon x y R) i 0).x := sub_eq_zero.mp hcon.1
        have e2 : v.y = (hexAt (hexagon x y R) i 0).y := sub_eq_zero.mp hcon.2
        have hon : left (hexAt (hexagon x y R) i (j + 1)) (hexAt (hexagon x y R) i j) v = 0 := by
          unfold Segment.intersect2D at hv
          dsimp only at hv
          split_ifs at hv
          all_goals first
            | (cases hv; done)
            | (have e := Option.some.inj (Except.ok.inj hv)
               rw [← e]
               unfold left
               ring)
        dsimp only at pos
        unfold left at hon pos
        rw [e1, e2] at hon
        linarith
      refine ⟨min ((p - hexAt (hexagon x y R) i 0).magnitude / (v - hexAt (hexagon x y R) i 0).magnitude) m, ?_⟩
      show (do let f ← pyDiv _ _; pure (min f m) : Py ℝ) = _
      rw [pyDiv_of hne]
      rfl) 1
  obtain ⟨r, h2⟩ := foldlM_ok (F := diagFactor (hexagon x y R) segments i (hexAt (hexagon x y R) i 0)) (l := [1, 2, 3, 4, 5]) (by
    intro j hj m
    unfold diagFactor
    refine foldlM_ok ?_ m
    intro s _ m
    obtain ⟨hit, h2⟩ := intersect_ok ⟨hexAt (hexagon x y R) i 0, hexAt (hexagon x y R) i j⟩ s (m := 0) (by norm_num) (by norm_num)
    rw [h2]
    cases hit with
    | none => exact ⟨m, rfl⟩
    | some v =>
      have hj6 : 1 ≤ j ∧ j ≤ 5 := by simp only [List.mem_cons, List.not_mem_nil, or_false] at hj; omega
      have hne := hexAt_ne x y hR hi (a := 0) (b := j) (by omega) (by omega) (by omega)
      have hmag : segMagnitude2D ⟨hexAt (hexagon x y R) i 0, hexAt (hexagon x y R) i j⟩ ≠ 0 := by
        unfold segMagnitude2D
        intro h0
        apply hne
        have hs := Real.sqrt_eq_zero'.mp h0
        have f0 := hexAt_flat x y R i 0
        have fj := hexAt_flat x y R i j
        generalize hexAt (hexagon x y R) i 0 = u at *
        generalize hexAt (hexagon x y R) i j = w at *
        simp only [Vec.sub_x, Vec.sub_y] at hs
        have k1 := sq_nonneg (w.x - u.x)
        have k2 := sq_nonneg (w.y - u.y)
        have k3 : (w.x - u.x) ^ 2 = 0 := by nlinarith
        have k4 : (w.y - u.y) ^ 2 = 0 := by nlinarith
        ext
        · nlinarith [pow_eq_zero_iff (two_ne_zero) |>.mp k3]
        · nlinarith [pow_eq_zero_iff (two_ne_zero) |>.mp k4]
        · rw [f0, fj]
      refine ⟨min ((v - hexAt (hexagon x y R) i 0).magnitude / segMagnitude2D ⟨hexAt (hexagon x y R) i 0, hexAt (hexagon x y R) i j⟩) m, ?_⟩
      show (do let f ← pyDiv _ _; pure (min f m) : Py ℝ) = _
      rw [pyDiv_of hmag]
      rfl) m
  exact ⟨r, by rw [h1]; exact h2⟩

theorem pyMin_of {l : List ℝ} (h : l ≠ []) : ∃ m, pyMin l = .ok m := by
  cases l with
  | nil => exact absurd rfl h
  | cons a l => exact ⟨_, rfl⟩

theorem pyMax_of {l : List ℝ} (h : l ≠ []) : ∃ m, pyMax l = .ok m := by
  cases l with
  | nil => exact absurd rfl h
  | cons a l => exact ⟨_, rfl⟩

theorem hexCell_succeeds {cfg : HexCfg} {edge : List Vec} (x y : ℝ) (he : edge ≠ []) (h0 : 0 < cfg.minDiameter) (hD : 0 < cfg.maxDiameter) :
    ∃ cell, hexCell cfg edge x y = .ok cell := by
  have hR : 0 < cfg.maxDiameter / 2 := by linarith
  unfold hexCell
  dsimp only
  rw [hexAround_eq]
  obtain ⟨d, hd⟩ := pyMin_of (l := (toSegments edge true).map fun s => s.distance2D ⟨x, y, 0⟩) (by
    rw [toSegments_closed]
    cases edge with
    | nil => exact absurd rfl he
    | cons a l => simp [cycPairs])
  rw [hd]
  show ∃ cell, (if d ≥ cfg.maxDiameter / 2 then _ else _) = _
  split_ifs with h1 h2
  · exact ⟨_, rfl⟩
  · exact ⟨_, rfl⟩
  · obtain ⟨⟨f, c⟩, h3⟩ := foldlM_ok (F := hexBest edge (toSegments edge true) (hexagon x y (cfg.maxDiameter / 2))
        (edge.filter fun p => contains2D (hexagon x y (cfg.maxDiameter / 2)) p)) (l := [0, 1, 2, 3, 4, 5]) (by
      intro i hi b
      have hi6 : i < 6 := by simp only [List.mem_cons, List.not_mem_nil, or_false] at hi; omega
      unfold hexBest
      dsimp only
      split_ifs with h4
      · obtain ⟨f, hf⟩ := hexFactor_succeeds (x := x) (y := y) hR (toSegments edge true) (edge.filter fun p => contains2D (hexagon x y (cfg.maxDiameter / 2)) p) hi6
        rw [hf]
        exact ⟨_, rfl⟩
      · exact ⟨b, rfl⟩) ((0 : ℝ), (none : Option Vec))
    rw [h3]
    show ∃ cell, (if cfg.maxDiameter * f ≥ cfg.minDiameter then _ else _) = _
    split_ifs with h5
    · cases c with
      | none =>
        exfalso
        rcases hexBest_ok h3 with h6 | ⟨i, -, h6, -⟩
        · rw [(Prod.mk.inj h6).1, mul_zero] at h5
          linarith
        · cases h6
      | some c => exact ⟨_, rfl⟩
    · exact ⟨_, rfl⟩

theorem gridCoords_succeeds {start pitch limit : ℝ} (h : 0 < pitch) : ∃ l, gridCoords start pitch limit = .ok l := by
  unfold gridCoords
  split_ifs with h1 h2
  · exact ⟨_, rfl⟩
  · linarith
  · exact ⟨_, rfl⟩

theorem mapM_all {α β : Type} {f : α → Py β} {l : List α} (h : ∀ x ∈ l, ∃ y, f x = .ok y) : ∃ r, l.mapM f = .ok r := mapM_ok_of l h

theorem bind_ok_of {α β : Type} {x : Py α} {a : α} {f : α → Py β} {b : β} (h : x = .ok a) (h2 : f a = .ok b) : (x >>= f) = .ok b := by
  rw [h]; exact h2

theorem bind_ex {α β : Type} {x : Py α} {a : α} {f : α → Py β} (h : x = .ok a) (h2 : ∃ b, f a = .ok b) : ∃ b, (x >>= f) = .ok b := by
  obtain ⟨b, h2⟩ := h2
  exact ⟨b, bind_ok_of h h2⟩

theorem hexCenters_succeeds {cfg : HexCfg} {edge : List Vec} (he : edge ≠ []) (hD : 0 < cfg.maxDiameter) (hmar : 0 ≤ cfg.holeMargin) :
    ∃ cs, hexCenters cfg edge = .ok cs := by
  have hs : 0 < Real.sqrt 3 := by positivity
  have ne : ∀ f : Vec → ℝ, edge.map f ≠ [] := fun f h => he (List.map_eq_nil_iff.mp h)
  obtain ⟨a, ha⟩ := pyMin_of (ne Vec.x)
  obtain ⟨b, hb⟩ := pyMax_of (ne Vec.x)
  obtain ⟨c, hc⟩ := pyMin_of (ne Vec.y)
  obtain ⟨d, hd⟩ := pyMax_of (ne Vec.y)
  have p1 : 0 < 3 * (cfg.maxDiameter / 2) + cfg.holeMargin * Real.sqrt 3 := by positivity
  have p2 : 0 < (2 * (cfg.maxDiameter / 2 / 2 * Real.sqrt 3) + cfg.holeMargin) / 2 := by positivity
  obtain ⟨ys, hys⟩ := gridCoords_succeeds (start := c + cfg.maxDiameter / 2 / 2 * Real.sqrt 3 + cfg.yOffset - (2 * (cfg.maxDiameter / 2 / 2 * Real.sqrt 3) + cfg.holeMargin))
    (limit := d + cfg.maxDiameter / 2 / 2 * Real.sqrt 3) p2
  obtain ⟨rows, hrows⟩ := mapM_all (l := ys.zipIdx) (f := fun (yr : ℝ × ℕ) => do
    let xs ← gridCoords (a + cfg.maxDiameter / 2 + cfg.xOffset + (3 * (cfg.maxDiameter / 2) + cfg.holeMargin * Real.sqrt 3) / 2 * (yr.2 % 2 : ℕ))
      (3 * (cfg.maxDiameter / 2) + cfg.holeMargin * Real.sqrt 3) (b + cfg.maxDiameter / 2)
    pure (xs.map fun x => (x, yr.1))) (by
      intro yr _
      obtain ⟨xs, hxs⟩ := gridCoords_succeeds (start := a + cfg.maxDiameter / 2 + cfg.xOffset + (3 * (cfg.maxDiameter / 2) + cfg.holeMargin * Real.sqrt 3) / 2 * (yr.2 % 2 : ℕ))
        (limit := b + cfg.maxDiameter / 2) p1
      exact ⟨_, bind_ok_of hxs rfl⟩)
  unfold hexCenters
  exact ⟨rows.flatten, bind_ok_of ha (bind_ok_of hb (bind_ok_of hc (bind_ok_of hd (bind_ok_of hys (bind_ok_of hrows rfl)))))⟩

theorem hexRounded_succeeds {q : Quality} {x y r ρ : ℝ} (rpos : 0 < r) (r1 : 0 < q.maxChordAngle) (r2 : 0 < q.maxChordHeight) (r3 : 1 / 1000000 ≤ ρ)
    (r4 : q.maxChordHeight ≤ 2 * ρ) : ∃ pts, hexRounded q ρ (hexagon x y r) = .ok pts := by
  unfold hexRounded
  obtain ⟨arcs, ha⟩ := mapM_all (l := [0, 1, 2, 3, 4, 5]) (f := fun i => cornerArc2D q ρ (hexAt (hexagon x y r) i 2) (hexAt (hexagon x y r) i 1)
    (hexAt (hexagon x y r) i 0)) (by
      intro i hi
      have hi6 : i < 6 := by simp only [List.mem_cons, List.not_mem_nil, or_false] at hi; omega
      refine C54_succeeds q ρ _ _ _ r1 r2 r3 r4 ?_
      have hpair := hexAt_pair (l := hexagon x y r) (by simp [hexagon]) hi6 (j := 1) (by omega)
      have pos := (hex_convex x y rpos).2.2 _ hpair _ (hexAt_mem x y r i 0) (hexAt_ne x y rpos hi6 (by omega) (by omega) (by omega))
        (hexAt_ne x y rpos hi6 (by omega) (by omega) (by omega))
      dsimp only at pos
      intro h0
      unfold left at pos h0
      linarith)
  exact ⟨_, bind_ok_of ha rfl⟩

/-- **C86** The grid is generated for every border with at least one corner. -/
theorem C86_succeeds (q : Quality) (cfg : HexCfg) (edge : List Vec) (he : edge ≠ []) (h0 : 0 < cfg.minDiameter) (hm : cfg.minDiameter ≤ cfg.maxDiameter)
    (hmar : 0 ≤ cfg.holeMargin)
    (hrad : 0 < cfg.cornerRadius → 0 < q.maxChordAngle ∧ 0 < q.maxChordHeight ∧ 1 / 1000000 ≤ cfg.cornerRadius ∧ q.maxChordHeight ≤ 2 * cfg.cornerRadius) :
    ∃ holes, hexGrid2D q cfg edge = .ok holes := by
  have hD : 0 < cfg.maxDiameter := lt_of_lt_of_le h0 hm
  obtain ⟨cs, h1⟩ := hexCenters_succeeds he hD hmar
  have hc : ∀ c ∈ cs, ∃ cell, hexCell cfg edge c.1 c.2 = .ok cell := fun c _ => hexCell_succeeds c.1 c.2 he h0 hD
  obtain ⟨cells, h2⟩ := mapM_all hc
  unfold hexGrid2D
  refine bind_ex h1 (bind_ex h2 ?_)
  dsimp only
  split_ifs with hr
  · obtain ⟨r1, r2, r3, r4⟩ := hrad hr
    refine mapM_all fun hex hh => ?_
    obtain ⟨cell, hc1, hc2⟩ := List.mem_filterMap.mp hh
    obtain ⟨c, -, hc3⟩ := forall₂_of_right (mapM_ok h2) hc1
    have hc2' : cell = some hex := hc2
    subst hc2'
    obtain ⟨x', y', r, rfl, l1, -, -, -⟩ := hexCell_ok h0 hm hc3
    exact hexRounded_succeeds (by linarith) r1 r2 r3 r4
  · exact ⟨_, rfl⟩

/-- A square border. -/
def exBorder : List Vec := [⟨0, 0, 0⟩, ⟨30, 0, 0⟩, ⟨30, 30, 0⟩, ⟨0, 30, 0⟩]

/-- Hexagons of 6 to 10, with rounded corners. -/
noncomputable def exHex : HexCfg :=
  { wallMargin := 1, minDiameter := 6, maxDiameter := 10, cornerRadius := 1, xOffset := 1, yOffset := 0, holeMargin := Real.sqrt 3 }

theorem exBorder_pairs : cycPairs exBorder = [(⟨0, 0, 0⟩, ⟨30, 0, 0⟩), (⟨30, 0, 0⟩, ⟨30, 30, 0⟩), (⟨30, 30, 0⟩, ⟨0, 30, 0⟩), (⟨0, 30, 0⟩, ⟨0, 0, 0⟩)] := by
  simp [cycPairs, exBorder]

theorem exBorder_clean : CleanBorder exHex exBorder := by
  have s1 : 1 ≤ Real.sqrt 3 := Real.one_le_sqrt.mpr (by norm_num)
  refine ⟨?_, ?_, ?_⟩
  · intro p hp
    simp only [exBorder, List.mem_cons, List.not_mem_nil, or_false] at hp
    rcases hp with rfl | rfl | rfl | rfl <;> rfl
  · rw [exBorder_pairs]
    simp
  · rw [exBorder_pairs]
    intro s hs u hu v hv
    have hx : ∀ w ∈ hexagon 0 0 (exHex.maxDiameter / 2), ∃ k n : ℤ, w.x = 5 / 2 * k ∧ w.y = 5 / 2 * Real.sqrt 3 * n := by
      intro w hw
      simp only [exHex, hexagon, List.mem_cons, List.not_mem_nil, or_false] at hw
      rcases hw with rfl | rfl | rfl | rfl | rfl | rfl
      · exact ⟨-2, 0, by norm_num, by norm_num⟩
      · exact ⟨-1, -1, by norm_num, by (try norm_num) <;> (try ring)⟩
      · exact ⟨1, -1, by norm_num, by (try norm_num) <;> (try ring)⟩
      · exact ⟨2, 0, by norm_num, by norm_num⟩
      · exact ⟨1, 1, by norm_num, by (try norm_num) <;> (try ring)⟩
      · exact ⟨-1, 1, by norm_num, by (try norm_num) <;> (try ring)⟩
    obtain ⟨k, n, h1, h2⟩ := hx u hu
    obtain ⟨k', n', h3, h4⟩ := hx v hv
    have key : ∀ m : ℤ, ∀ c : ℝ, 1 ≤ c → c * m = 0 ∨ 1 / 1000000 ≤ |c * m| := by
      intro m c hc
      rcases eq_or_ne m 0 with rfl | hm
      · left; simp
      · right
        have : (1 : ℝ) ≤ |(m : ℝ)| := by exact_mod_cast Int.one_le_abs hm
        rw [abs_mul, abs_of_pos (by linarith)]
        nlinarith
    have e1 : ∀ z : ℝ, (z = 0 ∨ 1 / 1000000 ≤ |z|) → (-z = 0 ∨ 1 / 1000000 ≤ |-z|) := fun z h => by rwa [neg_eq_zero, abs_neg]
    simp only [List.mem_cons, List.not_mem_nil, or_false] at hs
    rw [h1, h2, h3, h4]
    rcases hs with rfl | rfl | rfl | rfl
    · convert e1 _ (key (n' - n) (75 * Real.sqrt 3) (by nlinarith)) using 2 <;> (push_cast; ring_nf)
    · convert key (k' - k) 75 (by norm_num) using 2 <;> (push_cast; ring_nf)
    · convert key (n' - n) (75 * Real.sqrt 3) (by nlinarith) using 2 <;> (push_cast; ring_nf)
    · convert e1 _ (key (k' - k) 75 (by norm_num)) using 2 <;> (push_cast; ring_nf)

theorem exBorder_cells {a b : ℤ} {x y : ℝ} (h : GridCell exHex exBorder a b x y) : x = 6 + 9 * a ∧ y = 5 / 2 * Real.sqrt 3 + 3 * Real.sqrt 3 * b := by
  obtain ⟨p, hp, p', hp', l1, l2, rfl, rfl⟩ := h
  have h1 := l1 ⟨0, 0, 0⟩ (by simp [exBorder])
  have h2 := l2 ⟨0, 0, 0⟩ (by simp [exBorder])
  have s3 := sqrt3
  have e1 : p.x = 0 := by
    simp only [exBorder, List.mem_cons, List.not_mem_nil, or_false] at hp
    rcases hp with rfl | rfl | rfl | rfl <;> first | rfl | (norm_num at h1)
  have e2 : p'.y = 0 := by
    simp only [exBorder, List.mem_cons, List.not_mem_nil, or_false] at hp'
    rcases hp' with rfl | rfl | rfl | rfl <;> first | rfl | (norm_num at h2)
  rw [e1, e2]
  simp only [exHex]
  rw [s3]
  constructor <;> ring

theorem exBorder_apart {a b : ℤ} {x y : ℝ} (h : GridCell exHex exBorder a b x y) : CleanCell exHex exBorder x y := by
  obtain ⟨rfl, -⟩ := exBorder_cells h
  intro p hp c hc h1 _
  exfalso
  have hk : ∃ k ∈ [(2 : ℤ), 22, 7, 17], c.x = (k + 18 * a) / 2 := by
    simp only [exHex, hexagon, List.mem_cons, List.not_mem_nil, or_false] at hc
    rcases hc with rfl | rfl | rfl | rfl | rfl | rfl
    · exact ⟨2, by simp, by push_cast; ring⟩
    · exact ⟨7, by simp, by push_cast; ring⟩
    · exact ⟨17, by simp, by push_cast; ring⟩
    · exact ⟨22, by simp, by push_cast; ring⟩
    · exact ⟨17, by simp, by push_cast; ring⟩
    · exact ⟨7, by simp, by push_cast; ring⟩
  have hp2 : ∃ m ∈ [(0 : ℤ), 60], p.x = m / 2 := by
    simp only [exBorder, List.mem_cons, List.not_mem_nil, or_false] at hp
    rcases hp with rfl | rfl | rfl | rfl
    · exact ⟨0, by simp, by norm_num⟩
    · exact ⟨60, by simp, by norm_num⟩
    · exact ⟨60, by simp, by norm_num⟩
    · exact ⟨0, by simp, by norm_num⟩
  obtain ⟨k, hk, e1⟩ := hk
  obtain ⟨m, hm, e2⟩ := hp2
  rw [e1, e2, abs_lt] at h1
  have hne : m - (k + 18 * a) ≠ 0 := by
    simp only [List.mem_cons, List.not_mem_nil, or_false] at hk hm
    omega
  have : (1 : ℝ) ≤ |((m - (k + 18 * a) : ℤ) : ℝ)| := by exact_mod_cast Int.one_le_abs hne
  push_cast at this
  rcases le_abs.mp this with h | h <;> linarith

/-- The square border meets the hypotheses of `C86_grid`, and gets at least one hole. -/
example (q : Quality) (hq : 0 < q.maxChordAngle) (hh : 0 < q.maxChordHeight) (hh2 : q.maxChordHeight ≤ 2) :
    ∃ holes, hexGrid2D q exHex exBorder = .ok holes ∧ holes ≠ [] := by
  have s1 : 1 ≤ Real.sqrt 3 := Real.one_le_sqrt.mpr (by norm_num)
  have s2 : Real.sqrt 3 < 2 := by
    rw [Real.sqrt_lt' (by norm_num)]; norm_num
  obtain ⟨holes, h⟩ := C86_succeeds q exHex exBorder (by simp [exBorder]) (by norm_num [exHex]) (by norm_num [exHex]) (by simp [exHex])
    (fun _ => ⟨hq, hh, by norm_num [exHex], by simpa [exHex] using hh2⟩)
  obtain ⟨hexes, h1, -, -, h2⟩ := C86_grid hq (by norm_num [exHex]) (by norm_num [exHex]) (by norm_num [exHex]) (by simp [exHex])
    (.inr ⟨by norm_num [exHex], by simp only [exHex]; linarith⟩) exBorder_clean (fun a b x y _ hg => exBorder_apart hg) h
  have hc : GridCell exHex exBorder 1 1 15 (11 / 2 * Real.sqrt 3) := by
    refine ⟨⟨0, 0, 0⟩, by simp [exBorder], ⟨0, 0, 0⟩, by simp [exBorder], ?_, ?_, ?_, ?_⟩
    · intro q hq
      simp only [exBorder, List.mem_cons, List.not_mem_nil, or_false] at hq
      rcases hq with rfl | rfl | rfl | rfl <;> norm_num
    · intro q hq
      simp only [exBorder, List.mem_cons, List.not_mem_nil, or_false] at hq
      rcases hq with rfl | rfl | rfl | rfl <;> norm_num
    · simp only [exHex]
      rw [sqrt3]; norm_num
    · simp only [exHex]
      push_cast
      ring
  have hin : contains2D exBorder ⟨15, 11 / 2 * Real.sqrt 3, 0⟩ = true := by
    refine C34_convex_inside exBorder _ ⟨by simp [exBorder], by simp [exBorder], ?_⟩ ?_
    · rw [exBorder_pairs]
      intro s hs r hr
      simp only [exBorder, List.mem_cons, List.not_mem_nil, or_false] at hs hr
      rcases hs with rfl | rfl | rfl | rfl <;> rcases hr with rfl | rfl | rfl | rfl <;> simp [left]
    · rw [exBorder_pairs]
      intro s hs
      simp only [List.mem_cons, List.not_mem_nil, or_false] at hs
      rcases hs with rfl | rfl | rfl | rfl <;> simp only [left] <;> linarith
  have hmem := h2 1 1 (by norm_num) (by norm_num) (by norm_num) _ _ hc hin (by
    rw [exBorder_pairs]
    intro s hs t t0 t1
    simp only [List.mem_cons, List.not_mem_nil, or_false] at hs
    rcases hs with rfl | rfl | rfl | rfl <;> simp only [distSq2D, between2D, exHex] <;> nlinarith [sq_nonneg (t - 1 / 2)])
  refine ⟨holes, h, ?_⟩
  rintro rfl
  cases h1
  cases hmem

end Chrumm.Part
