import Verif.Props.HexGrid

/-! C86: the holes are as large as possible. -/

namespace Chrumm.Part
open Geo Geo.Spec Spec

theorem foldlM_lower {α : Type} {F : ℝ → α → Py ℝ} {φ : ℝ} : ∀ {l : List α} {m r : ℝ}, (∀ x ∈ l, ∀ a r, F a x = .ok r → φ ≤ a → φ ≤ r) →
    l.foldlM F m = .ok r → φ ≤ m → φ ≤ r
  | [], m, r, _, h, hm => by rw [← Except.ok.inj h]; exact hm
  | x :: l, m, r, hF, h, hm => by
    obtain ⟨b, h1, h2⟩ := foldlM_cons_ok h
    exact foldlM_lower (fun y hy => hF y (List.mem_cons_of_mem _ hy)) h2 (hF x List.mem_cons_self _ _ h1 hm)

theorem contains_within {x y R : ℝ} (hR : 0 < R) {p : Vec} (h : contains2D (hexagon x y R) p = true) : Within (hexagon x y R) p := by
  intro s hs
  by_contra hn
  rw [C34_convex_outside _ _ (hex_convex x y hR) s hs (not_le.mp hn)] at h
  cases h

/-- The points of a hexagon that are opposite of each other, seen from a corner, are the corner. -/
theorem corner_opposite {x y R : ℝ} (hR : 0 < R) {c p h : Vec} (hc : c ∈ hexagon x y R) (hp : Within (hexagon x y R) p) (hh : Within (hexagon x y R) h) {τ : ℝ}
    (hτ : τ ≤ 0) (hx : h.x = c.x + τ * (p.x - c.x)) (hy : h.y = c.y + τ * (p.y - c.y)) : h.x = c.x ∧ h.y = c.y ∨ τ = 0 ∨ p.x = c.x ∧ p.y = c.y := by
  rcases hτ.eq_or_lt with rfl | hτ
  · right; left; rfl
  have s3 : 0 < Real.sqrt 3 := by positivity
  rw [hex_within hR] at hp hh
  right; right
  rw [hx, hy] at hh
  clear hx hy
  have h33 := sqrt3
  obtain ⟨p1, p2, p3⟩ := hp
  obtain ⟨h1, h2, h3⟩ := hh
  rw [abs_le] at p1 p2 p3 h1 h2 h3
  obtain ⟨p1, q1⟩ := p1
  obtain ⟨p2, q2⟩ := p2
  obtain ⟨p3, q3⟩ := p3
  obtain ⟨h1, k1⟩ := h1
  obtain ⟨h2, k2⟩ := h2
  obtain ⟨h3, k3⟩ := h3
  have lo : ∀ u : ℝ, 0 ≤ u → 0 ≤ τ * u → u = 0 := fun u hu hv => by
    by_contra hn
    exact absurd (mul_neg_of_neg_of_pos hτ (lt_of_le_of_ne hu (Ne.symm hn))) (not_lt.mpr hv)
  have hi : ∀ u : ℝ, u ≤ 0 → τ * u ≤ 0 → u = 0 := fun u hu hv => by
    by_contra hn
    exact absurd (mul_pos_of_neg_of_neg hτ (lt_of_le_of_ne hu hn)) (not_lt.mpr hv)
  have fin : ∀ u v : ℝ, Real.sqrt 3 * u = v → v = 0 → u = 0 := fun u v e hv => by
    rw [hv] at e
    exact (mul_eq_zero.mp e).resolve_left s3.ne'
  simp only [hexagon, List.mem_cons, List.not_mem_nil, or_false] at hc
  rcases hc with rfl | rfl | rfl | rfl | rfl | rfl <;> dsimp only at h1 h2 h3 k1 k2 k3 ⊢
  · have a := lo (Real.sqrt 3 * (p.x - (x - R)) + (p.y - y)) (by linarith) (by linarith)
    have b := lo (Real.sqrt 3 * (p.x - (x - R)) - (p.y - y)) (by linarith) (by linarith)
    have c := fin (p.x - (x - R)) _ rfl (by linarith)
    constructor <;> linarith
  · have a := lo (p.y - (y - R / 2 * Real.sqrt 3)) (by linarith) (by linarith)
    have b := lo (Real.sqrt 3 * (p.x - (x - R / 2)) + (p.y - (y - R / 2 * Real.sqrt 3))) (by linarith) (by linarith)
    have c := fin (p.x - (x - R / 2)) _ rfl (by linarith)
    constructor <;> linarith
  · have a := lo (p.y - (y - R / 2 * Real.sqrt 3)) (by linarith) (by linarith)
    have b := hi (Real.sqrt 3 * (p.x - (x + R / 2)) - (p.y - (y - R / 2 * Real.sqrt 3))) (by linarith) (by linarith)
    have c := fin (p.x - (x + R / 2)) _ rfl (by linarith)
    constructor <;> linarith
  · have a := hi (Real.sqrt 3 * (p.x - (x + R)) + (p.y - y)) (by linarith) (by linarith)
    have b := hi (Real.sqrt 3 * (p.x - (x + R)) - (p.y - y)) (by linarith) (by linarith)
    have c := fin (p.x - (x + R)) _ rfl (by linarith)
    constructor <;> linarith
  · have a := hi (p.y - (y + R / 2 * Real.sqrt 3)) (by linarith) (by linarith)
    have b := hi (Real.sqrt 3 * (p.x - (x + R / 2)) + (p.y - (y + R / 2 * Real.sqrt 3))) (by linarith) (by linarith)
    have c := fin (p.x - (x + R / 2)) _ rfl (by linarith)
    constructor <;> linarith
  · have a := hi (p.y - (y + R / 2 * Real.sqrt 3)) (by linarith) (by linarith)
    have b := lo (Real.sqrt 3 * (p.x - (x - R / 2)) - (p.y - (y + R / 2 * Real.sqrt 3))) (by linarith) (by linarith)
    have c := fin (p.x - (x - R / 2)) _ rfl (by linarith)
    constructor <;> linarith

theorem spoke_magnitude {c v : Vec} {t : ℝ} (hc : c.z = 0) (ht : 0 ≤ t) : (between2D c v t - c).magnitude = t * (c - v).magnitude2D := by
  unfold Vec.magnitude Vec.magnitude2D
  have : (between2D c v t - c).x * (between2D c v t - c).x + (between2D c v t - c).y * (between2D c v t - c).y + (between2D c v t - c).z * (between2D c v t - c).z =
      t ^ 2 * ((c - v).x * (c - v).x + (c - v).y * (c - v).y) := by
    simp only [between2D, Vec.sub_x, Vec.sub_y, Vec.sub_z, hc]
    ring
  rw [this, Real.sqrt_mul (sq_nonneg t), Real.sqrt_sq ht]

/-- The factor of a corner is not less than the factor by which the cell can be shrunk towards it. -/
theorem hexFactor_lower {edge : List Vec} {x y R φ : ℝ} (hR : 0 < R) (hφ : φ ≤ 1) {i : ℕ} (hi : i < 6)
    (hflat : ∀ p ∈ edge, p.z = 0) (hs : Shrinks edge x y R φ ((hexagon x y R).getD i 0)) {m : ℝ}
    (h : hexFactor (hexagon x y R) (toSegments edge true) (edge.filter fun p => contains2D (hexagon x y R) p) i ((hexagon x y R).getD i 0) = .ok m) : φ ≤ m := by
  have cz : ((hexagon x y R).getD i 0).z = 0 := by rw [← hexAt_zero hi]; exact hexAt_flat x y R i 0
  unfold hexFactor at h
  obtain ⟨m0, h1, h2⟩ := bind_ok h
  obtain ⟨hc, -, hp, hsp⟩ := hs
  generalize (hexagon x y R).getD i 0 = c at *
  refine foldlM_lower ?_ h2 (foldlM_lower ?_ h1 hφ)
  · intro j _ a r hr ha
    unfold diagFactor at hr
    refine foldlM_lower ?_ hr ha
    intro s hs a r hr ha
    obtain ⟨hit, hh, hr⟩ := bind_ok hr
    cases hit with
    | none => rw [← Except.ok.inj hr]; exact ha
    | some z =>
      dsimp only at hr
      obtain ⟨f, hf, hr⟩ := bind_ok hr
      rw [← Except.ok.inj hr]
      refine le_min ?_ ha
      obtain ⟨f0, rfl⟩ := pyDiv_val hf
      obtain ⟨-, -, t, u, e1, e2, b1, b2⟩ := (C29_intersection _ _ 0 z).mp hh
      dsimp only at e1
      have t0 := (b1 (by simp)).1
      rw [e1, spoke_magnitude cz t0]
      unfold segMagnitude2D at f0 ⊢
      dsimp only at f0 ⊢
      rw [mul_div_assoc, div_self f0, mul_one]
      by_contra hn
      rw [toSegments_closed] at hs
      obtain ⟨s', hs', rfl⟩ := List.mem_map.mp hs
      exact hsp _ (hexAt_mem x y R i j) s' hs' t u t0 (not_le.mp hn) (b2 rfl).1 (b2 rfl).2 (e1.symm.trans e2)
  · intro p hpm a r hr ha
    obtain ⟨pe, pin⟩ := List.mem_filter.mp hpm
    unfold pointFactor at hr
    split_ifs at hr with hclose
    · rw [← Except.ok.inj hr]; exact ha
    refine foldlM_lower ?_ hr ha
    intro j hj a r hr ha
    obtain ⟨hit, hh, hr⟩ := bind_ok hr
    cases hit with
    | none => rw [← Except.ok.inj hr]; exact ha
    | some z =>
      dsimp only at hr
      obtain ⟨f, hf, hr⟩ := bind_ok hr
      rw [← Except.ok.inj hr]
      refine le_min ?_ ha
      obtain ⟨f0, rfl⟩ := pyDiv_val hf
      obtain ⟨-, -, t, u, e1, e2, b1, b2⟩ := (C29_intersection _ _ 1 z).mp hh
      have t0 := (b1 (by simp)).1
      have t1 := (b1 (by simp)).2
      dsimp only at e1 e2
      have pw := contains_within hR pin
      have zw : Within (hexagon x y R) z := by
        intro s hs
        have cv := hex_convex x y hR
        have n1 := convex_corner cv hs (hexAt_mem x y R i (j + 1))
        have n2 := convex_corner cv hs (hexAt_mem x y R i j)
        have : left s.1 s.2 z = (1 - t) * left s.1 s.2 (hexAt (hexagon x y R) i (j + 1)) + t * left s.1 s.2 (hexAt (hexagon x y R) i j) := by
          rw [e1]
          simp only [left, between2D]
          ring
        rw [this]
        exact add_nonneg (mul_nonneg (by linarith) n1) (mul_nonneg t0 n2)
      have zx : z.x = c.x + u * (p.x - c.x) := by rw [e2]; simp only [between2D]
      have zy : z.y = c.y + u * (p.y - c.y) := by rw [e2]; simp only [between2D]
      have zz : z.z = 0 := by rw [e2]; rfl
      have pz := hflat p pe
      have zc : ¬ (z.x = c.x ∧ z.y = c.y) := by
        rintro ⟨h1, h2⟩
        apply f0
        unfold Vec.magnitude
        simp [h1, h2, zz, cz]
      have u0 : 0 < u := by
        by_contra hn
        rcases corner_opposite hR hc pw zw (not_lt.mp hn) zx zy with h | h | h
        · exact zc h
        · rw [h] at zx zy
          exact zc ⟨by linarith, by linarith⟩
        · rw [h.1] at zx
          rw [h.2] at zy
          exact zc ⟨by linarith, by linarith⟩
      have hmag : (z - c).magnitude = u * (p - c).magnitude := by
        unfold Vec.magnitude
        have : (z - c).x * (z - c).x + (z - c).y * (z - c).y + (z - c).z * (z - c).z =
            u ^ 2 * ((p - c).x * (p - c).x + (p - c).y * (p - c).y + (p - c).z * (p - c).z) := by
          simp only [Vec.sub_x, Vec.sub_y, Vec.sub_z, zx, zy, zz, cz, pz]
          ring
        rw [this, Real.sqrt_mul (sq_nonneg u), Real.sqrt_sq u0.le]
      have p0 : (p - c).magnitude ≠ 0 := by
        intro h0
        rw [hmag, h0] at f0
        exact f0 (mul_zero u)
      have hval : (p - c).magnitude / (z - c).magnitude = 1 / u := by
        rw [hmag]
        field_simp
      rw [hval]
      by_contra hn
      refine hp p pe z zw (1 / u) (by positivity) (not_le.mp hn) ?_
      ext
      · simp only [Vec.xy, Vec.add_x, Vec.mul_x, Vec.sub_x, zx]
        field_simp
        ring
      · simp only [Vec.xy, Vec.add_y, Vec.mul_y, Vec.sub_y, zy]
        field_simp
        ring
      · rfl

/-- The loop over the corners keeps the largest factor. -/
theorem hexBest_lower {edge : List Vec} {segments : List Segment} {hexagon pts : List Vec} {φ : ℝ} : ∀ {l : List ℕ} {b r : ℝ × Option Vec},
    l.foldlM (hexBest edge segments hexagon pts) b = .ok r →
    (φ ≤ b.1 ∨ ∃ i ∈ l, contains2D edge (hexagon.getD i 0) = true ∧ ∀ m, hexFactor hexagon segments pts i (hexagon.getD i 0) = .ok m → φ ≤ m) → φ ≤ r.1
  | [], b, r, h, h0 => by
    rw [← Except.ok.inj h]
    rcases h0 with h0 | ⟨i, hi, -⟩
    · exact h0
    · simp at hi
  | i :: l, b, r, h, h0 => by
    obtain ⟨b', h1, h2⟩ := foldlM_cons_ok h
    have grow : b.1 ≤ b'.1 := by
      unfold hexBest at h1
      dsimp only at h1
      split_ifs at h1 with hc
      · obtain ⟨m, h3, h4⟩ := bind_ok h1
        split_ifs at h4 with hm
        · rw [← Except.ok.inj h4]; exact hm.le
        · rw [← Except.ok.inj h4]
      · rw [← Except.ok.inj h1]
    refine hexBest_lower h2 ?_
    rcases h0 with h0 | ⟨k, hk, hc, hm⟩
    · exact Or.inl (h0.trans grow)
    · rcases List.mem_cons.mp hk with rfl | hk
      · left
        unfold hexBest at h1
        dsimp only at h1
        rw [if_pos hc] at h1
        obtain ⟨m, h3, h4⟩ := bind_ok h1
        have := hm m h3
        split_ifs at h4 with hgt
        · rw [← Except.ok.inj h4]; exact this
        · rw [← Except.ok.inj h4]; exact this.trans (not_lt.mp hgt)
      · exact Or.inr ⟨k, hk, hc, hm⟩

/-- **C86** The holes are as large as possible: if a cell of the grid that is near the border can be shrunk towards one of its corners, to a hexagon
that is not too small, then it becomes a hole, that is the cell shrunk towards one of its corners by at least this factor. -/
theorem C86_largest {q : Quality} {cfg : HexCfg} {edge : List Vec} {holes : List (List Vec)} (hq : 0 < q.maxChordAngle)
    (h0 : 0 < cfg.minDiameter) (hm : cfg.minDiameter ≤ cfg.maxDiameter) (hmar : 0 ≤ cfg.holeMargin)
    (hrad : cfg.cornerRadius ≤ 0 ∨ 1 / 1000000 ≤ cfg.cornerRadius) (hflat : ∀ p ∈ edge, p.z = 0)
    (h : hexGrid2D q cfg edge = .ok holes) {a b : ℤ} (hab : 2 ∣ a - b) (ha : 0 ≤ a) (hb : -2 ≤ b) {x y : ℝ} (hgc : GridCell cfg edge a b x y)
    (hnear : ∃ s ∈ cycPairs edge, ∃ t : ℝ, 0 ≤ t ∧ t ≤ 1 ∧ distSq2D (between2D s.1 s.2 t) ⟨x, y, 0⟩ < (cfg.maxDiameter / 2) ^ 2)
    {φ : ℝ} {c : Vec} (hφ : φ ≤ 1) (hs : Shrinks edge x y (cfg.maxDiameter / 2) φ c) (hmin : cfg.minDiameter ≤ cfg.maxDiameter * φ) :
    ∃ hole ∈ holes, ∃ c' ∈ hexagon x y (cfg.maxDiameter / 2), contains2D edge c' = true ∧ ∃ f, φ ≤ f ∧ f ≤ 1 ∧
      (cfg.cornerRadius ≤ 0 → hole = hexagon (c'.x + f * (x - c'.x)) (c'.y + f * (y - c'.y)) (f * (cfg.maxDiameter / 2))) ∧
      (0 < cfg.cornerRadius → ∀ p ∈ hole,
        ∃ k ∈ hexagon (c'.x + f * (x - c'.x)) (c'.y + f * (y - c'.y)) (f * (cfg.maxDiameter / 2) - 2 * (cfg.cornerRadius / Real.sqrt 3)),
          OnCircle2D k cfg.cornerRadius p) := by
  have hR : 0 < cfg.maxDiameter / 2 := by linarith
  have hφ0 : 0 < φ := by
    by_contra hn
    nlinarith
  unfold hexGrid2D at h
  obtain ⟨cs, h1, g1⟩ := bind_ok h
  obtain ⟨cells, h2, g2⟩ := bind_ok g1
  obtain ⟨-, -, k3⟩ := hexCenters_ok (by linarith) hmar h1
  replace h2 := mapM_ok h2
  have cw : Within (hexagon x y (cfg.maxDiameter / 2)) c := fun s hs' => convex_corner (hex_convex x y hR) hs' hs.corner
  obtain ⟨w1, w2, w3⟩ := (hex_within hR).mp cw
  rw [abs_le] at w1 w2 w3
  have s0 : 0 < Real.sqrt 3 := by positivity
  have wx : x ≤ c.x + cfg.maxDiameter / 2 := by
    have : Real.sqrt 3 * (x - c.x) ≤ Real.sqrt 3 * (cfg.maxDiameter / 2) := by linarith [w2.1, w3.1]
    linarith [le_of_mul_le_mul_left this s0]
  obtain ⟨b1, b2⟩ := contains_box hs.inside
  have hmem := k3 a b hab ha hb x y hgc (b1.imp fun p hp => ⟨hp.1, by linarith [hp.2]⟩) (b2.imp fun p hp => ⟨hp.1, by linarith [hp.2, w1.1]⟩)
  obtain ⟨cell, hcell, hx⟩ := forall₂_of_left h2 hmem
  dsimp only at hx
  have hx2 := hx
  unfold hexCell at hx2
  obtain ⟨d, hd, h5⟩ := bind_ok hx2
  rw [hexAround_eq] at h5
  have hdist : ¬ d ≥ cfg.maxDiameter / 2 := by
    obtain ⟨-, hdm⟩ := pyMin_ok hd
    obtain ⟨s, hsm, t, t0, t1, ht⟩ := hnear
    have h6 := hdm _ (List.mem_map_of_mem (by rw [toSegments_closed]; exact List.mem_map_of_mem hsm :
      (⟨s.1, s.2⟩ : Segment) ∈ toSegments edge true))
    have h7 := (C28_segment_distance ⟨s.1, s.2⟩ ⟨x, y, 0⟩).1 t t0 t1
    exact not_le.mpr (lt_of_le_of_lt (h6.trans h7) (by rw [Real.sqrt_lt' hR]; exact ht))
  rw [if_neg hdist] at h5
  obtain ⟨⟨f, o⟩, h6, h7⟩ := bind_ok h5
  dsimp only at h7
  obtain ⟨i, hi, hci⟩ : ∃ i < 6, (hexagon x y (cfg.maxDiameter / 2)).getD i 0 = c := by
    obtain ⟨i, hi, e⟩ := List.getElem_of_mem hs.corner
    exact ⟨i, hi, by rw [← e]; exact (List.getElem_eq_getD _).symm⟩
  have hlow := hexBest_lower (φ := φ) h6 (Or.inr ⟨i, by simp only [List.mem_cons, List.not_mem_nil, or_false]; omega, by rw [hci]; exact hs.inside,
    fun m hm => hexFactor_lower hR hφ hi hflat (by rw [hci]; exact hs) hm⟩)
  dsimp only at hlow
  rw [if_pos (by nlinarith)] at h7
  obtain ⟨hx3, h8, h9⟩ := bind_ok h7
  have h10 := Except.ok.inj h9
  rcases hexBest_ok h6 with e | ⟨j, hj, hc, hf, hcon, hfac⟩
  · have := (Prod.mk.inj e).1
    linarith
  dsimp only at hc hf hfac
  subst hc
  have hj6 : j < 6 := by simp only [List.mem_cons, List.not_mem_nil, or_false] at hj; omega
  have h11 := Except.ok.inj h8
  have hz : ((hexagon x y (cfg.maxDiameter / 2)).getD j 0).z = 0 := by rw [← hexAt_zero hj6]; exact hexAt_flat x y _ j 0
  rw [hex_scaled x y (cfg.maxDiameter / 2) f _ hz] at h11
  have hcells : hx3 ∈ cells.filterMap id := List.mem_filterMap.mpr ⟨_, hcell, h10.symm⟩
  rw [← h11] at hcells
  generalize hcc : (hexagon x y (cfg.maxDiameter / 2)).getD j 0 = c' at *
  have hc' : c' ∈ hexagon x y (cfg.maxDiameter / 2) := by rw [← hcc]; exact getD_mem_hex x y _ hj6
  dsimp only at g2
  split_ifs at g2 with hr
  · obtain ⟨hole, hhole, hro⟩ := forall₂_of_left (mapM_ok g2) hcells
    exact ⟨hole, hhole, c', hc', hcon, f, hlow, (hexFactor_ok hfac).1, fun hn => absurd hr (not_lt.mpr hn),
      fun _ p hp => hexRounded_ok (by positivity) (hrad.resolve_left (not_le.mpr hr)) hq hro hp⟩
  · have g3 := Except.ok.inj g2
    rw [← g3]
    exact ⟨_, hcells, c', hc', hcon, f, hlow, (hexFactor_ok hfac).1, fun _ => rfl, fun hp => absurd hp hr⟩

/-- A cell below the square border can be shrunk towards its upper right corner by 2/5, and becomes a hole if holes of size 4 are allowed. -/
example (q : Quality) (hq : 0 < q.maxChordAngle) (hh : 0 < q.maxChordHeight) (hh2 : q.maxChordHeight ≤ 2) :
    ∃ holes, hexGrid2D q { exHex with minDiameter := 4 } exBorder = .ok holes ∧ ∃ hole ∈ holes,
      ∃ c ∈ hexagon 15 (-1 / 2 * Real.sqrt 3) 5, contains2D exBorder c = true ∧ ∃ f, 2 / 5 ≤ f ∧ f ≤ 1 ∧
        ∀ p ∈ hole, ∃ k ∈ hexagon (c.x + f * (15 - c.x)) (c.y + f * (-1 / 2 * Real.sqrt 3 - c.y)) (f * 5 - 2 * (1 / Real.sqrt 3)), OnCircle2D k 1 p := by
  have s1 : 17 / 10 < Real.sqrt 3 := Real.lt_sqrt_of_sq_lt (by norm_num)
  have s2 : Real.sqrt 3 < 2 := by
    rw [Real.sqrt_lt' (by norm_num)]; norm_num
  have r5 : ({ exHex with minDiameter := 4 } : HexCfg).maxDiameter / 2 = 5 := by norm_num [exHex]
  obtain ⟨holes, h⟩ := C86_succeeds q { exHex with minDiameter := 4 } exBorder (by simp [exBorder]) (by norm_num [exHex]) (by norm_num [exHex]) (by simp [exHex])
    (fun _ => ⟨hq, hh, by norm_num [exHex], by simpa [exHex] using hh2⟩)
  refine ⟨holes, h, ?_⟩
  have hc : GridCell { exHex with minDiameter := 4 } exBorder 1 (-1) 15 (-1 / 2 * Real.sqrt 3) := by
    refine ⟨⟨0, 0, 0⟩, by simp [exBorder], ⟨0, 0, 0⟩, by simp [exBorder], ?_, ?_, ?_, ?_⟩
    · intro q hq
      simp only [exBorder, List.mem_cons, List.not_mem_nil, or_false] at hq
      rcases hq with rfl | rfl | rfl | rfl <;> norm_num
    · intro q hq
      simp only [exBorder, List.mem_cons, List.not_mem_nil, or_false] at hq
      rcases hq with rfl | rfl | rfl | rfl <;> norm_num
    · simp only [exHex]
      rw [sqrt3]; norm_num
    · simp only [exHex]
      push_cast
      ring
  have hin : contains2D exBorder ⟨15 + 5 / 2, -1 / 2 * Real.sqrt 3 + 5 / 2 * Real.sqrt 3, 0⟩ = true := by
    refine C34_convex_inside exBorder _ ⟨by simp [exBorder], by simp [exBorder], ?_⟩ ?_
    · rw [exBorder_pairs]
      intro s hs r hr
      simp only [exBorder, List.mem_cons, List.not_mem_nil, or_false] at hs hr
      rcases hs with rfl | rfl | rfl | rfl <;> rcases hr with rfl | rfl | rfl | rfl <;> simp [left]
    · rw [exBorder_pairs]
      intro s hs
      simp only [List.mem_cons, List.not_mem_nil, or_false] at hs
      rcases hs with rfl | rfl | rfl | rfl <;> simp only [left] <;> linarith
  have hs : Shrinks exBorder 15 (-1 / 2 * Real.sqrt 3) 5 (2 / 5) ⟨15 + 5 / 2, -1 / 2 * Real.sqrt 3 + 5 / 2 * Real.sqrt 3, 0⟩ := by
    refine ⟨by simp [hexagon], hin, ?_, ?_⟩
    · intro p hp g hg ψ ψ0 ψ1 he
      obtain ⟨g1, -, -⟩ := (hex_within (by norm_num)).mp hg
      rw [abs_le] at g1
      have hy := congrArg Vec.y he
      simp only [Vec.xy, Vec.add_y, Vec.mul_y, Vec.sub_y] at hy
      have b1 : ψ * (5 * Real.sqrt 3) < 2 * Real.sqrt 3 := by nlinarith
      have b2 : (g.y - (-1 / 2 * Real.sqrt 3 + 5 / 2 * Real.sqrt 3)) * ψ ≥ - (5 * Real.sqrt 3) * ψ := by nlinarith
      have b3 : (g.y - (-1 / 2 * Real.sqrt 3 + 5 / 2 * Real.sqrt 3)) * ψ ≤ 0 := by nlinarith
      simp only [exBorder, List.mem_cons, List.not_mem_nil, or_false] at hp
      rcases hp with rfl | rfl | rfl | rfl <;> dsimp only at hy <;> linarith
    · intro v hv s hs t u t0 t1 u0 u1 he
      have b1 : t * (5 * Real.sqrt 3) < 2 * Real.sqrt 3 := by nlinarith
      have b2 : 0 ≤ t * Real.sqrt 3 := by positivity
      have hx := congrArg Vec.x he
      have hy := congrArg Vec.y he
      rw [exBorder_pairs] at hs
      simp only [hexagon, List.mem_cons, List.not_mem_nil, or_false] at hv hs
      rcases hv with rfl | rfl | rfl | rfl | rfl | rfl <;> rcases hs with rfl | rfl | rfl | rfl <;> simp only [between2D] at hx hy <;> linarith
  obtain ⟨hole, k1, c, k2, k3, f, k4, k5, -, k6⟩ := C86_largest hq (by norm_num) (by norm_num [exHex]) (by simp [exHex])
    (.inr (by norm_num [exHex])) (by intro p hp; simp only [exBorder, List.mem_cons, List.not_mem_nil, or_false] at hp; rcases hp with rfl | rfl | rfl | rfl <;> rfl) h (a := 1) (b := -1) (by norm_num) (by norm_num) (by norm_num) hc
    ⟨(⟨0, 0, 0⟩, ⟨30, 0, 0⟩), by rw [exBorder_pairs]; simp, 1 / 2, by norm_num, by norm_num, by
      rw [r5]
      simp only [distSq2D, between2D]
      nlinarith⟩ (φ := 2 / 5) (by norm_num) (by rw [r5]; exact hs) (by norm_num [exHex])
  rw [r5] at k2 k6
  exact ⟨hole, k1, c, k2, k3, f, k4, k5, k6 (by norm_num [exHex])⟩

end Chrumm.Part
