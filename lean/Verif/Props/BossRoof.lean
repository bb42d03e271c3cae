import Verif.Props.BossThread

/-! C78: threads of bosses, below the roof. -/

namespace Chrumm.Part
open Geo Geo.Spec Spec Classical

theorem cauchy2 {a b c d : ℝ} : |a * c + b * d| ≤ Real.sqrt (a ^ 2 + b ^ 2) * Real.sqrt (c ^ 2 + d ^ 2) := by
  rw [← Real.sqrt_mul (by positivity)]
  refine Real.abs_le_sqrt ?_
  nlinarith [sq_nonneg (a * d - b * c)]

/-- What the tip of a thread is like. -/
theorem tip_data {cfg : BossCfg} {support : Option SupportCfg} {pos : Vec} {roofPlane : Option Plane} {tip : Plane}
    (hc : SaneThread cfg support) (hroof : ∀ roof ∈ roofPlane, UnitNormal roof ∧ NotTooSteep cfg roof)
    (h : bossTip cfg pos roofPlane = .ok tip) :
    ∃ tipZ, TipAt cfg pos tip tipZ ∧ (∀ dx dy : ℝ, dx ^ 2 + dy ^ 2 ≤ 2 * (cfg.threadDiameter / 2) ^ 2 →
      cfg.threadChamfer + 1 / 1000 ≤ tipZ + (tip.normal.x * dx + tip.normal.y * dy) / tip.normal.z) ∧
    tipZ ≤ cfg.maxThreadLength ∧ (∀ roof ∈ roofPlane, cfg.minThreadLength ≤ tipZ ∧ tip.normal = roof.normal ∧
      roof.distance ⟨pos.x, pos.y, tipZ⟩ ≤ -cfg.threadRoofMargin) := by
  have hD := hc.radius
  rcases roofPlane with _ | roof
  · unfold bossTip at h
    obtain ⟨ht, hn⟩ := tipAt_make (cfg := cfg) h (by simp [Vec.dot])
    refine ⟨_, ht, ?_, le_refl _, by simp⟩
    intro dx dy _
    rw [hn]
    simp only [zero_mul, add_zero, zero_div]
    exact hc.length
  · obtain ⟨hu, hst⟩ := hroof roof rfl
    unfold bossTip at h
    dsimp only at h
    obtain ⟨margin, h1, ha⟩ := bind_ok h
    obtain ⟨p, h2, hb⟩ := bind_ok ha
    clear h ha
    have hun : roof.normal.dot roof.normal = 1 := by
      unfold UnitNormal at hu
      simp only [Vec.dot]
      linarith
    have hnn : roof.normal.normalized = .ok roof.normal := UnitOf.normalized ⟨hun, 1, one_pos, by ext <;> simp⟩
    unfold Plane.translated Plane.make at h1
    rw [hnn] at h1
    obtain rfl := Except.ok.inj h1
    split_ifs at hb with h3
    obtain ⟨ht, hn⟩ := tipAt_make (cfg := cfg) hb hun
    push Not at h3
    refine ⟨_, ht, ?_, min_le_left _ _, ?_⟩
    · intro dx dy hd
      rw [hn]
      have hz := hst.up
      have hs := hst.steep
      have hcs : |roof.normal.x * dx + roof.normal.y * dy| ≤ Real.sqrt (roof.normal.x ^ 2 + roof.normal.y ^ 2) * cfg.threadDiameter := by
        refine cauchy2.trans (mul_le_mul_of_nonneg_left ?_ (Real.sqrt_nonneg _))
        rw [Real.sqrt_le_left (by linarith)]
        nlinarith
      have h4 : -(roof.normal.z * (cfg.minThreadLength - cfg.threadChamfer - 1 / 1000)) ≤ roof.normal.x * dx + roof.normal.y * dy := by
        have := neg_abs_le (roof.normal.x * dx + roof.normal.y * dy)
        linarith
      have h5 : -(cfg.minThreadLength - cfg.threadChamfer - 1 / 1000) ≤ (roof.normal.x * dx + roof.normal.y * dy) / roof.normal.z := by
        rw [le_div_iff₀ hz]
        linarith
      linarith
    · rintro r ⟨⟩
      refine ⟨h3, hn, ?_⟩
      have h6 : min cfg.maxThreadLength p.z ≤ p.z := min_le_right _ _
      generalize min cfg.maxThreadLength p.z = tz at *
      unfold Plane.projectZ at h2
      split_ifs at h2 with h0
      obtain ⟨d, h7, h2⟩ := bind_ok h2
      obtain ⟨hz0, rfl⟩ := pyDiv_val h7
      cases h2
      dsimp only at h6 hz0
      have hz := hst.up
      simp only [Plane.distance, Vec.dot, Vec.sub_x, Vec.sub_y, Vec.sub_z, Vec.add_x, Vec.add_y, Vec.add_z, Vec.mul_x, Vec.mul_y, Vec.mul_z] at h6 ⊢
      have h8 : (tz - pos.z) * roof.normal.z ≤ roof.normal.x * (roof.pos.x + roof.normal.x * -cfg.threadRoofMargin - pos.x) +
          roof.normal.y * (roof.pos.y + roof.normal.y * -cfg.threadRoofMargin - pos.y) +
          roof.normal.z * (roof.pos.z + roof.normal.z * -cfg.threadRoofMargin - pos.z) := by
        rw [← le_div_iff₀ hz]; linarith
      unfold UnitNormal at hu
      have e : (tz - pos.z) * roof.normal.z - (roof.normal.x * (roof.pos.x + roof.normal.x * -cfg.threadRoofMargin - pos.x) +
          roof.normal.y * (roof.pos.y + roof.normal.y * -cfg.threadRoofMargin - pos.y) +
          roof.normal.z * (roof.pos.z + roof.normal.z * -cfg.threadRoofMargin - pos.z)) =
          ((pos.x - roof.pos.x) * roof.normal.x + (pos.y - roof.pos.y) * roof.normal.y + (tz - roof.pos.z) * roof.normal.z) +
            cfg.threadRoofMargin := by
        linear_combination cfg.threadRoofMargin * hu
      linarith

/-- The rings of a thread. -/
theorem thread_data {q : Quality} {cfg : BossCfg} {support : Option SupportCfg} {pos printDirection : Vec}
    {roofPlane : Option Plane} {threadHole : List Vec} {ts : List (Tri Vec)} (hq : SaneQuality q)
    (hc : SaneThread cfg support) (hroof : ∀ roof ∈ roofPlane, UnitNormal roof ∧ NotTooSteep cfg roof)
    (h : bossThread q cfg support pos printDirection roofPlane = .ok (threadHole, ts)) :
    ∃ (hole : List Vec) (β : ℝ) (tip : Plane) (tipZ : ℝ) (top : Vec → Vec), HoleShape (cfg.threadDiameter / 2) hole ∧
      bossTip cfg pos roofPlane = .ok tip ∧ TipAt cfg pos tip tipZ ∧
      threadHole = hole.map (ringMap pos β (cfg.threadDiameter / 2) (cfg.threadDiameter / 2 + cfg.threadChamfer / 2) 0) ∧
      meshUp true [hole.map (ringMap pos β (cfg.threadDiameter / 2) (cfg.threadDiameter / 2 + cfg.threadChamfer / 2) 0),
        hole.map (ringMap pos β (cfg.threadDiameter / 2) (cfg.threadDiameter / 2) cfg.threadChamfer), hole.map top,
        [tip.pos]] = .ok ts ∧
      (∀ p ∈ hole, let v := ringMap pos β (cfg.threadDiameter / 2) (cfg.threadDiameter / 2) cfg.threadChamfer p
        top p = ⟨v.x, v.y, tipZ + (tip.normal.x * (pos.x - v.x) + tip.normal.y * (pos.y - v.y)) / tip.normal.z⟩ ∧
        cfg.threadChamfer + 1 / 1000 ≤ (top p).z) ∧ (hole ≠ [] → tip.normal.z ≠ 0) := by
  unfold bossThread at h
  dsimp only at h
  obtain ⟨tip, h1, h⟩ := bind_ok h
  obtain ⟨hole, h2, h⟩ := bind_ok h
  obtain ⟨f, h3, h⟩ := bind_ok h
  obtain ⟨arc2, h4, h⟩ := bind_ok h
  obtain ⟨ts', h5, h⟩ := bind_ok h
  cases h
  obtain ⟨hr0, rfl⟩ := pyDiv_val h3
  have hr : 1 / 2 ≤ cfg.threadDiameter / 2 := by linarith [hc.radius]
  have hs := hole_shape hq hr (taper := support.map SupportCfg.holeTaperAngle) (by
    intro a ha
    rcases support with _ | s
    · cases ha
    · cases ha; exact hc.taper s rfl) h2
  obtain ⟨tipZ, ht, hlow, -, -⟩ := tip_data hc hroof h1
  set r := cfg.threadDiameter / 2
  set β := angle2D printDirection - tau / 4
  simp only [profile_map hs] at h4 h5 ⊢
  have e2 := mapM_ok_eq (g := fun v : Vec => (⟨v.x, v.y, tipZ + (tip.normal.x * (pos.x - v.x) + tip.normal.y * (pos.y - v.y)) / tip.normal.z⟩ : Vec))
    h4 (fun v _ w hw => (ht.project v w hw).2)
  have hz : hole ≠ [] → tip.normal.z ≠ 0 := by
    intro hne
    obtain ⟨p, l, rfl⟩ := List.exists_cons_of_ne_nil hne
    have := mapM_ok h4
    rw [List.map_cons] at this
    cases this with
    | cons hx _ => exact (ht.project _ _ hx).1
  rw [List.map_map] at e2
  subst e2
  refine ⟨hole, β, tip, tipZ, _, hs, h1, ht, rfl, h5, ?_, hz⟩
  intro p hp
  refine ⟨rfl, ?_⟩
  refine hlow _ _ ?_
  have e := ringMap_far pos β r r cfg.threadChamfer p
  rw [div_self hr0, one_pow, one_mul] at e
  have := hs.near p hp
  rw [← e] at this
  nlinarith

theorem mem_cyc_left {e : List Vec} {s : Vec × Vec} (h : s ∈ cycPairs e) : s.1 ∈ e ∧ s.2 ∈ e := by
  unfold cycPairs at h
  have h1 := (List.of_mem_zip (a := s.1) (b := s.2) h).1
  have h2 := (List.of_mem_zip (a := s.1) (b := s.2) h).2
  exact ⟨h1, List.mem_rotate.mp h2⟩

/-- C78. The thread of a boss closes its hole on top of the floor: the triangles complete a mesh with the hole's outline.
The outline is at height 0, counter-clockwise around the boss position. -/
theorem C78_thread (q : Quality) (cfg : BossCfg) (support : Option SupportCfg) (pos printDirection : Vec)
    (roofPlane : Option Plane) (threadHole : List Vec) (triangles : List (Tri Vec)) (hq : SaneQuality q)
    (hc : SaneThread cfg support) (hroof : ∀ roof ∈ roofPlane, UnitNormal roof ∧ NotTooSteep cfg roof)
    (h : bossThread q cfg support pos printDirection roofPlane = .ok (threadHole, triangles)) :
    Closes triangles (cycPairs threadHole) ∧ (∀ p ∈ threadHole, p.z = 0) ∧
    (∀ s ∈ cycPairs threadHole, 0 < left s.1 s.2 pos) := by
  obtain ⟨hole, β, tip, tipZ, top, hs, -, ht, rfl, hm, htop, -⟩ := thread_data hq hc hroof h
  have hr : 1 / 2 ≤ cfg.threadDiameter / 2 := by linarith [hc.radius]
  have hch : 0 ≤ cfg.threadChamfer := by rcases hc.chamfer with h | h <;> linarith
  set r := cfg.threadDiameter / 2
  set ch := cfg.threadChamfer
  have hne : ∀ f : Vec → Vec, hole.map f ≠ [] := by
    intro f hf
    exact hs.ne (List.map_eq_nil_iff.mp hf)
  have hrr : r / r = 1 := div_self (by linarith)
  have hbig : 1 ≤ (r + ch / 2) / r := by rw [le_div_iff₀ (by linarith)]; linarith
  refine ⟨?_, ?_, ?_⟩
  · unfold Closes
    rw [sameChain_iff]
    intro g hg
    rw [esum_append, esum_nil, meshUp_sum hg _ triangles (by simp) ?_ ?_ hm]
    · simp only [List.head_cons, List.getLast_cons_cons, List.getLast_singleton]
      have : esum g (cycPairs [tip.pos]) = 0 := by simp [cycPairs, esum, hg.self]
      rw [this]
      abel
    · intro a ha
      simp only [List.mem_cons, List.not_mem_nil, or_false] at ha
      rcases ha with rfl | rfl | rfl | rfl
      · exact hne _
      · exact hne _
      · exact hne _
      · simp
    · refine ⟨images_good hs.ne _ _ ?_, images_good hs.ne _ _ ?_, point_good (hne _) _ ?_, trivial⟩
      · intro s hs'
        change s ∈ cycPairs hole at hs'
        have c1 := hs.chord s hs'
        rcases hc.chamfer with h0 | h0
        · have : ringMap pos β r r ch = ringMap pos β r (r + ch / 2) 0 := by
            change ch = 0 at h0
            rw [h0]; norm_num
          rw [this]
          exact goodQuad_same rfl rfl
        · change 1 / 1000 ≤ ch at h0
          have e1 : ∀ z z' p p', distSq2D (ringMap pos β r r z p) (ringMap pos β r r z' p') = distSq2D p p' := by
            intro z z' p p'
            rw [ringMap_dist, hrr]; ring
          have e2 : distSq2D s.1 s.2 ≤ ((r + ch / 2) / r) ^ 2 * distSq2D s.1 s.2 := by
            have : 1 ≤ ((r + ch / 2) / r) ^ 2 := one_le_pow₀ hbig
            have h0 : 0 ≤ distSq2D s.1 s.2 := le_trans (by norm_num) c1
            nlinarith
          refine horizontal_good rfl rfl ?_ ?_
          · rw [e1]
            change _ ≤ _ * (0 - ch) ^ 2
            have : (1 / 1000) ^ 2 ≤ (0 - ch) ^ 2 := by nlinarith
            calc (2e-6 : ℝ) ^ 2 ≤ (1 / 100) ^ 2 * (1 / 1000) ^ 2 := by norm_num
              _ ≤ _ := mul_le_mul c1 this (by positivity) (le_trans (by norm_num) c1)
          · rw [ringMap_dist]
            change _ ≤ _ * (0 - ch) ^ 2
            have h3 : distSq2D s.2 s.1 = distSq2D s.1 s.2 := by simp only [distSq2D]; ring
            rw [h3]
            have : (1 / 1000) ^ 2 ≤ (0 - ch) ^ 2 := by nlinarith
            calc (2e-6 : ℝ) ^ 2 ≤ (1 / 100) ^ 2 * (1 / 1000) ^ 2 := by norm_num
              _ ≤ _ := mul_le_mul (c1.trans e2) this (by positivity) (le_trans (by norm_num) (c1.trans e2))
      · intro s hs'
        change s ∈ cycPairs hole at hs'
        have c1 := hs.chord s hs'
        obtain ⟨m1, m2⟩ := mem_cyc_left hs'
        obtain ⟨t1, u1⟩ := htop s.1 m1
        obtain ⟨t2, u2⟩ := htop s.2 m2
        have d1 : distSq2D (top s.1) (top s.2) = distSq2D s.1 s.2 := by
          rw [t1, t2]
          have := ringMap_dist pos β r r ch ch s.1 s.2
          rw [hrr, one_pow, one_mul] at this
          rw [← this]
          rfl
        refine vertical_good (by rw [t2]) (by rw [t2]) (by rw [t1]) (by rw [t1]) (Or.inr ?_) (Or.inr ?_)
        · rw [d1]
          change _ ≤ _ * (ch - (top s.2).z) ^ 2
          have : (1 / 1000) ^ 2 ≤ (ch - (top s.2).z) ^ 2 := by nlinarith
          calc (2e-6 : ℝ) ^ 2 ≤ (1 / 100) ^ 2 * (1 / 1000) ^ 2 := by norm_num
            _ ≤ _ := mul_le_mul c1 this (by positivity) (le_trans (by norm_num) c1)
        · rw [d1]
          change _ ≤ _ * (ch - (top s.1).z) ^ 2
          have : (1 / 1000) ^ 2 ≤ (ch - (top s.1).z) ^ 2 := by nlinarith
          calc (2e-6 : ℝ) ^ 2 ≤ (1 / 100) ^ 2 * (1 / 1000) ^ 2 := by norm_num
            _ ≤ _ := mul_le_mul c1 this (by positivity) (le_trans (by norm_num) c1)
      · intro s hs'
        change s ∈ cycPairs (hole.map top) at hs'
        rw [cyc_map] at hs'
        obtain ⟨s', hs'', rfl⟩ := List.mem_map.mp hs'
        have c1 := hs.wind s' hs''
        obtain ⟨m1, m2⟩ := mem_cyc_left hs''
        obtain ⟨t1, u1⟩ := htop s'.1 m1
        obtain ⟨t2, u2⟩ := htop s'.2 m2
        left
        refine area_of_shadow ?_
        have e := ringMap_wind pos β r r ch ch s'.1 s'.2
        rw [hrr, one_pow, one_mul] at e
        simp only [Prod.map, t1, t2, ht.pos_eq]
        refine le_trans ?_ (neg_le_abs _)
        set v1 := ringMap pos β r r ch s'.1
        set v2 := ringMap pos β r r ch s'.2
        have : -((v1.x - v2.x) * (pos.y - v2.y) - (v1.y - v2.y) * (pos.x - v2.x)) =
            (v1.x - pos.x) * (v2.y - pos.y) - (v1.y - pos.y) * (v2.x - pos.x) := by ring
        rw [this, e]
        norm_num at c1 ⊢
        linarith
  · intro p hp
    obtain ⟨p', -, rfl⟩ := List.mem_map.mp hp
    rfl
  · intro s hs'
    rw [cyc_map] at hs'
    obtain ⟨s', hs'', rfl⟩ := List.mem_map.mp hs'
    have c1 := hs.wind s' hs''
    have e := ringMap_wind pos β r (r + ch / 2) 0 0 s'.1 s'.2
    have h3 : 0 < ((r + ch / 2) / r) ^ 2 * (s'.1.x * s'.2.y - s'.1.y * s'.2.x) := by
      have : 0 < (r + ch / 2) / r := by linarith
      have : 0 < s'.1.x * s'.2.y - s'.1.y * s'.2.x := by linarith
      positivity
    rw [← e] at h3
    simp only [left, Prod.map]
    linarith

/-- The corners of a stack of meshes. -/
theorem meshUp_vertices : ∀ (arcs : List (List Vec)) (ts : List (Tri Vec)), meshUp true arcs = .ok ts →
    ∀ t ∈ ts, ∀ v : Vec, (v = t.a ∨ v = t.b ∨ v = t.c) → ∃ a ∈ arcs, v ∈ a
  | [], ts, h, t, ht, _, _ => by cases h; cases ht
  | [a], ts, h, t, ht, _, _ => by cases h; cases ht
  | a :: b :: rest, ts, h, t, ht, v, hv => by
    unfold meshUp at h
    obtain ⟨t1, h1, h⟩ := bind_ok h
    obtain ⟨t2, h2, h⟩ := bind_ok h
    cases h
    rcases List.mem_append.mp ht with ht | ht
    · rcases mesh_vertices h1 ht hv with h | h
      · exact ⟨b, by simp, h⟩
      · exact ⟨a, by simp, h⟩
    · obtain ⟨x, hx, hv⟩ := meshUp_vertices (b :: rest) t2 h2 t ht v hv
      exact ⟨x, List.mem_cons_of_mem _ hx, hv⟩

/-- C78. The whole thread stays below the roof margin, if the roof is not steeper than about 54 degrees. -/
theorem C78_roof_margin (q : Quality) (cfg : BossCfg) (support : Option SupportCfg) (pos printDirection : Vec)
    (roof : Plane) (threadHole : List Vec) (triangles : List (Tri Vec)) (hq : SaneQuality q)
    (hc : SaneThread cfg support) (hu : UnitNormal roof) (hst : NotTooSteep cfg roof)
    (h54 : roof.normal.x ^ 2 + roof.normal.y ^ 2 ≤ 2 * roof.normal.z ^ 2)
    (h : bossThread q cfg support pos printDirection (some roof) = .ok (threadHole, triangles)) :
    ∀ t ∈ triangles, ∀ v : Vec, (v = t.a ∨ v = t.b ∨ v = t.c) → roof.distance v ≤ -cfg.threadRoofMargin := by
  have hroof : ∀ r ∈ some roof, UnitNormal r ∧ NotTooSteep cfg r := by rintro r ⟨⟩; exact ⟨hu, hst⟩
  obtain ⟨hole, β, tip, tipZ, top, hs, hb, ht, rfl, hm, htop, hz⟩ := thread_data hq hc hroof h
  obtain ⟨tipZ', ht', -, -, hr⟩ := tip_data hc hroof hb
  have ez : tipZ' = tipZ := by
    have := ht.pos_eq.symm.trans ht'.pos_eq
    injection this with _ _ h
    exact h.symm
  subst ez
  obtain ⟨hmin, hn, hd⟩ := hr roof rfl
  have hz := hst.up
  have hch : 0 ≤ cfg.threadChamfer := by rcases hc.chamfer with h | h <;> linarith
  have hr0 : 0 < cfg.threadDiameter / 2 := by linarith [hc.radius]
  set r := cfg.threadDiameter / 2
  set ch := cfg.threadChamfer
  rw [hn] at htop
  have dtop : ∀ p ∈ hole, roof.distance (top p) ≤ -cfg.threadRoofMargin := by
    intro p hp
    obtain ⟨t1, -⟩ := htop p hp
    refine le_trans (le_of_eq ?_) hd
    rw [t1]
    simp only [Plane.distance, Vec.dot, Vec.sub_x, Vec.sub_y, Vec.sub_z]
    field_simp
    ring
  have dmid : ∀ p ∈ hole, roof.distance (ringMap pos β r r ch p) ≤ -cfg.threadRoofMargin := by
    intro p hp
    obtain ⟨t1, u1⟩ := htop p hp
    refine le_trans ?_ (dtop p hp)
    generalize tipZ' + _ / roof.normal.z = w at t1
    rw [t1] at u1 ⊢
    simp only [Plane.distance, Vec.dot, Vec.sub_x, Vec.sub_y, Vec.sub_z] at u1 ⊢
    have e : (ringMap pos β r r ch p).z = ch := rfl
    rw [e]
    nlinarith
  intro t htt v hv
  obtain ⟨a, ha, hva⟩ := meshUp_vertices _ _ hm t htt v hv
  simp only [List.mem_cons, List.not_mem_nil, or_false] at ha
  rcases ha with rfl | rfl | rfl | rfl
  · obtain ⟨p, hp, rfl⟩ := List.mem_map.mp hva
    refine le_trans ?_ (dmid p hp)
    have hnear := hs.near p hp
    set x := p.x * Real.cos β - p.y * Real.sin β with hx
    set y := p.x * Real.sin β + p.y * Real.cos β with hy
    have hxy : x ^ 2 + y ^ 2 ≤ 2 * r ^ 2 := by
      refine le_trans (le_of_eq ?_) hnear
      rw [hx, hy]
      linear_combination (p.x ^ 2 + p.y ^ 2) * Real.sin_sq_add_cos_sq β
    have e1 : ringMap pos β r (r + ch / 2) 0 p = ⟨pos.x + (x + ch / 2 / r * x), pos.y + (y + ch / 2 / r * y), 0⟩ := by
      unfold ringMap
      rw [← hx, ← hy, add_div, div_self hr0.ne']
      ext <;> ring
    have e2 : ringMap pos β r r ch p = ⟨pos.x + x, pos.y + y, ch⟩ := by
      unfold ringMap
      rw [← hx, ← hy, div_self hr0.ne', one_mul, one_mul]
    rw [e1, e2]
    simp only [Plane.distance, Vec.dot, Vec.sub_x, Vec.sub_y, Vec.sub_z]
    have h1 : roof.normal.x * x + roof.normal.y * y ≤ 2 * r * roof.normal.z := by
      refine (le_abs_self _).trans (cauchy2.trans ?_)
      have s1 : Real.sqrt (roof.normal.x ^ 2 + roof.normal.y ^ 2) ≤ Real.sqrt 2 * roof.normal.z := by
        rw [Real.sqrt_le_left (by positivity), mul_pow, Real.sq_sqrt (by norm_num)]
        exact h54
      have s2 : Real.sqrt (x ^ 2 + y ^ 2) ≤ Real.sqrt 2 * r := by
        rw [Real.sqrt_le_left (by positivity), mul_pow, Real.sq_sqrt (by norm_num)]
        exact hxy
      calc _ ≤ (Real.sqrt 2 * roof.normal.z) * (Real.sqrt 2 * r) := mul_le_mul s1 s2 (Real.sqrt_nonneg _) (by positivity)
        _ = (Real.sqrt 2) ^ 2 * (r * roof.normal.z) := by ring
        _ = _ := by rw [Real.sq_sqrt (by norm_num)]; ring
    have h2 : ch / 2 / r * (roof.normal.x * x + roof.normal.y * y) ≤ ch * roof.normal.z := by
      have : 0 ≤ ch / 2 / r := by positivity
      calc _ ≤ ch / 2 / r * (2 * r * roof.normal.z) := mul_le_mul_of_nonneg_left h1 this
        _ = _ := by field_simp
    linarith
  · obtain ⟨p, hp, rfl⟩ := List.mem_map.mp hva
    exact dmid p hp
  · obtain ⟨p, hp, rfl⟩ := List.mem_map.mp hva
    exact dtop p hp
  · rw [List.mem_singleton] at hva
    rw [hva, ht.pos_eq]
    exact hd

/-- C78. A thread is too short exactly if a thread of the minimal length would get into the roof margin, or would be
longer than the maximal length. -/
theorem C78_too_short (cfg : BossCfg) (pos : Vec) (roof : Plane) (hu : UnitNormal roof) (hz : 1 / 1000000 ≤ roof.normal.z) :
    bossTip cfg pos (some roof) = .error .valueError ↔
      (-cfg.threadRoofMargin < roof.distance ⟨pos.x, pos.y, cfg.minThreadLength⟩ ∨ cfg.maxThreadLength < cfg.minThreadLength) := by
  have hun : roof.normal.dot roof.normal = 1 := by
    unfold UnitNormal at hu
    simp only [Vec.dot]
    linarith
  have hnn : roof.normal.normalized = .ok roof.normal := UnitOf.normalized ⟨hun, 1, one_pos, by ext <;> simp⟩
  have hz0 : 0 < roof.normal.z := by linarith
  unfold bossTip Plane.translated Plane.make Plane.projectZ
  dsimp only
  rw [hnn]
  simp only [bind, Except.bind, pure, Except.pure, pyDiv]
  rw [if_neg (by unfold isZero; rw [abs_of_pos hz0]; norm_num at hz ⊢; exact hz), if_neg hz0.ne']
  dsimp only
  have key : cfg.minThreadLength ≤ pos.z + roof.normal.dot (roof.pos + roof.normal * -cfg.threadRoofMargin - pos) / roof.normal.z ↔
      roof.distance ⟨pos.x, pos.y, cfg.minThreadLength⟩ ≤ -cfg.threadRoofMargin := by
    rw [← sub_le_iff_le_add', le_div_iff₀ hz0]
    simp only [Plane.distance, Vec.dot, Vec.sub_x, Vec.sub_y, Vec.sub_z, Vec.add_x, Vec.add_y, Vec.add_z, Vec.mul_x, Vec.mul_y, Vec.mul_z]
    unfold UnitNormal at hu
    have e : (cfg.minThreadLength - pos.z) * roof.normal.z - (roof.normal.x * (roof.pos.x + roof.normal.x * -cfg.threadRoofMargin - pos.x) +
        roof.normal.y * (roof.pos.y + roof.normal.y * -cfg.threadRoofMargin - pos.y) +
        roof.normal.z * (roof.pos.z + roof.normal.z * -cfg.threadRoofMargin - pos.z)) =
      (roof.normal.x * (pos.x - roof.pos.x) + roof.normal.y * (pos.y - roof.pos.y) +
        roof.normal.z * (cfg.minThreadLength - roof.pos.z)) + cfg.threadRoofMargin := by
      linear_combination cfg.threadRoofMargin * hu
    constructor <;> intro h <;> linarith
  split_ifs with hif
  · refine ⟨fun _ => ?_, fun _ => rfl⟩
    rcases min_lt_iff.mp hif with h | h
    · exact Or.inr h
    · left
      by_contra hcon
      push Not at hcon
      exact absurd (key.mpr hcon) (not_le.mpr h)
  · refine ⟨fun h => (by cases h), ?_⟩
    push Not at hif
    obtain ⟨h1, h2⟩ := le_min_iff.mp hif
    rintro (h | h)
    · exact absurd (key.mp h2) (not_le.mpr h)
    · exact absurd h1 (not_le.mpr h)

end Chrumm.Part
