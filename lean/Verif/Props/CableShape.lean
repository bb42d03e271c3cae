import Verif.Spec.Cable
import Verif.Props.EncoderShape

/-! The shape of the cable hole (C99). -/

namespace Chrumm.Part
open Geo Geo.Spec Spec

theorem mem_stripsUp {l : List (List Vec)} {P : Piece} (h : P ∈ stripsUp l) : ∃ a ∈ l, ∃ b ∈ l, P = strip b a := by
  induction l with
  | nil => simp [stripsUp] at h
  | cons a l ih =>
    cases l with
    | nil => simp [stripsUp] at h
    | cons b l =>
      rw [stripsUp, List.mem_cons] at h
      rcases h with rfl | h
      · exact ⟨a, by simp, b, by simp, rfl⟩
      · obtain ⟨c, hc, d, hd, e⟩ := ih h
        exact ⟨c, List.mem_cons_of_mem _ hc, d, List.mem_cons_of_mem _ hd, e⟩

theorem mem_stripsDown {l : List (List Vec)} {P : Piece} (h : P ∈ stripsDown l) : ∃ a ∈ l, ∃ b ∈ l, P = strip b a := by
  induction l with
  | nil => simp [stripsDown] at h
  | cons a l ih =>
    cases l with
    | nil => simp [stripsDown] at h
    | cons b l =>
      rw [stripsDown, List.mem_cons] at h
      rcases h with rfl | h
      · exact ⟨b, by simp, a, by simp, rfl⟩
      · obtain ⟨c, hc, d, hd, e⟩ := ih h
        exact ⟨c, List.mem_cons_of_mem _ hc, d, List.mem_cons_of_mem _ hd, e⟩

theorem stripsDown_points {l : List (List Vec)} (h : 2 ≤ l.length) {a : List Vec} (ha : a ∈ l) {p : Vec} (hp : p ∈ a) :
    ∃ P ∈ stripsDown l, p ∈ Piece.points P := by
  induction l with
  | nil => simp at h
  | cons b l ih =>
    cases l with
    | nil => simp at h
    | cons c l =>
      rw [stripsDown]
      rcases List.mem_cons.mp ha with rfl | ha
      · exact ⟨_, List.mem_cons_self, by rw [piece_strip, List.mem_append]; exact .inl hp⟩
      · by_cases hl : 2 ≤ (c :: l).length
        · obtain ⟨P, h1, h2⟩ := ih hl ha
          exact ⟨P, List.mem_cons_of_mem _ h1, h2⟩
        · have : l = [] := by
            rw [List.length_cons] at hl
            exact List.length_eq_zero_iff.mp (by omega)
          subst this
          obtain rfl := List.mem_singleton.mp ha
          exact ⟨_, List.mem_cons_self, by rw [piece_strip, List.mem_append]; exact .inr hp⟩

theorem forall₂_last {α β : Type} {R : α → β → Prop} {l : List α} {m : List β} (h : List.Forall₂ R l m) {b : β} (hb : m.getLast? = some b) :
    ∃ a, l.getLast? = some a ∧ R a b := by
  induction h with
  | nil => simp at hb
  | @cons a b' l m h1 h2 ih =>
    cases h2 with
    | nil => exact ⟨a, rfl, by simp at hb; exact hb ▸ h1⟩
    | cons _ _ => exact ih (by simpa using hb)

theorem forall₂_trans_map {α β γ : Type} {R : α → β → Prop} {S : β → γ → Prop} {l : List α} {m : List β} {n : List γ} (h1 : List.Forall₂ R l m)
    (h2 : List.Forall₂ S m n) {g : α → γ} (h : ∀ a b c, R a b → S b c → c = g a) : n = l.map g := by
  induction h1 generalizing n with
  | nil => cases h2; rfl
  | cons a b ih =>
    cases h2 with
    | cons c d => rw [List.map_cons, ← ih d, h _ _ _ a c]

theorem holeWall_scaled {taper : Option ℝ} {r k : ℝ} {p : Vec} (h : HoleWall taper r p) (hk : 0 ≤ k) : HoleWall taper (r * k) (p * k) := by
  obtain ⟨w1, w2, w3, w4, w5⟩ := h
  simp only [HoleWall, Vec.mul_x, Vec.mul_y]
  refine ⟨mul_nonneg w1 hk, mul_le_mul_of_nonneg_right w2 hk, ?_, fun hh => ?_, fun hh => ?_⟩
  · linarith [mul_le_mul_of_nonneg_left w3 (sq_nonneg k)]
  · linear_combination k ^ 2 * w4 hh
  · rw [abs_mul, abs_of_nonneg hk]
    exact mul_le_mul_of_nonneg_right (w5 hh) hk

/-- The hole ends at its lowest point. -/
theorem halfHole_low {q : Quality} {taper : Option ℝ} {r : ℝ} {hole : List Vec} (hq : 0 < q.maxChordAngle) (hr : 1 / 1000000 ≤ r)
    (ht : ∀ a ∈ taper, a < Real.pi) (h : uprightHalfHole2D q taper r = .ok hole) : hole.getLast? = some ⟨-r, 0, 0⟩ := by
  have round : arc2D q r 0 Real.pi 0 = .ok hole → hole.getLast? = some ⟨-r, 0, 0⟩ := by
    intro h
    obtain ⟨-, h2⟩ := (C53_ends hr hq h).2 (by rw [abs_of_pos Real.pi_pos]; unfold tau; linarith [Real.two_le_pi])
    rw [h2, circlePoint]
    simp
  cases taper with
  | none => exact round h
  | some a =>
    by_cases ha : 0 < a
    · obtain ⟨-, -, -, -, -, h2, -⟩ := C67_half hr hq ha (ht a rfl) h
      exact h2
    · apply round
      unfold uprightHalfHole2D at h
      dsimp only at h
      rwa [if_neg ha] at h

/-- Both profiles of the bump. -/
theorem bump_ok {q : Quality} {cfg : CableCfg} {t : ℝ} {B T : List Vec} (hs : SaneCable cfg t) (hq : 0 < q.maxChordAngle)
    (h : cableBump q cfg = .ok (B, T)) :
    B.head? = some ⟨0, cfg.minBendRadius, 0⟩ ∧ (∃ b, B.getLast? = some b ∧ T.head? = some b ∧ b.x = (CableCfg.tip cfg).x + cfg.wallBumpRadius) ∧
    (∀ b ∈ B, OnBend cfg b) ∧ (∀ b ∈ T, OnTaper cfg b) ∧ ∃ T0 b, T = T0 ++ [CableCfg.tip cfg +
      (⟨Real.sin cfg.wallBumpTaperAngle, -Real.cos cfg.wallBumpTaperAngle, 0⟩ : Vec) * cfg.wallBumpRadius, b] ∧ b.x = 0 := by
  obtain ⟨-, -, -, s1, s2, s3, s4⟩ := hs
  unfold cableBump at h
  dsimp only at h
  obtain ⟨d, h1, h⟩ := bind_ok h
  obtain ⟨bend, h2, h⟩ := bind_ok h
  obtain ⟨tip, h3, h⟩ := bind_ok h
  obtain ⟨k, h4, h⟩ := bind_ok h
  obtain ⟨tap, h5, h⟩ := bind_ok h
  obtain ⟨t1, h6, h⟩ := bind_ok h
  have h := Except.ok.inj h
  obtain ⟨rfl, rfl⟩ := Prod.mk.inj h
  clear h
  obtain ⟨k1, rfl⟩ := pyDiv_val h4
  have hpi := Real.pi_pos
  have h20 : (0 : ℝ) < Real.sqrt 2 := by positivity
  have h22 : Real.sqrt 2 * Real.sqrt 2 = 2 := Real.mul_self_sqrt (by norm_num)
  have ed : d = ⟨1 / Real.sqrt 2, 1 / Real.sqrt 2, 0⟩ := by
    refine (normalized_unit h1).unique ⟨?_, Real.sqrt 2, h20, ?_⟩
    · simp only [Vec.dot]; field_simp; linarith
    · ext <;> simp
  have etip : d * (cfg.minBendRadius - cfg.wallBumpRadius) = CableCfg.tip cfg := by
    rw [ed]; unfold CableCfg.tip; ext <;> simp <;> ring
  rw [etip] at h3 h5
  have hb : 1 / 1000000 ≤ cfg.minBendRadius := by linarith
  have ht : tau = 2 * Real.pi := rfl
  have n2 := C53_ends hb hq h2
  have n3 := C53_ends s1 hq h3
  have n5 := C53_ends s1 hq h5
  obtain ⟨l3, n3'⟩ := n3.2 (by rw [ht, abs_lt]; constructor <;> linarith [Real.two_le_pi])
  obtain ⟨l5, n5'⟩ := n5.2 (by rw [ht, abs_lt]; constructor <;> linarith [Real.two_le_pi])
  have sc : ∀ φ : ℝ, Real.pi / 4 ≤ φ → φ ≤ Real.pi / 2 → 0 ≤ Real.cos φ ∧ Real.cos φ ≤ Real.sin φ := by
    intro φ p1 p2
    refine ⟨Real.cos_nonneg_of_neg_pi_div_two_le_of_le (by linarith) p2, ?_⟩
    rw [← Real.sin_pi_div_two_sub]
    exact Real.sin_le_sin_of_le_of_le_pi_div_two (by linarith) p2 (by linarith)
  have et1 : t1 = CableCfg.tip cfg + (⟨Real.sin cfg.wallBumpTaperAngle, -Real.cos cfg.wallBumpTaperAngle, 0⟩ : Vec) * cfg.wallBumpRadius := by
    have h6 := pyIndex_last.mp h6
    rw [n5'] at h6
    rw [← Option.some.inj h6, circlePoint, ht, show 0 + -(2 * Real.pi / 4 - cfg.wallBumpTaperAngle) = cfg.wallBumpTaperAngle - Real.pi / 2 by ring,
      Real.cos_sub_pi_div_two, Real.sin_sub_pi_div_two]
    unfold CableCfg.tip
    ext <;> simp <;> ring
  have net : tap ≠ [] := by rintro rfl; simp at l5
  refine ⟨?_, ⟨circlePoint (CableCfg.tip cfg) cfg.wallBumpRadius 0, ?_, ?_, by simp [circlePoint]⟩, ?_, ?_, ?_⟩
  · rw [List.head?_append, n2.1, ht, circlePoint, show 2 * Real.pi / 4 = Real.pi / 2 by ring, Real.cos_pi_div_two, Real.sin_pi_div_two]
    simp
  · have : (tip.drop 1).getLast? = tip.getLast? := by
      obtain ⟨a, b, c, rfl⟩ : ∃ a b c, tip = a :: b :: c := by
        match tip, l3 with
        | a :: b :: c, _ => exact ⟨a, b, c, rfl⟩
      simp
    rw [List.getLast?_append, this, n3', Option.some_or]
    congr 2
    ring
  · rw [List.head?_append, n5.1, Option.some_or]
  · intro b hb'
    rw [List.mem_append] at hb'
    rcases hb' with hb' | hb'
    · left
      obtain ⟨s, t0, t1, rfl⟩ := arc_between hb hq (by rw [ht, abs_le]; constructor <;> linarith) h2 b hb'
      have hsp : s * Real.pi ≤ Real.pi := mul_le_of_le_one_left hpi.le t1
      have hs0 : 0 ≤ s * Real.pi := mul_nonneg t0 hpi.le
      obtain ⟨c1, c2⟩ := sc (tau / 4 + s * (-tau / 8)) (by rw [ht]; linarith) (by rw [ht]; linarith)
      have := Real.sin_sq_add_cos_sq (tau / 4 + s * (-tau / 8))
      generalize tau / 4 + s * (-tau / 8) = φ at *
      simp only [circlePoint, Vec.zero_x, Vec.zero_y, zero_add]
      exact ⟨by linear_combination cfg.minBendRadius ^ 2 * this, mul_nonneg (by linarith) c1, mul_le_mul_of_nonneg_left c2 (by linarith)⟩
    · right
      obtain ⟨s, t0, t1, rfl⟩ := arc_between s1 hq (by rw [ht, abs_le]; constructor <;> linarith) h3 b (List.mem_of_mem_drop hb')
      have hsp : s * Real.pi ≤ Real.pi := mul_le_of_le_one_left hpi.le t1
      have hs0 : 0 ≤ s * Real.pi := mul_nonneg t0 hpi.le
      obtain ⟨c1, c2⟩ := sc (Real.pi / 2 - (tau / 8 + s * (-tau / 8))) (by rw [ht]; linarith) (by rw [ht]; linarith)
      rw [Real.cos_pi_div_two_sub, Real.sin_pi_div_two_sub] at c2
      rw [Real.cos_pi_div_two_sub] at c1
      have := Real.sin_sq_add_cos_sq (tau / 8 + s * (-tau / 8))
      generalize tau / 8 + s * (-tau / 8) = φ at *
      simp only [circlePoint, distSq2D]
      have k0 := mul_nonneg (by linarith : 0 ≤ cfg.wallBumpRadius) c1
      have k3 := mul_le_mul_of_nonneg_left c2 (by linarith : 0 ≤ cfg.wallBumpRadius)
      exact ⟨by linear_combination cfg.wallBumpRadius ^ 2 * this, by linarith, by linarith⟩
  · intro b hb'
    rw [List.mem_append, List.mem_singleton] at hb'
    unfold OnTaper
    dsimp only
    rw [← et1]
    rcases hb' with hb' | rfl
    · left
      obtain ⟨s, t0, t2, rfl⟩ := arc_between s1 hq (by rw [ht, abs_le]; constructor <;> linarith) h5 b hb'
      have w0 : 0 ≤ Real.pi / 2 - cfg.wallBumpTaperAngle := by linarith
      have hsp : s * (Real.pi / 2 - cfg.wallBumpTaperAngle) ≤ Real.pi / 2 - cfg.wallBumpTaperAngle := mul_le_of_le_one_left w0 t2
      have hs0 : 0 ≤ s * (Real.pi / 2 - cfg.wallBumpTaperAngle) := mul_nonneg t0 w0
      have e : 0 + s * -(tau / 4 - cfg.wallBumpTaperAngle) = -(s * (Real.pi / 2 - cfg.wallBumpTaperAngle)) := by rw [ht]; ring
      rw [e]
      have c1 := Real.sin_nonneg_of_nonneg_of_le_pi hs0 (by linarith)
      have c2 : Real.sin cfg.wallBumpTaperAngle ≤ Real.cos (s * (Real.pi / 2 - cfg.wallBumpTaperAngle)) := by
        rw [← Real.cos_pi_div_two_sub]
        exact Real.cos_le_cos_of_nonneg_of_le_pi hs0 (by linarith) hsp
      have := Real.sin_sq_add_cos_sq (s * (Real.pi / 2 - cfg.wallBumpTaperAngle))
      generalize s * (Real.pi / 2 - cfg.wallBumpTaperAngle) = φ at *
      rw [et1]
      simp only [circlePoint, distSq2D, Real.cos_neg, Real.sin_neg, Vec.add_x, Vec.mul_x]
      have k0 := mul_nonneg (by linarith : 0 ≤ cfg.wallBumpRadius) c1
      have k3 := mul_le_mul_of_nonneg_left c2 (by linarith : 0 ≤ cfg.wallBumpRadius)
      exact ⟨by linear_combination cfg.wallBumpRadius ^ 2 * this, by linarith, by linarith⟩
    · right
      refine ⟨rfl, -t1.x / Real.cos cfg.wallBumpTaperAngle, ?_⟩
      have z1 : t1.z = 0 := by rw [et1]; simp [CableCfg.tip]
      ext
      · simp only [Vec.add_x, Vec.mul_x]; field_simp; ring
      · simp only [Vec.add_y, Vec.mul_y]; field_simp
        try ring
      · simp only [Vec.add_z, Vec.mul_z, z1]; ring
  · rw [← et1]
    have h6 := pyIndex_last.mp h6
    obtain ⟨T0, rfl⟩ := List.getLast?_eq_some_iff.mp h6
    exact ⟨T0, _, List.append_assoc _ _ _, rfl⟩

set_option maxHeartbeats 1000000 in
theorem cable_full {q : Quality} {taper : Option ℝ} {cfg : CableCfg} {bracket wall : ℝ} {pos : Vec} {c : Cable} (hs : SaneCable cfg wall)
    (hq : 0 < q.maxChordAngle) (ht : ∀ a ∈ taper, a < Real.pi) (h : Cable.make q taper cfg bracket pos wall = .ok c) :
    CableShape taper cfg (bracket * (6 / 10) + cfg.diameter / 2 * (4 / 10)) pos wall c ∧ ∃ B T ls, cableBump q cfg = .ok (B, T) ∧
      c.splitEdgeG = collapsed ((T.map fun b => (⟨pos.x, pos.y - b.x, pos.z - 2 * (cfg.diameter / 2) - cfg.minBendRadius + b.y⟩ : Vec)).reverse ++
        (B.map fun b => pos + ⟨0, 0, -(2 * (cfg.diameter / 2))⟩ + (⟨0, -b.x, b.y - cfg.minBendRadius⟩ : Vec)).reverse ++ ls) (1 / 1000) ∧
      ls.getLast? = some (pos + ⟨0, wall, -(2 * (cfg.diameter / 2) + cfg.wallExitFillet)⟩) ∧
      c.splitEdgeRaw = (T.map fun b => (⟨pos.x, pos.y - b.x, pos.z - 2 * (cfg.diameter / 2) - cfg.minBendRadius + b.y⟩ : Vec)).reverse ++
        (B.map fun b => pos + ⟨0, 0, -(2 * (cfg.diameter / 2))⟩ + (⟨0, -b.x, b.y - cfg.minBendRadius⟩ : Vec)).reverse ++ ls ∧
      ∃ fil, arc2D q cfg.wallExitFillet 0 (tau / 4) 0 = .ok fil ∧ ls = (pos + ⟨0, 0, -(2 * (cfg.diameter / 2))⟩) ::
        fil.map fun p => pos + ⟨0, wall - cfg.wallExitFillet + p.y, -(2 * (cfg.diameter / 2) + cfg.wallExitFillet - p.x)⟩ := by
  have r0 := hs.radius
  have f0 := hs.fillet
  have f1 := hs.fillet_le
  unfold Cable.make at h
  dsimp only at h
  obtain ⟨fil, h1, h⟩ := bind_ok h
  obtain ⟨hole, h2, h⟩ := bind_ok h
  obtain ⟨arcs, h3, h⟩ := bind_ok h
  obtain ⟨⟨B, T⟩, h4, h⟩ := bind_ok h
  dsimp only at h
  obtain ⟨hl, h5, h⟩ := bind_ok h
  obtain ⟨b0, h6, h⟩ := bind_ok h
  obtain ⟨c0, h7, h⟩ := bind_ok h
  obtain ⟨la, h8, h⟩ := bind_ok h
  obtain ⟨lp, h9, h⟩ := bind_ok h
  obtain ⟨fa, h10, h⟩ := bind_ok h
  obtain ⟨fe, h11, h⟩ := bind_ok h
  obtain ⟨t0, h12, h⟩ := bind_ok h
  obtain ⟨bb, h13, h⟩ := bind_ok h
  obtain ⟨u0, h14, h⟩ := bind_ok h
  obtain ⟨u1, h15, h⟩ := bind_ok h
  obtain ⟨v1, h16, h⟩ := bind_ok h
  obtain ⟨sT, h17, h⟩ := bind_ok h
  obtain ⟨ls, h18, h⟩ := bind_ok h
  obtain ⟨lh, h19, h⟩ := bind_ok h
  obtain rfl := Except.ok.inj h
  clear h h17
  obtain ⟨b1, ⟨bl, b2, b3, b8⟩, b4, b5, T0, be, b6, b7⟩ := bump_ok hs hq h4
  have b6 : T.getLast? = some be := by rw [b6, List.getLast?_append]; rfl
  have hw := halfHole_wall hq r0 ht h2
  have hpi := Real.pi_pos
  generalize hr : cfg.diameter / 2 = r at *
  generalize hf : cfg.wallExitFillet = f at *
  -- the hole arc
  have aH : ∀ p ∈ edgeTranslated (hole.map fun p => (⟨p.y, 0, p.x⟩ : Vec)) (pos + ⟨0, 0, -r⟩), p.y = pos.y ∧
      HoleWall taper r ⟨p.x - pos.x, p.z - pos.z + r, 0⟩ := by
    intro p hp
    obtain ⟨v, hv, rfl⟩ := List.mem_map.mp hp
    obtain ⟨u, hu, rfl⟩ := List.mem_map.mp hv
    obtain ⟨-, w⟩ := hw u hu
    refine ⟨by simp, ?_⟩
    convert w using 1
    ext <;> simp <;> ring
  have aF : ∀ a ∈ arcs, ∃ y ρ : ℝ, r ≤ ρ ∧ ρ ≤ r + f ∧ wall - f ≤ y ∧ y ≤ wall ∧ (r + f - ρ) ^ 2 + (y - (wall - f)) ^ 2 = f ^ 2 ∧
      ∀ p ∈ a, p.y = pos.y + y ∧ HoleWall taper ρ ⟨p.x - pos.x, p.z - pos.z + r, 0⟩ := by
    intro a ha
    obtain ⟨v, hv, e⟩ := forall₂_right_mem (mapM_ok h3) ha
    obtain ⟨u, hu, rfl⟩ := List.mem_map.mp hv
    dsimp only at e
    obtain ⟨ratio, e1, e⟩ := bind_ok e
    obtain rfl := Except.ok.inj e
    obtain ⟨r1, rfl⟩ := pyDiv_val e1
    obtain ⟨s, s0, s1, rfl⟩ := arc_between f0 hq (by unfold tau; rw [abs_le]; constructor <;> linarith) h1 u hu
    have w0 : 0 ≤ Real.pi / 2 := by linarith
    have hs0 : 0 ≤ s * (Real.pi / 2) := mul_nonneg s0 w0
    have hs1 : s * (Real.pi / 2) ≤ Real.pi / 2 := mul_le_of_le_one_left w0 s1
    have c1 := Real.cos_nonneg_of_neg_pi_div_two_le_of_le (by linarith : -(Real.pi / 2) ≤ s * (Real.pi / 2)) hs1
    have c2 := Real.sin_nonneg_of_nonneg_of_le_pi hs0 (by linarith)
    have c3 := Real.cos_le_one (s * (Real.pi / 2))
    have c4 := Real.sin_le_one (s * (Real.pi / 2))
    have c5 := Real.sin_sq_add_cos_sq (s * (Real.pi / 2))
    have e2 : 0 + s * (tau / 4) = s * (Real.pi / 2) := by unfold tau; ring
    simp only [circlePoint, e2, Vec.zero_x, Vec.zero_y, zero_add]
    generalize s * (Real.pi / 2) = φ at *
    have f0' : 0 ≤ f := by linarith
    have k1 := mul_nonneg f0' c1
    have k2 := mul_nonneg f0' c2
    have k3 := mul_le_mul_of_nonneg_left c3 f0'
    have k4 := mul_le_mul_of_nonneg_left c4 f0'
    refine ⟨wall - f + f * Real.sin φ, r + (f - f * Real.cos φ), by linarith, by linarith, by linarith, by linarith, by linear_combination f ^ 2 * c5, ?_⟩
    intro p hp
    obtain ⟨v, hv, rfl⟩ := List.mem_map.mp hp
    obtain ⟨x, hx, rfl⟩ := List.mem_map.mp hv
    obtain ⟨u, hu, rfl⟩ := List.mem_map.mp hx
    obtain ⟨-, w⟩ := hw u hu
    refine ⟨by simp; ring, ?_⟩
    have := holeWall_scaled (k := 1 + (f - f * Real.cos φ) / r) w (by
      have := div_nonneg (by linarith : 0 ≤ f - f * Real.cos φ) (by linarith : 0 ≤ r)
      linarith)
    convert this using 1
    · field_simp
    · ext <;> simp <;> ring
  have lH : (edgeTranslated (hole.map fun p => (⟨p.y, 0, p.x⟩ : Vec)) (pos + ⟨0, 0, -r⟩)).getLast? = some (pos + ⟨0, 0, -(2 * r)⟩) := by
    have := halfHole_low hq r0 ht h2
    simp only [edgeTranslated, List.getLast?_map, this, Option.map_some]
    congr 1
    ext <;> simp <;> ring
  have lA : ∀ a, arcs.getLast? = some a → (∀ p ∈ a, p.y = pos.y + wall) ∧ a.getLast? = some (pos + ⟨0, wall, -(2 * r + f)⟩) := by
    intro a ha
    have hlow := halfHole_low hq r0 ht h2
    obtain ⟨v, hv, e⟩ := forall₂_last (mapM_ok h3) ha
    obtain ⟨-, n2⟩ := (C53_ends f0 hq h1).2 (by unfold tau; rw [abs_lt]; constructor <;> linarith [Real.two_le_pi])
    rw [List.getLast?_map, n2] at hv
    obtain rfl := Option.some.inj hv
    dsimp only at e
    obtain ⟨ratio, e1, e⟩ := bind_ok e
    obtain rfl := Except.ok.inj e
    obtain ⟨r1, rfl⟩ := pyDiv_val e1
    have e2 : 0 + tau / 4 = Real.pi / 2 := by unfold tau; ring
    refine ⟨fun p hp => ?_, ?_⟩
    · obtain ⟨v, hv, rfl⟩ := List.mem_map.mp hp
      obtain ⟨x, hx, rfl⟩ := List.mem_map.mp hv
      obtain ⟨u, hu, rfl⟩ := List.mem_map.mp hx
      simp only [circlePoint, e2, Real.sin_pi_div_two]
      simp
      ring
    · simp only [edgeTranslated, edgeScaled, List.getLast?_map, hlow, Option.map_some, circlePoint, e2, Real.sin_pi_div_two, Real.cos_pi_div_two]
      congr 1
      ext
      · simp
      · simp; ring
      · simp; field_simp; ring
  have nA : arcs ≠ [] := by
    rintro rfl
    obtain ⟨-, n2⟩ := (C53_ends f0 hq h1).2 (by unfold tau; rw [abs_lt]; constructor <;> linarith [Real.two_le_pi])
    have := (mapM_ok h3).length_eq
    rw [List.length_map, List.length_nil, List.length_eq_zero_iff] at this
    rw [this] at n2
    simp at n2
  have lsE : ∃ fil, arc2D q f 0 (tau / 4) 0 = .ok fil ∧ ls = (pos + ⟨0, 0, -(2 * r)⟩) :: fil.map fun p => pos + ⟨0, wall - f + p.y, -(2 * r + f - p.x)⟩ := by
    refine ⟨fil, h1, ?_⟩
    have hlow := halfHole_low hq r0 ht h2
    have g := mapM_ok h18
    cases g with
    | cons g1 g2 =>
      congr 1
      · have := pyIndex_last.mp g1
        rw [lH] at this
        exact (Option.some.inj this).symm
      · have g3 := forall₂_trans_map (mapM_ok h3) g2 (g := fun p : Vec => pos + ⟨0, wall - f + p.y, -(2 * r + f - p.z)⟩) (by
          intro u a b e eb
          obtain ⟨ratio, e1, e⟩ := bind_ok e
          obtain rfl := Except.ok.inj e
          obtain ⟨r1, rfl⟩ := pyDiv_val e1
          have eb := pyIndex_last.mp eb
          simp only [edgeTranslated, edgeScaled, List.getLast?_map, hlow, Option.map_some] at eb
          rw [← Option.some.inj eb]
          ext
          · simp
          · simp; ring
          · simp; field_simp; ring)
        rw [g3, List.map_map]
        rfl
  clear h2 h1 hw h3
  generalize edgeTranslated (hole.map fun p => (⟨p.y, 0, p.x⟩ : Vec)) (pos + ⟨0, 0, -r⟩) = H at *
  have bh := b4 _ (List.mem_of_mem_head? b1)
  have e5 := pyIndex_last.mp h5
  rw [lH] at e5
  obtain rfl := Option.some.inj e5
  have e6 := pyIndex_zero.mp h6
  rw [List.getElem?_map, ← List.head?_eq_getElem?, b1] at e6
  obtain rfl := Option.some.inj e6
  have e7 := pyIndex_zero.mp h7
  rw [edgeTranslated, List.getElem?_map, List.getElem?_map, ← List.head?_eq_getElem?, b1] at e7
  have e7 := (Option.some.inj e7).symm
  have e12 := pyIndex_zero.mp h12
  rw [List.getElem?_map, ← List.head?_eq_getElem?, b3] at e12
  obtain rfl := Option.some.inj e12
  -- one arc of the groove
  have arcE : ∀ p : Vec, edgeTranslated (edgeTranslated (B.map fun p => (⟨0, -p.x, p.y⟩ : Vec)) (pos + ⟨0, 0, -(2 * r)⟩ - ⟨0, -0, cfg.minBendRadius⟩)) (p - c0) =
      B.map fun b => p + (⟨0, -b.x, b.y - cfg.minBendRadius⟩ : Vec) := by
    intro p
    rw [edgeTranslated, edgeTranslated, List.map_map, List.map_map]
    refine List.map_congr_left fun b _ => ?_
    rw [e7]
    ext <;> simp <;> ring
  simp only [arcE] at *
  have dL : (H.drop (H.length / 2)).getLast? = some (pos + ⟨0, 0, -(2 * r)⟩) := by
    rw [List.getLast?_drop, if_neg, lH]
    have : H ≠ [] := by rintro rfl; simp at lH
    have := List.length_pos_of_ne_nil this
    omega
  have dH : ∀ p ∈ H.drop (H.length / 2), p ∈ H := fun p hp => List.mem_of_mem_drop hp
  have hT : ∀ p ∈ H.take (H.length / 2 + 1), p ∈ H := fun p hp => List.mem_of_mem_take hp
  generalize H.drop (H.length / 2) = D at *
  have e8 := pyIndex_last.mp h8
  rw [List.getLast?_map, List.getLast?_reverse] at e8
  obtain ⟨m, hm, rfl⟩ := Option.map_eq_some_iff.mp e8
  have hm := aH m (dH m (List.mem_of_mem_head? hm))
  have e10 := pyIndex_zero.mp h10
  rw [← List.head?_eq_getElem?, List.head?_append, List.head?_map, List.head?_reverse, dL, Option.map_some, Option.some_or] at e10
  obtain rfl := Option.some.inj e10
  have e9 := pyIndex_last.mp h9
  rw [List.getLast?_map, b2] at e9
  obtain rfl := Option.some.inj e9
  have e11 := pyIndex_last.mp h11
  rw [List.getLast?_map, b2] at e11
  obtain rfl := Option.some.inj e11
  clear e8 e10 e9 e11 h5 h6 h7 h8 h9 h10 h11 h12 e5 e6 e12
  have eL : edgeTranslated (T.map fun p => (⟨0, -p.x, p.y⟩ : Vec)) (pos + ⟨0, 0, -(2 * r)⟩ + ⟨0, -bl.x, bl.y - cfg.minBendRadius⟩ - ⟨0, -bl.x, bl.y⟩) =
      T.map fun b => (⟨pos.x, pos.y - b.x, pos.z - 2 * r - cfg.minBendRadius + b.y⟩ : Vec) := by
    rw [edgeTranslated, List.map_map]
    refine List.map_congr_left fun b _ => ?_
    ext <;> simp <;> ring
  have eR : edgeTranslated (B.map fun b => m + (⟨0, -b.x, b.y - cfg.minBendRadius⟩ : Vec))
      ⟨bracket * (6 / 10) + r * (4 / 10) - ((m + (⟨0, -bl.x, bl.y - cfg.minBendRadius⟩ : Vec)).x - pos.x), 0, 0⟩ =
      B.map fun b => (⟨pos.x + (bracket * (6 / 10) + r * (4 / 10)), m.y, m.z⟩ : Vec) + (⟨0, -b.x, b.y - cfg.minBendRadius⟩ : Vec) := by
    rw [edgeTranslated, List.map_map]
    refine List.map_congr_left fun b _ => ?_
    ext <;> simp <;> ring
  have eRR : ∀ w, edgeTranslated (T.map fun b => (⟨pos.x, pos.y - b.x, pos.z - 2 * r - cfg.minBendRadius + b.y⟩ : Vec)) ⟨w, 0, 0⟩ =
      T.map fun b => (⟨pos.x + w, pos.y - b.x, pos.z - 2 * r - cfg.minBendRadius + b.y⟩ : Vec) := by
    intro w
    rw [edgeTranslated, List.map_map]
    refine List.map_congr_left fun b _ => ?_
    ext <;> simp
  simp only [eR, eL, eRR] at h13 h14 h15 h16 ⊢
  clear arcE eR eL eRR e7
  generalize bracket * (6 / 10) + r * (4 / 10) = w at *
  generalize hG : (D.reverse.map fun p => B.map fun b => p + (⟨0, -b.x, b.y - cfg.minBendRadius⟩ : Vec)) ++
    [B.map fun b => (⟨pos.x + w, m.y, m.z⟩ : Vec) + (⟨0, -b.x, b.y - cfg.minBendRadius⟩ : Vec)] = G at *
  have aG : ∀ a ∈ G, ∃ m start : Vec, OnExit taper r f wall (m - pos + ⟨0, 0, r⟩) ∧ m.y = pos.y ∧ (start = m ∨ start = ⟨pos.x + w, pos.y, m.z⟩) ∧
      start.y = pos.y ∧ a = B.map fun b => start + (⟨0, -b.x, b.y - cfg.minBendRadius⟩ : Vec) := by
    have ex : ∀ p : Vec, (p.y = pos.y ∧ HoleWall taper r ⟨p.x - pos.x, p.z - pos.z + r, 0⟩) → OnExit taper r f wall (p - pos + ⟨0, 0, r⟩) := by
      intro p ⟨p1, p2⟩
      refine .inl ⟨by simp [p1], ?_⟩
      convert p2 using 1
      ext <;> simp
    intro a ha
    rw [← hG, List.mem_append, List.mem_singleton] at ha
    rcases ha with ha | rfl
    · obtain ⟨p, hp, rfl⟩ := List.mem_map.mp ha
      have hp := aH p (dH p (List.mem_reverse.mp hp))
      exact ⟨p, p, ex p hp, hp.1, .inl rfl, hp.1, rfl⟩
    · exact ⟨m, ⟨pos.x + w, m.y, m.z⟩, ex m hm, hm.1, .inr (by rw [hm.1]), hm.1, rfl⟩
  have tR : ∀ x ∈ T.map fun b => (⟨pos.x + w, pos.y - b.x, pos.z - 2 * r - cfg.minBendRadius + b.y⟩ : Vec), ∃ b : Vec, OnTaper cfg b ∧ x.x = pos.x + w ∧
      x.y = pos.y - b.x ∧ x.z = pos.z - 2 * r - cfg.minBendRadius + b.y := by
    intro x hx
    obtain ⟨b, hb, rfl⟩ := List.mem_map.mp hx
    exact ⟨b, b5 b hb, rfl, rfl, rfl⟩
  have tL : ∀ x ∈ T.map fun b => (⟨pos.x, pos.y - b.x, pos.z - 2 * r - cfg.minBendRadius + b.y⟩ : Vec), ∃ b : Vec, OnTaper cfg b ∧ x.x = pos.x ∧
      x.y = pos.y - b.x ∧ x.z = pos.z - 2 * r - cfg.minBendRadius + b.y := by
    intro x hx
    obtain ⟨b, hb, rfl⟩ := List.mem_map.mp hx
    exact ⟨b, b5 b hb, rfl, rfl, rfl⟩
  have aR : ∀ x ∈ B.map fun b => (⟨pos.x + w, m.y, m.z⟩ : Vec) + (⟨0, -b.x, b.y - cfg.minBendRadius⟩ : Vec), x.x = pos.x + w := by
    intro x hx
    obtain ⟨b, hb, rfl⟩ := List.mem_map.mp hx
    simp
  have aRT : ∀ x ∈ (B.map fun b => (⟨pos.x + w, m.y, m.z⟩ : Vec) + (⟨0, -b.x, b.y - cfg.minBendRadius⟩ : Vec)) ++
      (T.map fun b => (⟨pos.x + w, pos.y - b.x, pos.z - 2 * r - cfg.minBendRadius + b.y⟩ : Vec)), x.x = pos.x + w := by
    intro x hx
    rcases List.mem_append.mp hx with hx | hx
    · exact aR x hx
    · obtain ⟨b, -, e, -⟩ := tR x hx; exact e
  have eU0 : u0.y = pos.y := by
    have := pyIndex_zero.mp h14
    rw [← List.head?_eq_getElem?, List.head?_append, List.head?_map, b1, Option.map_some, Option.some_or] at this
    rw [← Option.some.inj this]
    simp [hm.1]
  have eU1 : u1.y = pos.y := by
    have := pyIndex_last.mp h15
    rw [List.getLast?_append, List.getLast?_map, b6, Option.map_some, Option.some_or] at this
    rw [← Option.some.inj this]
    simp [b7]
  have eV1 : v1.y = pos.y := by
    have := pyIndex_last.mp h16
    rw [List.getLast?_map, b6, Option.map_some] at this
    rw [← Option.some.inj this]
    simp [b7]
  have inG : ∀ a ∈ G, ∀ p ∈ a, ∃ P ∈ stripsDown G, p ∈ Piece.points P := by
    intro a ha p hp
    refine stripsDown_points ?_ ha hp
    rw [← hG, List.length_append, List.length_map, List.length_reverse]
    have : D ≠ [] := by rintro rfl; simp at dL
    have := List.length_pos_of_ne_nil this
    simp
    omega
  have inR : (B.map fun b => (⟨pos.x + w, m.y, m.z⟩ : Vec) + (⟨0, -b.x, b.y - cfg.minBendRadius⟩ : Vec)) ∈ G := by
    rw [← hG]; simp
  refine ⟨?_, B, T, ls, h4, rfl, ?_, rfl, lsE⟩
  swap
  · have e18 := mapM_ok h18
    cases arcs with
    | nil => exact absurd rfl nA
    | cons a l =>
      obtain ⟨x, hx⟩ : ∃ x, ls.getLast? = some x := by
        have := e18.length_eq
        have nl : ls ≠ [] := by rintro rfl; simp at this
        exact ⟨_, List.getLast?_eq_some_getLast nl⟩
      obtain ⟨y, hy, e⟩ := forall₂_last e18 hx
      have := (lA y (by simpa using hy)).2
      rw [hx, ← this]
      exact (pyIndex_last.mp e).symm
  unfold CableShape
  dsimp only
  rw [hr, hf]
  refine ⟨_, _, _, _, _, rfl, ?_, ?_, ?_, ?_, ?_, ?_, ?_, ?_⟩
  · have : ∀ a ∈ H :: arcs, ∀ p ∈ a, OnExit taper r f wall (p - pos + ⟨0, 0, r⟩) := by
      intro a ha p hp
      rcases List.mem_cons.mp ha with rfl | ha
      · obtain ⟨p1, p2⟩ := aH p hp
        refine .inl ⟨by simp [p1], ?_⟩
        convert p2 using 1
        ext <;> simp
      · obtain ⟨y, ρ, a1, a2, a3, a4, a5, a6⟩ := aF a ha
        obtain ⟨p1, p2⟩ := a6 p hp
        have ey : (p - pos + ⟨0, 0, r⟩).y = y := by simp [p1]
        refine .inr ⟨ρ, a1, a2, by rw [ey]; exact a3, by rw [ey]; exact a4, by rw [ey]; exact a5, ?_⟩
        convert p2 using 1
        ext <;> simp
    intro P hP p hp
    obtain ⟨a, ha, b, hb, rfl⟩ := mem_stripsUp hP
    rw [piece_strip, List.mem_append] at hp
    rcases hp with hp | hp
    · exact this _ hb p hp
    · exact this _ ha p hp
  · have : ∀ a ∈ G, ∀ p ∈ a, ∃ m start b : Vec, OnExit taper r f wall (m - pos + ⟨0, 0, r⟩) ∧ m.y = pos.y ∧
        (start = m ∨ start = ⟨pos.x + w, pos.y, m.z⟩) ∧ OnBend cfg b ∧ p = start + ⟨0, -b.x, b.y - cfg.minBendRadius⟩ := by
      intro a ha p hp
      obtain ⟨m, s, s1, s2, s3, -, rfl⟩ := aG a ha
      obtain ⟨b, hb, rfl⟩ := List.mem_map.mp hp
      exact ⟨m, s, b, s1, s2, s3, b4 b hb, rfl⟩
    intro P hP p hp
    obtain ⟨a, ha, b, hb, rfl⟩ := mem_stripsDown hP
    rw [piece_strip, List.mem_append] at hp
    rcases hp with hp | hp
    · exact this _ hb p hp
    · exact this _ ha p hp
  · intro p hp
    rw [piece_strip, List.mem_append] at hp
    rcases hp with hp | hp
    · obtain ⟨b, c1, c2, c3⟩ := tL p hp
      exact ⟨b, c1, .inl c2, c3⟩
    · obtain ⟨b, c1, c2, c3⟩ := tR p hp
      exact ⟨b, c1, .inr c2, c3⟩
  · intro p hp
    rw [piece_strip, List.mem_append] at hp
    rcases hp with hp | hp
    · exact aRT p hp
    · exact aRT p (List.mem_of_mem_take hp)
  · intro p hp
    rw [piece_strip, List.mem_append] at hp
    rcases hp with hp | hp
    · obtain ⟨a, ha, e⟩ := forall₂_right_mem (mapM_ok h13) hp
      obtain ⟨-, s, -, -, -, s1, rfl⟩ := aG a (List.mem_reverse.mp ha)
      have e := pyIndex_last.mp e
      rw [List.getLast?_map, b2, Option.map_some] at e
      rw [← Option.some.inj e, ← b8]
      simp [s1]
      ring
    · rw [← List.map_take, List.take_one, b3] at hp
      simp at hp
      rw [hp, b8]
  · intro p hp
    simp only [piece_strip, List.mem_append] at hp
    rcases hp with ((hp | hp) | hp) | hp | hp
    · obtain ⟨P, hP, hp⟩ := inG _ inR p hp
      exact ⟨P, List.mem_cons_of_mem _ hP, hp⟩
    · exact ⟨_, List.mem_cons_self, by rw [piece_strip, List.mem_append]; exact .inr hp⟩
    · rcases List.mem_append.mp (List.mem_of_mem_take hp) with hp | hp
      · obtain ⟨P, hP, hp⟩ := inG _ inR p hp
        exact ⟨P, List.mem_cons_of_mem _ hP, hp⟩
      · exact ⟨_, List.mem_cons_self, by rw [piece_strip, List.mem_append]; exact .inr hp⟩
    · obtain ⟨a, ha, e⟩ := forall₂_right_mem (mapM_ok h13) hp
      obtain ⟨P, hP, hp⟩ := inG a (List.mem_reverse.mp ha) p (pyIndex_mem e)
      exact ⟨P, List.mem_cons_of_mem _ hP, hp⟩
    · exact ⟨_, List.mem_cons_self, by rw [piece_strip, List.mem_append]; exact .inr (List.mem_of_mem_take hp)⟩
  · intro p hp
    simp only [List.mem_append, List.mem_cons, List.not_mem_nil, or_false] at hp
    rcases hp with hp | rfl | rfl | rfl
    · exact (aH p (hT p hp)).1
    · exact eU0
    · exact eU1
    · exact eV1
  · intro p hp
    have := pyIndex_last.mp h19
    cases arcs with
    | nil => exact absurd rfl nA
    | cons a l => exact (lA lh (by simpa using this)).1 p (by simpa using hp)

/-- **C99** The cable hole has the shape that is configured: it is round (or tapered) with the diameter of the cable at the inner side of the wall, and widens
with the configured fillet to the outer side; the bump below it guides the cable over a bend of the configured radius down to an inclination of 45 degrees, and its underside tapers back to the wall. -/
theorem C99_shape {q : Quality} {taper : Option ℝ} {cfg : CableCfg} {bracket wall : ℝ} {pos : Vec} {c : Cable} (hs : SaneCable cfg wall)
    (hq : 0 < q.maxChordAngle) (ht : ∀ a ∈ taper, a < Real.pi) (h : Cable.make q taper cfg bracket pos wall = .ok c) :
    CableShape taper cfg (bracket * (6 / 10) + cfg.diameter / 2 * (4 / 10)) pos wall c :=
  (cable_full hs hq ht h).1

theorem halfHole_exists {q : Quality} {taper : Option ℝ} {r : ℝ} (hq : 0 < q.maxChordAngle) (hh : 0 < q.maxChordHeight) (hr : 1 / 1000000 ≤ r)
    (hf : q.maxChordHeight ≤ 2 * r) (ht : ∀ a ∈ taper, a < Real.pi) : ∃ hole, uprightHalfHole2D q taper r = .ok hole := by
  cases taper with
  | none =>
    rw [(C67_round q _ none (by simp)).2]
    exact arc_exists hq hh hr hf Real.pi_pos.ne'
  | some angle => exact (C67_succeeds q _ angle hq hh hr hf (ht angle rfl)).2

theorem bump_exists {q : Quality} {cfg : CableCfg} {t : ℝ} (hs : SaneCable cfg t) (hq : 0 < q.maxChordAngle) (hh : 0 < q.maxChordHeight)
    (hf : q.maxChordHeight ≤ 2 * cfg.wallBumpRadius) : ∃ B T, cableBump q cfg = .ok (B, T) := by
  obtain ⟨-, -, -, s1, s2, s3, s4⟩ := hs
  have hpi := Real.pi_pos
  have ht : tau = 2 * Real.pi := rfl
  have h20 : (0 : ℝ) < Real.sqrt 2 := by positivity
  have h22 : Real.sqrt 2 * Real.sqrt 2 = 2 := Real.mul_self_sqrt (by norm_num)
  have hd : UnitOf (⟨1 / Real.sqrt 2, 1 / Real.sqrt 2, 0⟩ : Vec) ⟨1, 1, 0⟩ := by
    refine ⟨?_, Real.sqrt 2, h20, ?_⟩
    · simp only [Vec.dot]; field_simp; linarith
    · ext <;> simp
  unfold cableBump
  dsimp only
  rw [hd.normalized, value_bind]
  obtain ⟨a, ha⟩ := arc_exists (start := tau / 4) (span := -tau / 8) (center := 0) hq hh (by linarith : 1 / 1000000 ≤ cfg.minBendRadius) (by linarith) (by rw [ht]; intro h; linarith)
  obtain ⟨b, hb⟩ := arc_exists (start := tau / 8) (span := -tau / 8)
    (center := (⟨1 / Real.sqrt 2, 1 / Real.sqrt 2, 0⟩ : Vec) * (cfg.minBendRadius - cfg.wallBumpRadius)) hq hh s1 hf (by rw [ht]; intro h; linarith)
  obtain ⟨c, hc⟩ := arc_exists (start := 0) (span := -(tau / 4 - cfg.wallBumpTaperAngle))
    (center := (⟨1 / Real.sqrt 2, 1 / Real.sqrt 2, 0⟩ : Vec) * (cfg.minBendRadius - cfg.wallBumpRadius)) hq hh s1 hf (by rw [ht]; intro h; linarith)
  rw [ha, value_bind, hb, value_bind]
  have hk : pyDiv (Real.sin cfg.wallBumpTaperAngle) (Real.cos cfg.wallBumpTaperAngle) = .ok (Real.sin cfg.wallBumpTaperAngle / Real.cos cfg.wallBumpTaperAngle) := by
    unfold pyDiv
    rw [if_neg (Real.cos_pos_of_mem_Ioo ⟨by linarith, s4⟩).ne']
  rw [hk, value_bind, hc, value_bind]
  have nc : c ≠ [] := by
    rintro rfl
    have := (C53_ends s1 hq hc).1
    simp at this
  obtain ⟨t1, h1⟩ := (index_some nc).2
  rw [h1, value_bind]
  exact ⟨_, _, rfl⟩

theorem mapM_index {es : List (List Vec)} (h : ∀ e ∈ es, e ≠ []) :
    (∃ F, es.mapM (fun e => pyIndex e (-1)) = .ok F) ∧ ∃ F, es.mapM (fun e => pyIndex e 0) = .ok F :=
  ⟨mapM_ok_of es (f := fun e => pyIndex e (-1)) fun e he => (index_some (h e he)).2,
    mapM_ok_of es (f := fun e => pyIndex e 0) fun e he => (index_some (h e he)).1⟩

set_option maxHeartbeats 1000000 in
/-- **C99** A cable hole can be made for every sensible configuration if the allowed deviation is not larger than its roundings. -/
theorem C99_succeeds {q : Quality} {taper : Option ℝ} {cfg : CableCfg} {bracket wall : ℝ} {pos : Vec} (hs : SaneCable cfg wall)
    (hq : 0 < q.maxChordAngle) (hh : 0 < q.maxChordHeight) (h1 : q.maxChordHeight ≤ cfg.diameter) (h2 : q.maxChordHeight ≤ 2 * cfg.wallExitFillet)
    (h3 : q.maxChordHeight ≤ 2 * cfg.wallBumpRadius) (ht : ∀ a ∈ taper, a < Real.pi) :
    ∃ c, Cable.make q taper cfg bracket pos wall = .ok c := by
  have r0 := hs.radius
  have htau : tau = 2 * Real.pi := rfl
  have hpi := Real.pi_pos
  obtain ⟨fil, a1⟩ := arc_exists (start := 0) (span := tau / 4) (center := 0) hq hh hs.fillet h2 (by rw [htau]; intro h; linarith)
  obtain ⟨hole, a2⟩ := halfHole_exists (taper := taper) hq hh r0 (by linarith) ht
  have nh : hole ≠ [] := by
    rintro rfl
    have := halfHole_low hq r0 ht a2
    simp at this
  have nf : fil ≠ [] := by
    rintro rfl
    have := (C53_ends hs.fillet hq a1).1
    simp at this
  obtain ⟨B, T, a3⟩ := bump_exists hs hq hh h3
  obtain ⟨b1, ⟨bl, b2, b3, -⟩, -, -, be, b6, -⟩ := bump_ok hs hq a3
  have nB : B ≠ [] := by rintro rfl; simp at b1
  have nT : T ≠ [] := by rintro rfl; simp at b3
  unfold Cable.make
  dsimp only
  rw [a1, value_bind, a2, value_bind]
  have nH : edgeTranslated (hole.map fun p => (⟨p.y, 0, p.x⟩ : Vec)) (pos + ⟨0, 0, -(cfg.diameter / 2)⟩) ≠ [] := by
    simpa [edgeTranslated] using nh
  have nXZ : (hole.map fun p => (⟨p.y, 0, p.x⟩ : Vec)) ≠ [] := by simpa using nh
  generalize edgeTranslated (hole.map fun p => (⟨p.y, 0, p.x⟩ : Vec)) (pos + ⟨0, 0, -(cfg.diameter / 2)⟩) = H at *
  generalize (hole.map fun p => (⟨p.y, 0, p.x⟩ : Vec)) = XZ at *
  obtain ⟨arcs, a4⟩ := mapM_ok_of (fil.map fun p => (⟨0, p.y, p.x⟩ : Vec)) (f := fun p => do
      let ratio ← pyDiv (cfg.wallExitFillet - p.z) (cfg.diameter / 2)
      pure (edgeTranslated (edgeScaled XZ (1 + ratio)) (pos + ⟨0, wall - cfg.wallExitFillet, -(cfg.diameter / 2)⟩ + ⟨0, p.y, 0⟩)))
    fun p _ => by
      unfold pyDiv
      rw [if_neg (by intro h; rw [h] at r0; norm_num at r0)]
      exact ⟨_, rfl⟩
  have nA : ∀ a ∈ arcs, a ≠ [] := by
    intro a ha
    obtain ⟨v, hv, e⟩ := forall₂_right_mem (mapM_ok a4) ha
    obtain ⟨ratio, -, e⟩ := bind_ok e
    obtain rfl := Except.ok.inj e
    simpa [edgeTranslated, edgeScaled] using nXZ
  rw [a4, value_bind, a3, value_bind]
  dsimp only
  obtain ⟨hl, a5⟩ := (index_some nH).2
  rw [a5, value_bind]
  have nB0 : (B.map fun p => (⟨0, -p.x, p.y⟩ : Vec)) ≠ [] := by simpa using nB
  have nT0 : (T.map fun p => (⟨0, -p.x, p.y⟩ : Vec)) ≠ [] := by simpa using nT
  generalize (B.map fun p => (⟨0, -p.x, p.y⟩ : Vec)) = B0 at *
  generalize (T.map fun p => (⟨0, -p.x, p.y⟩ : Vec)) = T0 at *
  obtain ⟨b0, a6⟩ := (index_some nB0).1
  rw [a6, value_bind]
  have nB1 : edgeTranslated B0 (hl - b0) ≠ [] := by simpa [edgeTranslated] using nB0
  generalize edgeTranslated B0 (hl - b0) = B1 at *
  obtain ⟨c0, a7⟩ := (index_some nB1).1
  rw [a7, value_bind]
  have nG : ((H.drop (H.length / 2)).reverse.map fun p => edgeTranslated B1 (p - c0)) ≠ [] := by
    have := List.length_pos_of_ne_nil nH
    simp
    omega
  have nG1 : ∀ a ∈ ((H.drop (H.length / 2)).reverse.map fun p => edgeTranslated B1 (p - c0)), a ≠ [] := by
    intro a ha
    obtain ⟨p, -, rfl⟩ := List.mem_map.mp ha
    simpa [edgeTranslated] using nB1
  generalize ((H.drop (H.length / 2)).reverse.map fun p => edgeTranslated B1 (p - c0)) = G at *
  obtain ⟨la, a8⟩ := (index_some nG).2
  have nla : la ≠ [] := nG1 la (List.mem_of_getLast? (pyIndex_last.mp a8))
  rw [a8, value_bind]
  obtain ⟨lp, a9⟩ := (index_some nla).2
  rw [a9, value_bind]
  have nR : edgeTranslated la ⟨bracket * (6 / 10) + cfg.diameter / 2 * (4 / 10) - (lp.x - pos.x), 0, 0⟩ ≠ [] := by simpa [edgeTranslated] using nla
  generalize edgeTranslated la ⟨bracket * (6 / 10) + cfg.diameter / 2 * (4 / 10) - (lp.x - pos.x), 0, 0⟩ = R at *
  have nGR : ∀ a ∈ G ++ [R], a ≠ [] := by
    intro a ha
    rw [List.mem_append, List.mem_singleton] at ha
    rcases ha with ha | rfl
    · exact nG1 a ha
    · exact nR
  obtain ⟨fa, a10⟩ := (index_some (by simp : G ++ [R] ≠ [])).1
  rw [a10, value_bind]
  have nfa : fa ≠ [] := nGR fa (List.mem_of_getElem? (pyIndex_zero.mp a10))
  obtain ⟨fe, a11⟩ := (index_some nfa).2
  rw [a11, value_bind]
  obtain ⟨t0, a12⟩ := (index_some nT0).1
  rw [a12, value_bind]
  have nT1 : edgeTranslated T0 (fe - t0) ≠ [] := by simpa [edgeTranslated] using nT0
  generalize edgeTranslated T0 (fe - t0) = T1 at *
  obtain ⟨bb, a13⟩ := (mapM_index (es := (G ++ [R]).reverse) fun e he => nGR e (List.mem_reverse.mp he)).1
  rw [a13, value_bind]
  have nRT : ∀ v, R ++ edgeTranslated T1 v ≠ [] := by simp [nR]
  obtain ⟨u0, a14⟩ := (index_some (nRT ⟨bracket * (6 / 10) + cfg.diameter / 2 * (4 / 10), 0, 0⟩)).1
  obtain ⟨u1, a15⟩ := (index_some (nRT ⟨bracket * (6 / 10) + cfg.diameter / 2 * (4 / 10), 0, 0⟩)).2
  obtain ⟨v1, a16⟩ := (index_some nT1).2
  rw [a14, value_bind, a15, value_bind, a16, value_bind]
  have nHA : ∀ a ∈ H :: arcs, a ≠ [] := by
    intro a ha
    rcases List.mem_cons.mp ha with rfl | ha
    · exact nH
    · exact nA a ha
  obtain ⟨sT, a17⟩ := (mapM_index (es := (H :: arcs).reverse) fun e he => nHA e (List.mem_reverse.mp he)).2
  obtain ⟨ls, a18⟩ := (mapM_index (es := H :: arcs) nHA).1
  obtain ⟨lh, a19⟩ := (index_some (List.cons_ne_nil H arcs)).2
  rw [a17, value_bind, a18, value_bind, a19, value_bind]
  exact ⟨_, rfl⟩

/-- The cable of `chrumm.json`, in a wall of 2 mm. -/
noncomputable def exampleCable : CableCfg where
  diameter := 4
  wallExitFillet := 3 / 2
  minBendRadius := 4
  wallBumpRadius := 1
  wallBumpTaperAngle := Real.pi / 6
  bracketInset := 3 / 5
  ziptieWidth := 18 / 5
  ziptieHeight := 9 / 5
  gripHumpWidth := 24 / 5
  gripHumpHeight := 3

/-- The hypotheses of C99 can be met: the hole for the cable of `chrumm.json` can be made, and has its shape. -/
example (pos : Vec) : SaneCable exampleCable 2 ∧ ∃ c, Cable.make ⟨1 / 100, 1 / 10⟩ (some (Real.pi / 4)) exampleCable 20 pos 2 = .ok c ∧
    CableShape (some (Real.pi / 4)) exampleCable (20 * (6 / 10) + 4 / 2 * (4 / 10)) pos 2 c := by
  have hpi := Real.pi_pos
  have hs : SaneCable exampleCable 2 := by
    constructor <;> simp only [exampleCable] <;> first | linarith | norm_num
  obtain ⟨c, hc⟩ := C99_succeeds (q := ⟨1 / 100, 1 / 10⟩) (taper := some (Real.pi / 4)) (bracket := 20) (pos := pos) hs (by norm_num) (by norm_num)
    (by simp [exampleCable]; norm_num) (by simp [exampleCable]; norm_num) (by simp [exampleCable]; norm_num) (by intro a ha; simp at ha; linarith)
  refine ⟨hs, c, hc, C99_shape hs (by norm_num) (by intro a ha; simp at ha; linarith) hc⟩

end Chrumm.Part
