import Verif.Props.Inside
import Verif.Props.Hull
import Verif.Spec.Clip
import Mathlib.Data.Finset.Max

/-! C61 for convex hulls. -/

namespace Chrumm.Geo
open Spec

theorem esum_telescope {A P : Type} [AddCommGroup A] [DecidableEq P] (φ : P → A) (e : List P) :
    esum (fun a b => φ b - φ a) (cycPairs e) = 0 := by
  have h : ∀ (l m : List P), l.length = m.length →
      esum (fun a b => φ b - φ a) (l.zip m) = (m.map φ).sum - (l.map φ).sum := by
    intro l
    induction l with
    | nil => intro m hm; rw [List.length_nil] at hm; rw [List.eq_nil_of_length_eq_zero hm.symm]; simp
    | cons a l ih =>
      intro m hm
      cases m with
      | nil => simp at hm
      | cons b m =>
        rw [List.zip_cons_cons, esum_cons, ih m (by simpa using hm)]
        simp only [List.map_cons, List.sum_cons]
        abel
  unfold cycPairs
  rw [h _ _ (by simp), sub_eq_zero]
  exact ((List.rotate_perm e 1).map φ).sum_eq

theorem mem_cycPairs {α : Type} {e : List α} {s : α × α} (h : s ∈ cycPairs e) : s.1 ∈ e ∧ s.2 ∈ e := by
  unfold cycPairs at h
  have := List.of_mem_zip (show (s.1, s.2) ∈ _ from h)
  exact ⟨this.1, List.mem_rotate.mp this.2⟩

/-- A point that is separated from all corners is not contained. -/
theorem sep_not_contains {e : List Vec} {v : Vec} (a b : ℝ) (h : ∀ u ∈ e, a * u.x + b * u.y < a * v.x + b * v.y) :
    contains2D e v = false := by
  have key : ∀ p q : Vec, a * p.x + b * p.y < a * v.x + b * v.y → a * q.x + b * q.y < a * v.x + b * v.y →
      par (crossesRay v p q) = if 0 ≤ a then 0 else par (decide (q.y ≤ v.y)) - par (decide (p.y ≤ v.y)) := by
    intro p q hp hq
    have id1 : a * left p q v = (q.y - v.y) * (a * (p.x - v.x) + b * (p.y - v.y)) +
        (v.y - p.y) * (a * (q.x - v.x) + b * (q.y - v.y)) := by
      unfold left; ring
    have hp' : a * (p.x - v.x) + b * (p.y - v.y) < 0 := by linarith
    have hq' : a * (q.x - v.x) + b * (q.y - v.y) < 0 := by linarith
    by_cases h1 : p.y ≤ v.y <;> by_cases h2 : q.y ≤ v.y
    · rw [cross_same (by constructor <;> intro h <;> linarith)]
      simp [par, h1, h2]
    · rw [cross_up (by linarith) (by linarith)]
      have : a * left p q v < 0 := by
        rw [id1]; nlinarith [mul_neg_of_pos_of_neg (show 0 < q.y - v.y by linarith) hp',
          mul_nonpos_of_nonneg_of_nonpos (show 0 ≤ v.y - p.y by linarith) hq'.le]
      split_ifs with ha
      · rw [decide_eq_false (by intro hl; nlinarith [mul_nonneg ha hl.le])]; rfl
      · rw [decide_eq_true (show 0 < left p q v by nlinarith)]
        simp [par, h1, h2]
    · rw [cross_down (by linarith) (by linarith)]
      have : 0 < a * left p q v := by
        rw [id1]; nlinarith [mul_pos_of_neg_of_neg (show v.y - p.y < 0 by linarith) hq',
          mul_nonneg_of_nonpos_of_nonpos (show q.y - v.y ≤ 0 by linarith) hp'.le]
      split_ifs with ha
      · rw [decide_eq_false (by intro hl; nlinarith [mul_nonneg ha (neg_nonneg.mpr hl.le)])]; rfl
      · rw [decide_eq_true (show left p q v < 0 by nlinarith)]
        simp [par, h1, h2]
    · rw [cross_same (by constructor <;> intro h <;> linarith)]
      simp [par, h1, h2]
  apply par_inj
  rw [contains_par]
  show _ = (0 : ZMod 2)
  have h2 : esum (fun p q => par (crossesRay v p q)) (cycPairs e) =
      esum (fun p q => if 0 ≤ a then 0 else par (decide (q.y ≤ v.y)) - par (decide (p.y ≤ v.y))) (cycPairs e) := by
    unfold esum
    congr 1
    apply List.map_congr_left
    intro s hs
    obtain ⟨h3, h4⟩ := mem_cycPairs hs
    exact key _ _ (h _ h3) (h _ h4)
  rw [h2]
  by_cases ha : 0 ≤ a
  · simp only [if_pos ha]
    unfold esum
    simp
  · simp only [if_neg ha]
    exact esum_telescope (fun p : Vec => par (decide (p.y ≤ v.y))) e

theorem cycPairs_end {e : List Vec} {c : Vec} (h : c ∈ e) : ∃ d, (d, c) ∈ cycPairs e := by
  obtain ⟨d, hd⟩ := cycPairs_start (e := e.reverse) (by simpa using h)
  have := (cycPairs_reverse e).mem_iff.mp hd
  unfold flipEdges at this
  obtain ⟨s, hs, h2⟩ := List.mem_map.mp this
  have h3 : s = (s.1, c) := by rw [← (Prod.mk.inj h2).1]
  exact ⟨s.1, h3 ▸ hs⟩

/-- In a convex polygon, a point of the closed inside that is on the line of a side is on the side. -/
theorem on_side {e : List Vec} {x : Vec} (h : ConvexPolygon e) (hin : ∀ s ∈ cycPairs e, 0 ≤ left s.1 s.2 x)
    {s : Vec × Vec} (hs : s ∈ cycPairs e) (h0 : left s.1 s.2 x = 0) :
    ∃ t : ℝ, 0 ≤ t ∧ t ≤ 1 ∧ x.xy = between2D s.1 s.2 t := by
  obtain ⟨a, c⟩ := s
  dsimp only at h0 ⊢
  obtain ⟨ha, hc⟩ := mem_cycPairs hs
  dsimp only at ha hc
  -- a third corner
  obtain ⟨r, hr, r1, r2⟩ : ∃ r ∈ e, r ≠ a ∧ r ≠ c := by
    by_contra hn
    push Not at hn
    have : e ⊆ [a, c] := by
      intro r hr
      by_cases h1 : r = a
      · simp [h1]
      · simp [hn r hr h1]
    have := (h.2.1.subperm this).length_le
    have := h.1
    simp at *
    omega
  have hr0 := h.2.2 _ hs r hr r1 r2
  dsimp only at hr0
  have hne : ¬ (c.x - a.x = 0 ∧ c.y - a.y = 0) := by
    rintro ⟨h1, h2⟩
    unfold left at hr0
    rw [h1, h2] at hr0
    simp at hr0
  have hac : a ≠ c := by
    rintro rfl
    exact hne ⟨sub_self _, sub_self _⟩
  have hD : 0 < (c.x - a.x) ^ 2 + (c.y - a.y) ^ 2 := by
    rcases not_and_or.mp hne with h1 | h1
    · have := pow_pos (abs_pos.mpr h1) 2
      rw [sq_abs] at this
      nlinarith [sq_nonneg (c.y - a.y)]
    · have := pow_pos (abs_pos.mpr h1) 2
      rw [sq_abs] at this
      nlinarith [sq_nonneg (c.x - a.x)]
  obtain ⟨t, ht⟩ : ∃ t : ℝ, t * ((c.x - a.x) ^ 2 + (c.y - a.y) ^ 2) =
      (x.x - a.x) * (c.x - a.x) + (x.y - a.y) * (c.y - a.y) := ⟨_, div_mul_cancel₀ _ hD.ne'⟩
  have hx : x.x = a.x + t * (c.x - a.x) := by
    have : (x.x - (a.x + t * (c.x - a.x))) * ((c.x - a.x) ^ 2 + (c.y - a.y) ^ 2) = 0 := by
      unfold left at h0
      linear_combination -(c.x - a.x) * ht - (c.y - a.y) * h0
    rcases mul_eq_zero.mp this with h1 | h1
    · linarith
    · exact absurd h1 hD.ne'
  have hy : x.y = a.y + t * (c.y - a.y) := by
    have : (x.y - (a.y + t * (c.y - a.y))) * ((c.x - a.x) ^ 2 + (c.y - a.y) ^ 2) = 0 := by
      unfold left at h0
      linear_combination -(c.y - a.y) * ht + (c.x - a.x) * h0
    rcases mul_eq_zero.mp this with h1 | h1
    · linarith
    · exact absurd h1 hD.ne'
  refine ⟨t, ?_, ?_, ?_⟩
  · obtain ⟨z, hz⟩ := cycPairs_end ha
    have h1 := hin _ hz
    have hzc : z ≠ c := by
      rintro rfl
      -- then the third corner is on both sides
      have h3 := h.2.2 _ hz r hr r2 r1
      dsimp only at h3
      rw [left_swap] at h3
      linarith
    have h2 := h.2.2 _ hz c hc hzc.symm hac.symm
    dsimp only at h1 h2
    have h3 : left z a x = t * left z a c := by
      unfold left
      rw [hx, hy]
      ring
    rw [h3] at h1
    exact nonneg_of_mul_nonneg_left h1 h2
  · obtain ⟨z, hz⟩ := cycPairs_start hc
    have h1 := hin _ hz
    have hza : z ≠ a := by
      rintro rfl
      have h3 := h.2.2 _ hz r hr r2 r1
      dsimp only at h3
      rw [left_swap] at h3
      linarith
    have h2 := h.2.2 _ hz a ha hac hza.symm
    dsimp only at h1 h2
    have h3 : left c z x = (1 - t) * left c z a := by
      unfold left
      rw [hx, hy]
      ring
    rw [h3] at h1
    linarith [nonneg_of_mul_nonneg_left h1 h2]
  · ext
    · exact hx
    · exact hy
    · rfl

/-- The distance to a side is at most the distance to any of its points. -/
theorem dist_le_side {e : List Vec} {v : Vec} {r : ℝ} (h : edgeDistance2D e v = .ok r) {s : Vec × Vec}
    (hs : s ∈ cycPairs e) {t : ℝ} (t0 : 0 ≤ t) (t1 : t ≤ 1) : r ≤ dist2D v (between2D s.1 s.2 t) := by
  obtain ⟨h1, h2⟩ := C61_distance e v r h
  have hsym : dist2D v (between2D s.1 s.2 t) = Real.sqrt (distSq2D (between2D s.1 s.2 t) v) := by
    unfold dist2D distSq2D
    congr 1
    ring
  rw [hsym]
  cases hc : contains2D e v
  · exact (h2 hc).1 s hs t t0 t1
  · rw [h1 hc]; exact Real.sqrt_nonneg _

theorem dist_convex {e : List Vec} {v p : Vec} {r : ℝ} (hcv : ConvexPolygon e) (h : edgeDistance2D e v = .ok r)
    (hp : ∀ s ∈ cycPairs e, 0 ≤ left s.1 s.2 p) : r ≤ dist2D v p := by
  cases hc : contains2D e v
  swap
  · rw [(C61_distance e v r h).1 hc]; exact Real.sqrt_nonneg _
  -- a side that v is not strictly inside of
  have h1 : ∃ s ∈ cycPairs e, left s.1 s.2 v ≤ 0 := by
    by_contra hn
    push Not at hn
    rw [C34_convex_inside e v hcv hn] at hc
    cases hc
  -- the last crossing
  obtain ⟨s, hs, t, t0, t1, hz, hall⟩ : ∃ s ∈ cycPairs e, ∃ t : ℝ, 0 ≤ t ∧ t ≤ 1 ∧
      left s.1 s.2 (between2D v p t) = 0 ∧ ∀ s ∈ cycPairs e, 0 ≤ left s.1 s.2 (between2D v p t) := by
    have lin : ∀ (s : Vec × Vec) (t : ℝ), left s.1 s.2 (between2D v p t) = (1 - t) * left s.1 s.2 v + t * left s.1 s.2 p := by
      intro s t
      unfold left between2D
      ring
    let T : Vec × Vec → ℝ := fun s => if left s.1 s.2 v ≤ 0 then left s.1 s.2 v / (left s.1 s.2 v - left s.1 s.2 p) else 0
    let C := (cycPairs e).filter fun s => decide (left s.1 s.2 v ≤ 0)
    have hC : C ≠ [] := by
      obtain ⟨s, hs, h1⟩ := h1
      exact List.ne_nil_of_mem (a := s) (List.mem_filter.mpr ⟨hs, decide_eq_true h1⟩)
    obtain ⟨s, hs, hmax⟩ : ∃ s ∈ C, ∀ s' ∈ C, T s' ≤ T s := by
      classical
      obtain ⟨s, hs, hm⟩ := Finset.exists_max_image C.toFinset T (List.toFinset_nonempty_iff C |>.mpr hC)
      exact ⟨s, List.mem_toFinset.mp hs, fun s' hs' => hm s' (List.mem_toFinset.mpr hs')⟩
    obtain ⟨hs1, hs2⟩ := List.mem_filter.mp hs
    rw [decide_eq_true_eq] at hs2
    have hT : ∀ s' ∈ cycPairs e, left s'.1 s'.2 v ≤ 0 → 0 ≤ T s' ∧ T s' ≤ 1 ∧
        ∀ t, T s' ≤ t → 0 ≤ (1 - t) * left s'.1 s'.2 v + t * left s'.1 s'.2 p := by
      intro s' hs' h2
      have h3 := hp s' hs'
      have hTe : T s' = left s'.1 s'.2 v / (left s'.1 s'.2 v - left s'.1 s'.2 p) := if_pos h2
      rw [hTe]
      by_cases hz : left s'.1 s'.2 v - left s'.1 s'.2 p = 0
      · have e1 : left s'.1 s'.2 v = 0 := by linarith
        have e2 : left s'.1 s'.2 p = 0 := by linarith
        rw [e1, e2]; simp
      have hlt : left s'.1 s'.2 v - left s'.1 s'.2 p < 0 := lt_of_le_of_ne (by linarith) hz
      refine ⟨div_nonneg_of_nonpos h2 hlt.le, ?_, ?_⟩
      · rw [div_le_one_of_neg hlt]; linarith
      · intro t ht
        rw [div_le_iff_of_neg hlt] at ht
        linarith
    obtain ⟨T0, T1, T2⟩ := hT s hs1 hs2
    refine ⟨s, hs1, T s, T0, T1, ?_, ?_⟩
    · rw [lin]
      have hTe : T s = left s.1 s.2 v / (left s.1 s.2 v - left s.1 s.2 p) := if_pos hs2
      by_cases hz : left s.1 s.2 v - left s.1 s.2 p = 0
      · have := hp s hs1
        have e1 : left s.1 s.2 v = 0 := by linarith
        have e2 : left s.1 s.2 p = 0 := by linarith
        rw [e1, e2]; ring
      · have := div_mul_cancel₀ (left s.1 s.2 v) hz
        rw [← hTe] at this
        linarith
    · intro s' hs'
      rw [lin]
      by_cases h2 : left s'.1 s'.2 v ≤ 0
      · exact (hT s' hs' h2).2.2 _ (hmax s' (List.mem_filter.mpr ⟨hs', decide_eq_true h2⟩))
      · have := hp s' hs'
        have h4 : 0 ≤ 1 - T s := by linarith
        push Not at h2
        positivity
  obtain ⟨u, u0, u1, hu⟩ := on_side hcv hall hs hz
  have h2 := dist_le_side h hs u0 u1
  rw [← hu] at h2
  refine h2.trans ?_
  unfold dist2D distSq2D
  apply Real.sqrt_le_sqrt
  simp only [Vec.xy, between2D]
  nlinarith [mul_nonneg (sub_nonneg.mpr (show t ^ 2 ≤ 1 by nlinarith)) (add_nonneg (sq_nonneg (v.x - p.x)) (sq_nonneg (v.y - p.y)))]

theorem Spec.InHull2D.left {vs : List Vec} {p a b : Vec} (h : InHull2D vs p) (hs : ∀ u ∈ vs, 0 ≤ Spec.left a b u) :
    0 ≤ Spec.left a b p := by
  have := h (b.y - a.y) (-(b.x - a.x)) ((b.y - a.y) * a.x - (b.x - a.x) * a.y) (by
    intro u hu
    have := hs u hu
    unfold Spec.left at this
    linarith)
  unfold Spec.left
  linarith

/-- **C61** The distance to a convex hull, as computed, is the smallest distance to a point of the convex hull (a point
inside has distance 0). -/
theorem C61_hull (vs : List Vec) (v : Vec) (r : ℝ) (h : edgeDistance2D (fromConvexHull2D vs) v = .ok r) :
    (∀ p, InHull2D vs p → r ≤ dist2D v p) ∧ ∃ p, InHull2D vs p ∧ r = dist2D v p := by
  by_cases hd : ∃ u ∈ vs, ∃ w ∈ vs, u.xy ≠ w.xy
  · obtain ⟨h2, hnd, hsub, hside⟩ := C31_convex_hull vs hd
    have hin : ∀ q ∈ fromConvexHull2D vs, InHull2D vs q := by
      intro q hq a b c hu
      obtain ⟨w, hw, rfl⟩ := hsub q hq
      exact hu w hw
    constructor
    · intro p hp
      by_cases h3 : 3 ≤ (fromConvexHull2D vs).length
      · exact dist_convex ⟨h3, hnd, fun s hs => (hside s hs).2⟩ h fun s hs => hp.left (hside s hs).1
      · -- a segment
        obtain ⟨a, b, hab⟩ := List.length_eq_two.mp (show (fromConvexHull2D vs).length = 2 by omega)
        have hseg := C31_flat_hull vs hd a b hab
        have hs : (a, b) ∈ cycPairs (fromConvexHull2D vs) := by rw [hab]; simp [cycPairs]
        have hs' : (b, a) ∈ cycPairs (fromConvexHull2D vs) := by rw [hab]; simp [cycPairs]
        have l1 := hp.left (hside _ hs).1
        have l2 := hp.left (hside _ hs').1
        dsimp only at l1 l2
        rw [left_swap] at l2
        have l0 : left a b p = 0 := by linarith
        have p1 := hp (b.x - a.x) (b.y - a.y) ((b.x - a.x) * b.x + (b.y - a.y) * b.y) (by
          intro u hu
          obtain ⟨t, t0, t1, ht⟩ := hseg u hu
          have hx := congrArg Vec.x ht
          have hy := congrArg Vec.y ht
          simp only [Vec.xy, between2D] at hx hy
          rw [hx, hy]
          nlinarith [mul_nonneg (sub_nonneg.mpr t1) (add_nonneg (sq_nonneg (b.x - a.x)) (sq_nonneg (b.y - a.y)))])
        have p0 := hp (-(b.x - a.x)) (-(b.y - a.y)) (-((b.x - a.x) * a.x + (b.y - a.y) * a.y)) (by
          intro u hu
          obtain ⟨t, t0, t1, ht⟩ := hseg u hu
          have hx := congrArg Vec.x ht
          have hy := congrArg Vec.y ht
          simp only [Vec.xy, between2D] at hx hy
          rw [hx, hy]
          nlinarith [mul_nonneg t0 (add_nonneg (sq_nonneg (b.x - a.x)) (sq_nonneg (b.y - a.y)))])
        have hza : a.z = 0 := by
          obtain ⟨w, -, e⟩ := hsub a (by rw [hab]; simp)
          rw [e]; rfl
        have hzb : b.z = 0 := by
          obtain ⟨w, -, e⟩ := hsub b (by rw [hab]; simp)
          rw [e]; rfl
        have hD : 0 < (b.x - a.x) ^ 2 + (b.y - a.y) ^ 2 := by
          by_contra hn
          have h1 : (b.x - a.x) ^ 2 = 0 := by nlinarith [sq_nonneg (b.x - a.x), sq_nonneg (b.y - a.y)]
          have h2 : (b.y - a.y) ^ 2 = 0 := by nlinarith [sq_nonneg (b.x - a.x), sq_nonneg (b.y - a.y)]
          have h1 := pow_eq_zero_iff (two_ne_zero) |>.mp h1
          have h2 := pow_eq_zero_iff (two_ne_zero) |>.mp h2
          have : a = b := vec_eq ⟨by linarith, by linarith⟩ hza hzb
          rw [hab, this] at hnd
          simp at hnd
        obtain ⟨t, ht⟩ : ∃ t : ℝ, t * ((b.x - a.x) ^ 2 + (b.y - a.y) ^ 2) =
            (p.x - a.x) * (b.x - a.x) + (p.y - a.y) * (b.y - a.y) := ⟨_, div_mul_cancel₀ _ hD.ne'⟩
        have hx : p.x = a.x + t * (b.x - a.x) := by
          have : (p.x - (a.x + t * (b.x - a.x))) * ((b.x - a.x) ^ 2 + (b.y - a.y) ^ 2) = 0 := by
            unfold left at l0
            linear_combination -(b.x - a.x) * ht - (b.y - a.y) * l0
          rcases mul_eq_zero.mp this with h1 | h1
          · linarith
          · exact absurd h1 hD.ne'
        have hy : p.y = a.y + t * (b.y - a.y) := by
          have : (p.y - (a.y + t * (b.y - a.y))) * ((b.x - a.x) ^ 2 + (b.y - a.y) ^ 2) = 0 := by
            unfold left at l0
            linear_combination -(b.y - a.y) * ht + (b.x - a.x) * l0
          rcases mul_eq_zero.mp this with h1 | h1
          · linarith
          · exact absurd h1 hD.ne'
        have t0 : 0 ≤ t := by
          refine nonneg_of_mul_nonneg_left (b := (b.x - a.x) ^ 2 + (b.y - a.y) ^ 2) ?_ hD
          rw [ht]; linarith
        have t1 : t ≤ 1 := by
          have : 0 ≤ (1 - t) * ((b.x - a.x) ^ 2 + (b.y - a.y) ^ 2) := by
            rw [sub_mul, ht]; nlinarith
          linarith [nonneg_of_mul_nonneg_left this hD]
        have := dist_le_side h hs t0 t1
        unfold dist2D distSq2D at this ⊢
        simp only [between2D] at this
        rw [hx, hy]
        exact this
    · obtain ⟨c1, c2⟩ := C61_distance _ _ _ h
      cases hc : contains2D (fromConvexHull2D vs) v
      · obtain ⟨-, s, hs, t, t0, t1, hr⟩ := c2 hc
        obtain ⟨m1, m2⟩ := mem_cycPairs hs
        refine ⟨between2D s.1 s.2 t, ?_, ?_⟩
        · intro a b c hu
          have q1 := hin _ m1 a b c hu
          have q2 := hin _ m2 a b c hu
          simp only [between2D]
          nlinarith [mul_nonneg t0 (sub_nonneg.mpr q2), mul_nonneg (sub_nonneg.mpr t1) (sub_nonneg.mpr q1)]
        · rw [hr]
          unfold dist2D distSq2D
          congr 1
          ring
      · refine ⟨v, ?_, ?_⟩
        · intro a b c hu
          by_contra hn
          push Not at hn
          rw [sep_not_contains a b (fun u hu' => lt_of_le_of_lt (hin u hu' a b c hu) hn)] at hc
          cases hc
        · rw [c1 hc]
          unfold dist2D distSq2D
          simp
  · push Not at hd
    cases vs with
    | nil =>
      rw [C31_coincident [] 0 (by simp)] at h
      simp [edgeDistance2D, contains2D, toSegments] at h
    | cons u us =>
      have hall : ∀ w ∈ u :: us, w.xy = u.xy := fun w hw => (hd u (by simp) w hw).symm
      rw [C31_coincident _ _ hall] at h
      split_ifs at h with hl
      · simp [edgeDistance2D, contains2D, toSegments] at h
      · have hp : ∀ p, InHull2D (u :: us) p ↔ p.x = u.x ∧ p.y = u.y := by
          intro p
          have hx : ∀ w ∈ u :: us, w.x = u.x := fun w hw => (Vec.mk.inj (hall w hw)).1
          have hy : ∀ w ∈ u :: us, w.y = u.y := fun w hw => (Vec.mk.inj (hall w hw)).2.1
          constructor
          · intro h
            have h1 := h 1 0 u.x (by intro w hw; rw [hx w hw]; linarith)
            have h2 := h (-1) 0 (-u.x) (by intro w hw; rw [hx w hw]; linarith)
            have h3 := h 0 1 u.y (by intro w hw; rw [hy w hw]; linarith)
            have h4 := h 0 (-1) (-u.y) (by intro w hw; rw [hy w hw]; linarith)
            constructor <;> linarith
          · rintro ⟨h1, h2⟩ a b c hu
            rw [h1, h2]
            exact hu u (by simp)
        obtain ⟨c1, c2⟩ := C61_distance _ _ _ h
        have hc : contains2D [u.xy, u.xy] v = false := by
          apply par_inj
          rw [contains_par]
          simp [cycPairs, crossesRay_self, par]
        obtain ⟨-, s, hs, t, t0, t1, hr⟩ := c2 hc
        have hs' : s = (u.xy, u.xy) := by simpa [cycPairs] using hs
        have hr' : r = dist2D v u := by
          rw [hr, hs']
          unfold dist2D distSq2D between2D
          congr 1
          simp only [Vec.xy]
          ring
        refine ⟨?_, u, (hp u).mpr ⟨rfl, rfl⟩, hr'⟩
        intro p hpp
        obtain ⟨h1, h2⟩ := (hp p).mp hpp
        rw [hr']
        unfold dist2D distSq2D
        rw [h1, h2]

end Chrumm.Geo
