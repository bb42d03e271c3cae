import Verif.Props.HullDist
import Verif.Spec.Hex

/-! C34: the inside of a polygon does not change along a path that does not meet the polygon. -/

namespace Chrumm.Geo
open Spec Classical

theorem meet_swap {p q a b : Vec} (h : Meet p q a b) : Meet q p a b := by
  obtain ⟨s, t, h1, h2, h3, h4, e⟩ := h
  refine ⟨1 - s, t, by linarith, by linarith, h3, h4, ?_⟩
  rw [← e]
  ext <;> simp only [between2D] <;> ring

theorem meet_swap' {p q a b : Vec} (h : Meet p q a b) : Meet p q b a := by
  obtain ⟨s, t, h1, h2, h3, h4, e⟩ := h
  refine ⟨s, 1 - t, h1, h2, by linarith, by linarith, ?_⟩
  rw [e]
  ext <;> simp only [between2D] <;> ring

/-- Two points of a segment at heights between `p` and `q` are at the same side of `pq`, if the segment does not meet `pq`. -/
theorem strip_side {p q a b : Vec} (hpq : p.y < q.y) (hn : ¬ Meet p q a b) {s t : ℝ} (hs0 : 0 ≤ s) (hs1 : s ≤ 1) (ht0 : 0 ≤ t)
    (ht1 : t ≤ 1) (hs : p.y ≤ (between2D a b s).y ∧ (between2D a b s).y ≤ q.y)
    (ht : p.y ≤ (between2D a b t).y ∧ (between2D a b t).y ≤ q.y)
    (h1 : left p q (between2D a b s) < 0) : left p q (between2D a b t) < 0 := by
  by_contra h2
  push Not at h2
  obtain ⟨f, hf⟩ : ∃ f, f = left p q (between2D a b s) := ⟨_, rfl⟩
  obtain ⟨g, hg⟩ : ∃ g, g = left p q (between2D a b t) := ⟨_, rfl⟩
  rw [← hf] at h1
  rw [← hg] at h2
  have hd : 0 < g - f := by linarith
  -- the parameter of the common point
  obtain ⟨k, hk⟩ : ∃ k, k = -f / (g - f) := ⟨_, rfl⟩
  have k0 : 0 ≤ k := by rw [hk]; exact div_nonneg (by linarith) hd.le
  have k1 : k ≤ 1 := by rw [hk, div_le_one hd]; linarith
  have kf : f + k * (g - f) = 0 := by rw [hk, div_mul_cancel₀ _ hd.ne']; ring
  obtain ⟨r, hr⟩ : ∃ r, r = s + k * (t - s) := ⟨_, rfl⟩
  have r0 : 0 ≤ r := by
    have : r = (1 - k) * s + k * t := by rw [hr]; ring
    rw [this]
    exact add_nonneg (mul_nonneg (by linarith) hs0) (mul_nonneg k0 ht0)
  have r1 : r ≤ 1 := by
    have : r = 1 - ((1 - k) * (1 - s) + k * (1 - t)) := by rw [hr]; ring
    have h3 := mul_nonneg (sub_nonneg.mpr k1) (sub_nonneg.mpr hs1)
    have h4 := mul_nonneg k0 (sub_nonneg.mpr ht1)
    linarith
  have hl : left p q (between2D a b r) = 0 := by
    have : left p q (between2D a b r) = f + k * (g - f) := by
      rw [hf, hg, hr]; simp only [left, between2D]; ring
    rw [this, kf]
  have hy : (between2D a b r).y = (1 - k) * (between2D a b s).y + k * (between2D a b t).y := by
    rw [hr]; simp only [between2D]; ring
  have y0 : p.y ≤ (between2D a b r).y := by
    have h3 := mul_le_mul_of_nonneg_left hs.1 (sub_nonneg.mpr k1)
    have h4 := mul_le_mul_of_nonneg_left ht.1 k0
    rw [hy]; linarith
  have y1 : (between2D a b r).y ≤ q.y := by
    have h3 := mul_le_mul_of_nonneg_left hs.2 (sub_nonneg.mpr k1)
    have h4 := mul_le_mul_of_nonneg_left ht.2 k0
    rw [hy]; linarith
  apply hn
  have hD : 0 < q.y - p.y := by linarith
  refine ⟨((between2D a b r).y - p.y) / (q.y - p.y), r, div_nonneg (by linarith) hD.le, (div_le_one hD).mpr (by linarith), r0, r1, ?_⟩
  have hw : left p q (between2D a b r) = (q.x - p.x) * ((between2D a b r).y - p.y) - (q.y - p.y) * ((between2D a b r).x - p.x) := rfl
  rw [hl] at hw
  ext
  · show p.x + ((between2D a b r).y - p.y) / (q.y - p.y) * (q.x - p.x) = (between2D a b r).x
    rw [div_mul_eq_mul_div, ← eq_sub_iff_add_eq', div_eq_iff hD.ne']
    linarith
  · show p.y + ((between2D a b r).y - p.y) / (q.y - p.y) * (q.y - p.y) = (between2D a b r).y
    rw [div_mul_cancel₀ _ hD.ne']; ring
  · rfl

/-- Where a segment that leads upwards crosses a height. -/
theorem at_height {a b v : Vec} (h1 : a.y ≤ v.y) (h2 : v.y < b.y) :
    ∃ t : ℝ, 0 ≤ t ∧ t ≤ 1 ∧ (between2D a b t).y = v.y ∧ left a b v = (b.y - a.y) * ((between2D a b t).x - v.x) := by
  have hd : 0 < b.y - a.y := by linarith
  refine ⟨(v.y - a.y) / (b.y - a.y), div_nonneg (by linarith) hd.le, (div_le_one hd).mpr (by linarith), ?_, ?_⟩
  · show a.y + (v.y - a.y) / (b.y - a.y) * (b.y - a.y) = v.y
    rw [div_mul_cancel₀ _ hd.ne']; ring
  · show left a b v = (b.y - a.y) * (a.x + (v.y - a.y) / (b.y - a.y) * (b.x - a.x) - v.x)
    have : (b.y - a.y) * (a.x + (v.y - a.y) / (b.y - a.y) * (b.x - a.x) - v.x) =
      (v.y - a.y) / (b.y - a.y) * (b.y - a.y) * (b.x - a.x) + (b.y - a.y) * (a.x - v.x) := by ring
    rw [this, div_mul_cancel₀ _ hd.ne']
    unfold left; ring

/-- The region right of `pq`, between the rays. -/
noncomputable def rightOf (p q v : Vec) : Bool := decide (p.y < v.y ∧ v.y ≤ q.y ∧ left p q v < 0)

theorem crosses_up {v a b : Vec} (hab : a.y ≤ b.y) : crossesRay v a b = decide (a.y ≤ v.y ∧ v.y < b.y ∧ 0 < left a b v) := by
  rw [Bool.eq_iff_iff, crossesRay_iff, decide_eq_true_eq]
  constructor
  · rintro (h | ⟨h1, h2, -⟩)
    · exact h
    · linarith
  · exact .inl

theorem cross_change_up {p q a b : Vec} (hpq : p.y < q.y) (hab : a.y ≤ b.y) (hn : ¬ Meet p q a b) :
    par (crossesRay p a b) + par (crossesRay q a b) = par (rightOf p q b) + par (rightOf p q a) := by
  rw [crosses_up hab, crosses_up hab]
  unfold rightOf
  have b0 : between2D a b 0 = ⟨a.x, a.y, 0⟩ := by ext <;> simp [between2D]
  have b1 : between2D a b 1 = ⟨b.x, b.y, 0⟩ := by ext <;> simp [between2D]
  have side : ∀ {s t : ℝ}, 0 ≤ s → s ≤ 1 → 0 ≤ t → t ≤ 1 → p.y ≤ (between2D a b s).y → (between2D a b s).y ≤ q.y →
      p.y ≤ (between2D a b t).y → (between2D a b t).y ≤ q.y →
      (left p q (between2D a b s) < 0 ↔ left p q (between2D a b t) < 0) := by
    intro s t s0 s1 t0 t1 h1 h2 h3 h4
    exact ⟨strip_side hpq hn s0 s1 t0 t1 ⟨h1, h2⟩ ⟨h3, h4⟩, strip_side hpq hn t0 t1 s0 s1 ⟨h3, h4⟩ ⟨h1, h2⟩⟩
  have la : left p q (between2D a b 0) = left p q a := by rw [b0]; rfl
  have lb : left p q (between2D a b 1) = left p q b := by rw [b1]; rfl
  have ya : (between2D a b 0).y = a.y := by rw [b0]
  have yb : (between2D a b 1).y = b.y := by rw [b1]
  have flip : ∀ {t : ℝ} {v : Vec}, (v = p ∨ v = q) → a.y < b.y → (between2D a b t).y = v.y →
      left a b v = (b.y - a.y) * ((between2D a b t).x - v.x) → (0 < left a b v ↔ left p q (between2D a b t) < 0) := by
    intro t v hv hd ht e
    have e2 : left p q (between2D a b t) = -((q.y - p.y) * ((between2D a b t).x - v.x)) := by
      rcases hv with rfl | rfl
      · unfold left; rw [ht]; ring
      · unfold left; rw [ht]; ring
    rw [e, e2, neg_neg_iff_pos, mul_pos_iff_of_pos_left (by linarith), mul_pos_iff_of_pos_left (by linarith)]
  rcases le_or_gt b.y p.y with h1 | h1
  · have : ∀ (r : Prop) [Decidable r], par (decide r) = if r then (1 : ZMod 2) else 0 := fun r _ => by unfold par; simp
    rw [this, this, this, this, if_neg (by rintro ⟨_, _, _⟩; linarith), if_neg (by rintro ⟨_, _, _⟩; linarith),
      if_neg (by rintro ⟨_, _, _⟩; linarith), if_neg (by rintro ⟨_, _, _⟩; linarith)]
  rcases lt_or_ge q.y a.y with h2 | h2
  · have : ∀ (r : Prop) [Decidable r], par (decide r) = if r then (1 : ZMod 2) else 0 := fun r _ => by unfold par; simp
    rw [this, this, this, this, if_neg (by rintro ⟨_, _, _⟩; linarith), if_neg (by rintro ⟨_, _, _⟩; linarith),
      if_neg (by rintro ⟨_, _, _⟩; linarith), if_neg (by rintro ⟨_, _, _⟩; linarith)]
  have z : ∀ {r : Prop} [Decidable r], ¬ r → par (decide r) = 0 := fun h => by simp [par, h]
  have eq : ∀ {r s : Prop} [Decidable r] [Decidable s], (r ↔ s) → par (decide r) = par (decide s) := fun h => by simp [h]
  rcases le_or_gt a.y p.y with h3 | h3
  · -- the ray from p is at the height of the segment
    obtain ⟨t, t0, t1, ht, et⟩ := at_height h3 h1
    have fp := flip (.inl rfl) (by linarith) ht et
    rw [z (r := p.y < a.y ∧ a.y ≤ q.y ∧ left p q a < 0) (by rintro ⟨_, _, _⟩; linarith), add_zero]
    rcases le_or_gt b.y q.y with h4 | h4
    · rw [z (r := a.y ≤ q.y ∧ q.y < b.y ∧ 0 < left a b q) (by rintro ⟨_, _, _⟩; linarith), add_zero]
      apply eq
      have := side t0 t1 zero_le_one le_rfl (by rw [ht]) (by rw [ht]; linarith) (by rw [yb]; linarith) (by rw [yb]; exact h4)
      rw [lb] at this
      constructor
      · rintro ⟨_, _, h⟩; exact ⟨h1, h4, this.mp (fp.mp h)⟩
      · rintro ⟨_, _, h⟩; exact ⟨h3, h1, fp.mpr (this.mpr h)⟩
    · rw [z (r := p.y < b.y ∧ b.y ≤ q.y ∧ left p q b < 0) (by rintro ⟨_, _, _⟩; linarith)]
      obtain ⟨u, u0, u1, hu, eu⟩ := at_height (by linarith : a.y ≤ q.y) h4
      have fq := flip (.inr rfl) (by linarith) hu eu
      have := side t0 t1 u0 u1 (by rw [ht]) (by rw [ht]; linarith) (by rw [hu]; linarith) (by rw [hu])
      have e : par (decide (a.y ≤ p.y ∧ p.y < b.y ∧ 0 < left a b p)) = par (decide (a.y ≤ q.y ∧ q.y < b.y ∧ 0 < left a b q)) := by
        apply eq
        constructor
        · rintro ⟨_, _, h⟩; exact ⟨h2, h4, fq.mpr (this.mp (fp.mp h))⟩
        · rintro ⟨_, _, h⟩; exact ⟨h3, h1, fp.mpr (this.mpr (fq.mp h))⟩
      rw [e]
      exact CharTwo.add_self_eq_zero _
  · rw [z (r := a.y ≤ p.y ∧ p.y < b.y ∧ 0 < left a b p) (by rintro ⟨_, _, _⟩; linarith), zero_add]
    rcases le_or_gt b.y q.y with h4 | h4
    · rw [z (r := a.y ≤ q.y ∧ q.y < b.y ∧ 0 < left a b q) (by rintro ⟨_, _, _⟩; linarith)]
      have := side le_rfl zero_le_one zero_le_one le_rfl (by rw [ya]; linarith) (by rw [ya]; linarith) (by rw [yb]; linarith) (by rw [yb]; exact h4)
      rw [la, lb] at this
      have e : par (decide (p.y < a.y ∧ a.y ≤ q.y ∧ left p q a < 0)) = par (decide (p.y < b.y ∧ b.y ≤ q.y ∧ left p q b < 0)) := by
        apply eq
        constructor
        · rintro ⟨_, _, h⟩; exact ⟨h1, h4, this.mp h⟩
        · rintro ⟨_, _, h⟩; exact ⟨h3, h2, this.mpr h⟩
      rw [e]
      exact (CharTwo.add_self_eq_zero _).symm
    · rw [z (r := p.y < b.y ∧ b.y ≤ q.y ∧ left p q b < 0) (by rintro ⟨_, _, _⟩; linarith), zero_add]
      obtain ⟨u, u0, u1, hu, eu⟩ := at_height h2 h4
      have fq := flip (.inr rfl) (by linarith) hu eu
      have := side le_rfl zero_le_one u0 u1 (by rw [ya]; linarith) (by rw [ya]; linarith) (by rw [hu]; linarith) (by rw [hu])
      rw [la] at this
      apply eq
      constructor
      · rintro ⟨_, _, h⟩; exact ⟨h3, h2, this.mpr (fq.mp h)⟩
      · rintro ⟨_, _, h⟩; exact ⟨h2, h4, fq.mpr (this.mp h)⟩

theorem cross_change {p q a b : Vec} (hpq : p.y < q.y) (hn : ¬ Meet p q a b) :
    par (crossesRay p a b) + par (crossesRay q a b) = par (rightOf p q b) - par (rightOf p q a) := by
  rw [CharTwo.sub_eq_add]
  rcases le_total a.y b.y with h | h
  · exact cross_change_up hpq h hn
  · rw [crossesRay_swap p, crossesRay_swap q, cross_change_up hpq h fun hm => hn (meet_swap' hm), add_comm]

/-- At the same height. -/
theorem cross_level {p q a b : Vec} (hpq : p.y = q.y) (hn : ¬ Meet p q a b) (h : crossesRay p a b = true) : crossesRay q a b = true := by
  have up : ∀ {a b : Vec}, ¬ Meet p q a b → (a.y ≤ p.y ∧ p.y < b.y ∧ 0 < left a b p) → (a.y ≤ q.y ∧ q.y < b.y ∧ 0 < left a b q) := by
    rintro a b hn ⟨h1, h2, h3⟩
    refine ⟨by linarith, by linarith, ?_⟩
    by_contra h4
    push Not at h4
    apply hn
    obtain ⟨t, t0, t1, ht, et⟩ := at_height h1 h2
    have hd : 0 < b.y - a.y := by linarith
    have eq2 : left a b q = (b.y - a.y) * ((between2D a b t).x - q.x) := by
      have : left a b q = left a b p - (b.y - a.y) * (q.x - p.x) := by unfold left; rw [hpq]; ring
      rw [this, et]; ring
    rw [et, mul_pos_iff_of_pos_left hd] at h3
    rw [eq2] at h4
    have h5 : (between2D a b t).x - q.x ≤ 0 := by
      by_contra h6
      push Not at h6
      linarith [mul_pos hd h6]
    have hx : 0 < q.x - p.x := by linarith
    refine ⟨((between2D a b t).x - p.x) / (q.x - p.x), t, div_nonneg h3.le hx.le, (div_le_one hx).mpr (by linarith), t0, t1, ?_⟩
    ext
    · show p.x + ((between2D a b t).x - p.x) / (q.x - p.x) * (q.x - p.x) = (between2D a b t).x
      rw [div_mul_cancel₀ _ hx.ne']; ring
    · show p.y + _ * (q.y - p.y) = (between2D a b t).y
      rw [ht, hpq]; ring
    · rfl
  rcases le_total a.y b.y with hab | hab
  · rw [crosses_up hab, decide_eq_true_eq] at h ⊢
    exact up hn h
  · rw [crossesRay_swap, crosses_up hab, decide_eq_true_eq] at h ⊢
    exact up (fun hm => hn (meet_swap' hm)) h

theorem esum_eq_of {es : List (Vec × Vec)} {f g : Vec → Vec → ZMod 2} (h : ∀ s ∈ es, f s.1 s.2 = g s.1 s.2) : esum f es = esum g es := by
  induction es with
  | nil => rfl
  | cons s es ih =>
    rw [esum_cons, esum_cons, h s (List.mem_cons_self ..), ih fun x hx => h x (List.mem_cons_of_mem _ hx)]

/-- **C34** The even-odd rule is constant along any segment that does not meet the polygon. So two points that can be joined by a
path away from the polygon are both inside or both outside. -/
theorem C34_path {e : List Vec} {p q : Vec} (h : ∀ s ∈ cycPairs e, ¬ Meet p q s.1 s.2) : contains2D e p = contains2D e q := by
  apply par_inj
  have main : ∀ {p q : Vec}, (∀ s ∈ cycPairs e, ¬ Meet p q s.1 s.2) → p.y < q.y → par (contains2D e p) = par (contains2D e q) := by
    intro p q h hpq
    have h1 : par (contains2D e p) + par (contains2D e q) = 0 := by
      rw [contains_par, contains_par]
      have e1 : ∀ (f g : Vec → Vec → ZMod 2) (es : List (Vec × Vec)), esum f es + esum g es = esum (fun a b => f a b + g a b) es := by
        intro f g es
        induction es with
        | nil => simp
        | cons s es ih => rw [esum_cons, esum_cons, esum_cons, ← ih]; ring
      rw [e1, esum_eq_of (g := fun a b => par (rightOf p q b) - par (rightOf p q a)) fun s hs => cross_change hpq (h s hs)]
      exact esum_telescope (fun v => par (rightOf p q v)) e
    exact CharTwo.add_eq_zero.mp h1
  rcases lt_trichotomy p.y q.y with hpq | hpq | hpq
  · exact main h hpq
  · rw [contains_par, contains_par]
    refine esum_eq_of fun s hs => ?_
    congr 1
    rw [Bool.eq_iff_iff]
    exact ⟨cross_level hpq (h s hs), cross_level hpq.symm fun hm => h s hs (meet_swap hm)⟩
  · exact (main (fun s hs hm => h s hs (meet_swap hm)) hpq).symm

/-- Around a notch of an L-shaped polygon: two segments lead from one leg to the other. -/
example : let e : List Vec := [⟨0, 0, 0⟩, ⟨4, 0, 0⟩, ⟨4, 1, 0⟩, ⟨1, 1, 0⟩, ⟨1, 4, 0⟩, ⟨0, 4, 0⟩]
    (∀ s ∈ cycPairs e, ¬ Meet ⟨3, 1 / 2, 0⟩ ⟨1 / 2, 1 / 2, 0⟩ s.1 s.2) ∧ (∀ s ∈ cycPairs e, ¬ Meet ⟨1 / 2, 1 / 2, 0⟩ ⟨1 / 2, 3, 0⟩ s.1 s.2) := by
  constructor <;>
  · intro s hs
    simp [cycPairs] at hs
    rcases hs with rfl | rfl | rfl | rfl | rfl | rfl <;> rintro ⟨s, t, h1, h2, h3, h4, e⟩ <;>
      · have ex := congrArg Vec.x e
        have ey := congrArg Vec.y e
        simp only [between2D] at ex ey
        linarith

end Chrumm.Geo
