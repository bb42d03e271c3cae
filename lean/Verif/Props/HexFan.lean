import Verif.Props.Connected

/-! The geometry behind C86: a polygon that meets neither the spokes of a fan nor has corners in it does not meet the fan. -/

namespace Chrumm.Part
open Geo Geo.Spec

/-- Walking along a segment, away from the far side of a triangle: coordinates relative to the corner `c`, in the basis of the two
other corners. `A`, `B` are the coordinates at the start, and `A'`, `B'` at the end of the walk. -/
theorem walk_out {A B A' B' f : ℝ} (hA : 0 < A) (hB : 0 ≤ B) (hAB : A + B < f) (hdec : A' + B' ≤ A + B)
    (hmove : A' ≠ A ∨ B' ≠ B)
    -- the end is not in the triangle
    (hend : 0 < A' → 0 < B' → False) (hend' : B = 0 → B' = 0 → 0 < A' → False)
    -- no spoke is crossed near the corner
    (hu : ∀ τ σ : ℝ, 0 ≤ τ → τ ≤ 1 → A + τ * (A' - A) = σ → B + τ * (B' - B) = 0 → 0 ≤ σ → σ < f → B' ≠ B → False)
    (hv : ∀ τ σ : ℝ, 0 ≤ τ → τ ≤ 1 → A + τ * (A' - A) = 0 → B + τ * (B' - B) = σ → 0 ≤ σ → σ < f → A' ≠ A → False) : False := by
  have f0 : 0 < f := by linarith
  rcases eq_or_lt_of_le hB with hB0 | hB0
  · -- on a spoke
    subst hB0
    by_cases hb : B' = 0
    · subst hb
      have ha : A' ≠ A := hmove.resolve_right fun h => h rfl
      rcases lt_or_ge 0 A' with h | h
      · exact hend' rfl rfl h
      · have hd : 0 < A - A' := by linarith
        refine hv (A / (A - A')) 0 (div_nonneg hA.le hd.le) ((div_le_one hd).mpr (by linarith)) ?_ (by ring) le_rfl f0 ha
        field_simp
        ring
    · exact hu 0 A le_rfl zero_le_one (by ring) (by ring) hA.le (by linarith) hb
  · by_cases h1 : B' ≤ 0 ∧ 0 ≤ B * A' - A * B'
    · have hd : 0 < B - B' := by linarith [h1.1]
      have t0 : 0 ≤ B / (B - B') := div_nonneg hB hd.le
      have t1 : B / (B - B') ≤ 1 := (div_le_one hd).mpr (by linarith [h1.1])
      have e1 : A + B / (B - B') * (A' - A) = (B * A' - A * B') / (B - B') := by field_simp; ring
      have e2 : B + B / (B - B') * (B' - B) = 0 := by field_simp; ring
      refine hu (B / (B - B')) _ t0 t1 e1 e2 (div_nonneg h1.2 hd.le) ?_ (by linarith)
      have h4 := mul_nonneg t0 (by linarith : 0 ≤ A + B - (A' + B'))
      have : A + B / (B - B') * (A' - A) ≤ A + B := by linarith
      linarith
    · have hA' : A' ≤ 0 := by
        by_contra h
        push Not at h
        rcases lt_or_ge 0 B' with h2 | h2
        · exact hend h h2
        · apply h1
          exact ⟨h2, by nlinarith [mul_pos hB0 h]⟩
      have h3 : 0 ≤ A * B' - B * A' := by
        rcases lt_or_ge 0 B' with h2 | h2
        · nlinarith [mul_pos hA h2]
        · by_contra h4
          push Not at h4
          exact h1 ⟨h2, by linarith⟩
      have hd : 0 < A - A' := by linarith
      have t0 : 0 ≤ A / (A - A') := div_nonneg hA.le hd.le
      have t1 : A / (A - A') ≤ 1 := (div_le_one hd).mpr (by linarith)
      have e1 : A + A / (A - A') * (A' - A) = 0 := by field_simp; ring
      have e2 : B + A / (A - A') * (B' - B) = (A * B' - B * A') / (A - A') := by field_simp; ring
      refine hv (A / (A - A')) _ t0 t1 e1 e2 (div_nonneg h3 hd.le) ?_ (by linarith)
      have h4 := mul_nonneg t0 (by linarith : 0 ≤ A + B - (A' + B'))
      have : B + A / (A - A') * (B' - B) ≤ A + B := by linarith
      linarith

/-- The cross product. -/
def cr (u v : Vec) : ℝ := u.x * v.y - u.y * v.x

/-- `p` is at `c + A u + B v`. -/
def At (c u v : Vec) (A B : ℝ) (p : Vec) : Prop := p.x = c.x + A * u.x + B * v.x ∧ p.y = c.y + A * u.y + B * v.y

theorem at_coords {c u v : Vec} (h : cr u v ≠ 0) (p : Vec) : At c u v (cr (p - c) v / cr u v) (cr u (p - c) / cr u v) p := by
  unfold At
  constructor
  · field_simp
    simp only [cr, Vec.sub_x, Vec.sub_y]; ring
  · field_simp
    simp only [cr, Vec.sub_x, Vec.sub_y]; ring

theorem At.between {c u v a b : Vec} {A B A' B' : ℝ} (ha : At c u v A B a) (hb : At c u v A' B' b) (t : ℝ) :
    At c u v (A + t * (A' - A)) (B + t * (B' - B)) (between2D a b t) := by
  obtain ⟨h1, h2⟩ := ha
  obtain ⟨h3, h4⟩ := hb
  simp only [At, between2D, h1, h2, h3, h4]
  constructor <;> ring

/-- A segment with a point in a triangle with the corner `c` has an end in it, or crosses one of the sides at `c`. -/
theorem fan_out {c u v a b : Vec} {f s A B : ℝ} (hcr : cr u v ≠ 0) (hab : a.xy ≠ b.xy) (s0 : 0 ≤ s) (s1 : s ≤ 1)
    (hy : At c u v A B (between2D a b s)) (hA : 0 < A) (hB : 0 ≤ B) (hAB : A + B < f)
    (hend : ∀ e : Vec, e = a ∨ e = b → ∀ A' B' : ℝ, At c u v A' B' e → 0 < A' → 0 ≤ B' → (B' = 0 → B = 0) → A' + B' < f → False)
    (hu : ∀ t σ : ℝ, 0 ≤ t → t ≤ 1 → At c u v σ 0 (between2D a b t) → 0 ≤ σ → σ < f → cr u (b - a) ≠ 0 → False)
    (hv : ∀ t σ : ℝ, 0 ≤ t → t ≤ 1 → At c u v 0 σ (between2D a b t) → 0 ≤ σ → σ < f → cr v (b - a) ≠ 0 → False) : False := by
  -- towards one end, one of the coordinates gets smaller
  have main : ∀ (a b : Vec) (s : ℝ), a.xy ≠ b.xy → 0 ≤ s → s ≤ 1 → At c u v A B (between2D a b s) →
      (∀ e : Vec, e = b → ∀ A' B' : ℝ, At c u v A' B' e → 0 < A' → 0 ≤ B' → (B' = 0 → B = 0) → A' + B' < f → False) →
      (∀ t σ : ℝ, 0 ≤ t → t ≤ 1 → At c u v σ 0 (between2D a b t) → 0 ≤ σ → σ < f → cr u (b - a) ≠ 0 → False) →
      (∀ t σ : ℝ, 0 ≤ t → t ≤ 1 → At c u v 0 σ (between2D a b t) → 0 ≤ σ → σ < f → cr v (b - a) ≠ 0 → False) →
      (cr (b - a) v + cr u (b - a)) / cr u v ≤ 0 → False := by
    clear hab s0 s1 hy hend hu hv
    intro a b s hab s0 s1 hy hend hu hv hdir
    -- the coordinates of the end
    obtain ⟨P, hP⟩ : ∃ P, P = cr (b - a) v / cr u v := ⟨_, rfl⟩
    obtain ⟨Q, hQ⟩ : ∃ Q, Q = cr u (b - a) / cr u v := ⟨_, rfl⟩
    have hPQ : P + Q ≤ 0 := by rw [hP, hQ, ← add_div]; exact hdir
    have hd := at_coords (c := 0) hcr (b - a)
    simp only [At, Vec.zero_x, Vec.zero_y, zero_add, Vec.sub_x, Vec.sub_y] at hd
    have e0 : (b - a - 0 : Vec) = b - a := by ext <;> simp
    rw [e0, ← hP, ← hQ] at hd
    have hpt : ∀ t : ℝ, At c u v (A + (t - s) * P) (B + (t - s) * Q) (between2D a b t) := by
      intro t
      obtain ⟨h1, h2⟩ := hy
      simp only [between2D] at h1 h2
      simp only [At, between2D]
      constructor
      · linear_combination h1 + (t - s) * hd.1
      · linear_combination h2 + (t - s) * hd.2
    have hb : At c u v (A + (1 - s) * P) (B + (1 - s) * Q) b := by
      obtain ⟨h1, h2⟩ := hpt 1
      simp only [between2D] at h1 h2
      exact ⟨by linarith, by linarith⟩
    have hQ0 : Q ≠ 0 → cr u (b - a) ≠ 0 := fun h h0 => h (by rw [hQ, h0, zero_div])
    have hP0 : P ≠ 0 → cr v (b - a) ≠ 0 := by
      intro h h0
      apply h
      have : cr (b - a) v = 0 := by
        have : cr (b - a) v = -cr v (b - a) := by unfold cr; ring
        rw [this, h0, neg_zero]
      rw [hP, this, zero_div]
    have hdec : A + (1 - s) * P + (B + (1 - s) * Q) ≤ A + B := by
      nlinarith [mul_nonneg (by linarith : 0 ≤ 1 - s) (by linarith : 0 ≤ -(P + Q))]
    by_cases hs : s = 1
    · subst hs
      refine hend b rfl A B ?_ hA hB id hAB
      simpa using hb
    have hs' : 0 < 1 - s := by
      rcases lt_or_eq_of_le s1 with h | h
      · linarith
      · exact absurd h hs
    refine walk_out (A := A) (B := B) (A' := A + (1 - s) * P) (B' := B + (1 - s) * Q) (f := f) hA hB hAB hdec ?_ ?_ ?_ ?_ ?_
    · by_contra hcon
      push Not at hcon
      have p0 : P = 0 := by
        have : (1 - s) * P = 0 := by linarith [hcon.1]
        exact (mul_eq_zero.mp this).resolve_left hs'.ne'
      have q0 : Q = 0 := by
        have : (1 - s) * Q = 0 := by linarith [hcon.2]
        exact (mul_eq_zero.mp this).resolve_left hs'.ne'
      apply hab
      rw [p0, q0] at hd
      ext
      · simp only [Vec.xy]; linarith [hd.1]
      · simp only [Vec.xy]; linarith [hd.2]
      · rfl
    · intro h1 h2
      exact hend b rfl _ _ hb h1 h2.le (fun h => absurd h h2.ne') (by linarith)
    · intro h1 h2 h3
      exact hend b rfl _ _ hb h3 h2.ge (fun _ => h1) (by linarith)
    · intro τ σ t0 t1 e1 e2 σ0 σ1 hne
      refine hu (s + τ * (1 - s)) σ (by nlinarith [mul_nonneg t0 hs'.le]) (by nlinarith) ?_ σ0 σ1 (hQ0 ?_)
      · have := hpt (s + τ * (1 - s))
        rw [show A + (s + τ * (1 - s) - s) * P = σ by linarith, show B + (s + τ * (1 - s) - s) * Q = 0 by linarith] at this
        exact this
      · rintro rfl
        apply hne; ring
    · intro τ σ t0 t1 e1 e2 σ0 σ1 hne
      refine hv (s + τ * (1 - s)) σ (by nlinarith [mul_nonneg t0 hs'.le]) (by nlinarith) ?_ σ0 σ1 (hP0 ?_)
      · have := hpt (s + τ * (1 - s))
        rw [show A + (s + τ * (1 - s) - s) * P = 0 by linarith, show B + (s + τ * (1 - s) - s) * Q = σ by linarith] at this
        exact this
      · rintro rfl
        apply hne; ring
  have swap : ∀ t : ℝ, between2D b a (1 - t) = between2D a b t := by
    intro t; ext <;> simp only [between2D] <;> ring
  rcases le_total ((cr (b - a) v + cr u (b - a)) / cr u v) 0 with h | h
  · exact main a b s hab s0 s1 hy (fun e he => hend e (.inr he)) hu hv h
  · have ncr1 : cr (a - b) v = -cr (b - a) v := by simp only [cr, Vec.sub_x, Vec.sub_y]; ring
    have ncr2 : ∀ w, cr w (a - b) = -cr w (b - a) := by intro w; simp only [cr, Vec.sub_x, Vec.sub_y]; ring
    have back : ∀ t : ℝ, between2D b a t = between2D a b (1 - t) := by intro t; rw [← swap, sub_sub_cancel]
    refine main b a (1 - s) (fun e => hab e.symm) (by linarith) (by linarith) (by rw [swap]; exact hy)
      (fun e he => hend e (.inl he)) ?_ ?_ ?_
    · intro t σ t0 t1 h1 h2 h3 h4
      refine hu (1 - t) σ (by linarith) (by linarith) (by rw [← back]; exact h1) h2 h3 ?_
      rw [ncr2] at h4
      exact fun h0 => h4 (by rw [h0, neg_zero])
    · intro t σ t0 t1 h1 h2 h3 h4
      refine hv (1 - t) σ (by linarith) (by linarith) (by rw [← back]; exact h1) h2 h3 ?_
      rw [ncr2] at h4
      exact fun h0 => h4 (by rw [h0, neg_zero])
    · rw [ncr1, ncr2, ← neg_add, neg_div]
      linarith

end Chrumm.Part
