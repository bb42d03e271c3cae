import Verif.Part.Wall
import Verif.Spec.Wall
import Verif.Props.Layout
import Verif.Props.Inside
import Verif.Props.Flat
import Verif.Props.Move

/-! C55, C56: walls and bosses. -/

namespace Chrumm.Part
open Geo Geo.Spec Spec

/-! ### Extremal elements -/

theorem foldl_maxBy {α β : Type} {lt : β → β → Prop} [DecidableRel lt] {key : α → β} (ht : ∀ a b c, lt a b → lt b c → lt a c)
    (hi : ∀ a, ¬ lt a a) (hn : ∀ a b c, lt a c → lt a b ∨ lt b c) : ∀ (l : List α) (a : α),
    (l.foldl (fun m x => if lt (key m) (key x) then x else m) a) ∈ a :: l ∧
    ∀ x ∈ a :: l, ¬ lt (key (l.foldl (fun m x => if lt (key m) (key x) then x else m) a)) (key x)
  | [], a => by simp [hi]
  | b :: l, a => by
    rw [List.foldl_cons]
    obtain ⟨h1, h2⟩ := foldl_maxBy ht hi hn l (if lt (key a) (key b) then b else a)
    by_cases h : lt (key a) (key b)
    · rw [if_pos h] at h1 h2 ⊢
      refine ⟨List.mem_cons_of_mem _ h1, ?_⟩
      intro x hx
      rcases List.mem_cons.mp hx with rfl | hx
      · intro hc
        exact h2 b (by simp) (ht _ _ _ hc h)
      · exact h2 x hx
    · rw [if_neg h] at h1 h2 ⊢
      constructor
      · rcases List.mem_cons.mp h1 with h1 | h1
        · rw [h1]; simp
        · exact List.mem_cons_of_mem _ (List.mem_cons_of_mem _ h1)
      · intro x hx
        rcases List.mem_cons.mp hx with rfl | hx
        · exact h2 x (by simp)
        · rcases List.mem_cons.mp hx with rfl | hx
          · intro hc
            rcases hn _ (key a) _ hc with h3 | h3
            · exact h2 a (by simp) h3
            · exact h h3
          · exact h2 x (by simp [hx])

theorem maxBy_ok {α β : Type} {lt : β → β → Prop} {key : α → β} {l : List α} {m : α}
    (h : Layout.maxBy lt key l = .ok m) (ht : ∀ a b c, lt a b → lt b c → lt a c)
    (hi : ∀ a, ¬ lt a a) (hn : ∀ a b c, lt a c → lt a b ∨ lt b c) : m ∈ l ∧ ∀ x ∈ l, ¬ lt (key m) (key x) := by
  classical
  cases l with
  | nil => cases h
  | cons a l =>
    unfold Layout.maxBy at h
    cases h
    have := foldl_maxBy (key := key) ht hi hn l a
    convert this

theorem minBy_ok {α β : Type} {lt : β → β → Prop} {key : α → β} {l : List α} {m : α}
    (h : Layout.minBy lt key l = .ok m) (ht : ∀ a b c, lt a b → lt b c → lt a c)
    (hi : ∀ a, ¬ lt a a) (hn : ∀ a b c, lt a c → lt a b ∨ lt b c) : m ∈ l ∧ ∀ x ∈ l, ¬ lt (key x) (key m) :=
  maxBy_ok (lt := fun a b => lt b a) (key := key) (l := l) (by cases l <;> exact h)
    (fun a b c h1 h2 => ht _ _ _ h2 h1) hi (fun a b c h => (hn _ b _ h).symm)

theorem pyMax_ok {l : List ℝ} {m : ℝ} (h : pyMax l = .ok m) : m ∈ l ∧ ∀ x ∈ l, x ≤ m := by
  cases l with
  | nil => cases h
  | cons a l =>
    unfold pyMax at h
    cases h
    induction l generalizing a with
    | nil => simp
    | cons b l ih =>
      rw [List.foldl_cons]
      obtain ⟨h1, h2⟩ := ih (max a b)
      constructor
      · rcases List.mem_cons.mp h1 with h1 | h1
        · rcases max_choice a b with h3 | h3 <;> rw [h3] at h1 ⊢ <;> rw [h1] <;> simp
        · simp [h1]
      · intro x hx
        have h3 := h2 _ (List.mem_cons_self ..)
        rcases List.mem_cons.mp hx with rfl | hx
        · exact le_trans (le_max_left _ _) h3
        · rcases List.mem_cons.mp hx with rfl | hx
          · exact le_trans (le_max_right _ _) h3
          · exact h2 x (by simp [hx])

theorem pyMin_ok {l : List ℝ} {m : ℝ} (h : pyMin l = .ok m) : m ∈ l ∧ ∀ x ∈ l, m ≤ x := by
  cases l with
  | nil => cases h
  | cons a l =>
    unfold pyMin at h
    cases h
    induction l generalizing a with
    | nil => simp
    | cons b l ih =>
      rw [List.foldl_cons]
      obtain ⟨h1, h2⟩ := ih (min a b)
      constructor
      · rcases List.mem_cons.mp h1 with h1 | h1
        · rcases min_choice a b with h3 | h3 <;> rw [h3] at h1 ⊢ <;> rw [h1] <;> simp
        · simp [h1]
      · intro x hx
        have h3 := h2 _ (List.mem_cons_self ..)
        rcases List.mem_cons.mp hx with rfl | hx
        · exact le_trans h3 (min_le_left _ _)
        · rcases List.mem_cons.mp hx with rfl | hx
          · exact le_trans h3 (min_le_right _ _)
          · exact h2 x (by simp [hx])

/-! ### Walls -/

theorem make_unit {p d : Vec} (h : d.dot d = 1) : Line.make p d = .ok ⟨p, d⟩ := by
  have hm : d.magnitude = 1 := by
    unfold Vec.magnitude
    rw [show d.x * d.x + d.y * d.y + d.z * d.z = 1 from h, Real.sqrt_one]
  unfold Line.make Vec.normalized Vec.div
  rw [hm, if_neg one_ne_zero]
  simp [bind, Except.bind, pure, Except.pure]

theorem translated_unit {l : Line} (h : l.dir.dot l.dir = 1) (v : Vec) : l.translated v = .ok ⟨l.pos + v, l.dir⟩ :=
  make_unit h

theorem normalized2D_unit {v : Vec} (h : v.x ^ 2 + v.y ^ 2 = 1) : v.normalized2D = .ok v.xy := by
  have : v.magnitude2D = 1 := by
    unfold Vec.magnitude2D
    rw [show v.x * v.x + v.y * v.y = 1 by linarith [h], Real.sqrt_one]
  unfold Vec.normalized2D
  rw [this, if_neg one_ne_zero]
  simp [Vec.xy]

theorem distance2D_unit {l : Line} (h : l.dir.x ^ 2 + l.dir.y ^ 2 = 1) (v : Vec) :
    l.distance2D v = .ok (-(left l.pos (l.pos + l.dir) v)) := by
  unfold Line.distance2D
  rw [normalized2D_unit h]
  simp only [bind, Except.bind, pure, Except.pure, Except.ok.injEq, Vec.xy, left, Vec.add_x, Vec.add_y]
  ring

theorem dirAt_unit (a : ℝ) : (dirAt a).dot (dirAt a) = 1 := by
  have := Real.sin_sq_add_cos_sq a
  simp only [dirAt, Vec.dot]
  linarith

theorem dirAt_unit2 (a : ℝ) : (dirAt a).x ^ 2 + (dirAt a).y ^ 2 = 1 := by
  have := Real.sin_sq_add_cos_sq a
  simp only [dirAt]
  linarith

theorem left_dirAt (p v : Vec) (a : ℝ) :
    left p (p + dirAt a) v = Real.cos a * (v.y - p.y) - Real.sin a * (v.x - p.x) := by
  simp only [left, dirAt, Vec.add_x, Vec.add_y]
  ring

/-- C56. The wall lines have the given direction, are in the xy plane, and `thickness` apart; all inner bounds of the keys
are on the inner (left) side of the inner line, and all outer bounds on the inner side of the outer line. The walls are
tight: a bound touches its line. -/
theorem C56_walls {keys : List Key} {thickness angle : ℝ} {lineI lineO : Line}
    (h : wallLines2D keys thickness angle = .ok (lineI, lineO)) :
    (lineI.dir = dirAt angle ∧ lineO.dir = dirAt angle ∧ lineI.pos.z = 0 ∧
      lineO.pos = lineI.pos + (⟨Real.sin angle, -Real.cos angle, 0⟩ : Vec) * thickness) ∧
    (∀ k ∈ keys, ∀ p ∈ k.boundsI, 0 ≤ left lineI.pos (lineI.pos + lineI.dir) p) ∧
    (∀ k ∈ keys, ∀ p ∈ k.boundsO, 0 ≤ left lineO.pos (lineO.pos + lineO.dir) p) ∧
    ((∃ k ∈ keys, ∃ p ∈ k.boundsI, left lineI.pos (lineI.pos + lineI.dir) p = 0) ∨
      ∃ k ∈ keys, ∃ p ∈ k.boundsO, left lineO.pos (lineO.pos + lineO.dir) p = 0) := by
  unfold wallLines2D at h
  dsimp only at h
  obtain ⟨base, h1, h⟩ := bind_ok h
  rw [show (⟨Real.cos angle, Real.sin angle, 0⟩ : Vec) = dirAt angle from rfl, make_unit (dirAt_unit angle)] at h1
  cases h1
  dsimp only at h
  obtain ⟨ds, h2, h⟩ := bind_ok h
  obtain ⟨mb, h3, h⟩ := bind_ok h
  rw [make_unit (dirAt_unit angle)] at h
  obtain ⟨li, h4, h⟩ := bind_ok h
  cases h4
  rw [translated_unit (dirAt_unit angle)] at h
  obtain ⟨lo, h4, h⟩ := bind_ok h
  cases h4
  obtain ⟨os, h5, h⟩ := bind_ok h
  obtain ⟨ov, h6, h⟩ := bind_ok h
  have hds := mapM_ok_eq (g := fun p => (-(left 0 (0 + dirAt angle) p), p)) h2 (by
    intro p _ y hy
    obtain ⟨d, hd, hy⟩ := bind_ok hy
    rw [distance2D_unit (dirAt_unit2 angle)] at hd
    cases hd
    cases hy
    rfl)
  obtain ⟨hm1, hm2⟩ := maxBy_ok h3 (fun a b c => lt_trans) (fun a => lt_irrefl a) (fun a b c h => lt_or_ge a b |>.imp id
    fun h' => lt_of_le_of_lt h' h)
  rw [hds] at hm1 hm2
  obtain ⟨m, hm, rfl⟩ := List.mem_map.mp hm1
  obtain ⟨m0, hm0, rfl⟩ := List.mem_map.mp hm
  obtain ⟨km, hkm, hm0⟩ := List.mem_flatMap.mp hm0
  dsimp only at h h5 hm2
  have hI : ∀ k ∈ keys, ∀ p ∈ k.boundsI, 0 ≤ left m0.xy (m0.xy + dirAt angle) p := by
    intro k hk p hp
    have := hm2 (-(left 0 (0 + dirAt angle) p.xy), p.xy) (List.mem_map.mpr ⟨p.xy, List.mem_map.mpr
      ⟨p, List.mem_flatMap.mpr ⟨k, hk, hp⟩, rfl⟩, rfl⟩)
    rw [not_lt, left_dirAt, left_dirAt] at this
    rw [left_dirAt]
    simp only [Vec.xy, Vec.zero_x, Vec.zero_y] at this ⊢
    linarith
  have hos := mapM_ok_eq (g := fun p => -(left (m0.xy + -(dirAt angle).ortho2D * thickness)
      (m0.xy + -(dirAt angle).ortho2D * thickness + dirAt angle) p)) h5 (by
    intro p _ y hy
    rw [distance2D_unit (dirAt_unit2 angle)] at hy
    cases hy
    rfl)
  have hout : -(dirAt angle).ortho2D = (⟨Real.sin angle, -Real.cos angle, 0⟩ : Vec) := by
    ext <;> simp [dirAt, Vec.ortho2D]
  obtain ⟨ho1, ho2⟩ := pyMax_ok h6
  rw [hos] at ho1 ho2
  obtain ⟨w, hw, hov⟩ := List.mem_map.mp ho1
  obtain ⟨w0, hw0, rfl⟩ := List.mem_map.mp hw
  obtain ⟨kw, hkw, hw0⟩ := List.mem_flatMap.mp hw0
  have hO : ∀ k ∈ keys, ∀ p ∈ k.boundsO, -(left (m0.xy + -(dirAt angle).ortho2D * thickness)
      (m0.xy + -(dirAt angle).ortho2D * thickness + dirAt angle) p) ≤ ov := by
    intro k hk p hp
    have := ho2 _ (List.mem_map.mpr ⟨p.xy, List.mem_map.mpr ⟨p, List.mem_flatMap.mpr ⟨k, hk, hp⟩, rfl⟩, rfl⟩)
    rw [left_dirAt] at this ⊢
    exact this
  rw [hout] at h hO hov
  have hsc := Real.sin_sq_add_cos_sq angle
  split_ifs at h with hpos
  · rw [translated_unit (dirAt_unit angle), translated_unit (dirAt_unit angle)] at h
    cases h
    dsimp only
    refine ⟨⟨rfl, rfl, by simp [Vec.xy], by ext <;> simp <;> ring⟩, ?_, ?_, Or.inr ⟨kw, hkw, w0, hw0, ?_⟩⟩
    · intro k hk p hp
      have := hI k hk p hp
      rw [left_dirAt] at this ⊢
      simp only [Vec.add_x, Vec.add_y, Vec.mul_x, Vec.mul_y, Vec.xy] at this ⊢
      nlinarith
    · intro k hk p hp
      have := hO k hk p hp
      rw [left_dirAt] at this ⊢
      simp only [Vec.add_x, Vec.add_y, Vec.mul_x, Vec.mul_y, Vec.xy] at this ⊢
      nlinarith
    · rw [left_dirAt] at hov ⊢
      simp only [Vec.add_x, Vec.add_y, Vec.mul_x, Vec.mul_y, Vec.xy] at hov ⊢
      linear_combination -hov + ov * hsc
  · cases h
    dsimp only
    refine ⟨⟨rfl, rfl, rfl, rfl⟩, hI, ?_, Or.inl ⟨km, hkm, m0, hm0, ?_⟩⟩
    · intro k hk p hp
      have := hO k hk p hp
      linarith
    · rw [left_dirAt]
      simp [Vec.xy]

theorem maxBy_succeeds {α β : Type} (lt : β → β → Prop) (key : α → β) {l : List α} (h : l ≠ []) :
    ∃ m, Layout.maxBy lt key l = .ok m := by
  cases l with
  | nil => exact absurd rfl h
  | cons a l => exact ⟨_, rfl⟩

theorem pyMax_succeeds {l : List ℝ} (h : l ≠ []) : ∃ m, pyMax l = .ok m := by
  cases l with
  | nil => exact absurd rfl h
  | cons a l => exact ⟨_, rfl⟩

/-- **C56** There is a wall as soon as there is a key (each key has bounds, see `C56_key_bounds`). -/
theorem C56_succeeds (keys : List Key) (thickness angle : ℝ) (hI : ∃ k ∈ keys, k.boundsI ≠ [])
    (hO : ∃ k ∈ keys, k.boundsO ≠ []) : ∃ lines, wallLines2D keys thickness angle = .ok lines := by
  unfold wallLines2D
  dsimp only
  rw [show (⟨Real.cos angle, Real.sin angle, 0⟩ : Vec) = dirAt angle from rfl, make_unit (dirAt_unit angle)]
  dsimp only [bind, Except.bind]
  obtain ⟨ds, hds⟩ := mapM_ok_of ((keys.flatMap Key.boundsI).map Vec.xy) (f := fun p => do
    let d ← Line.distance2D ⟨0, dirAt angle⟩ p
    pure (d, p)) (fun p _ => by rw [distance2D_unit (dirAt_unit2 angle)]; exact ⟨_, rfl⟩)
  have hne : ds ≠ [] := by
    obtain ⟨k, hk, hb⟩ := hI
    obtain ⟨p, hp⟩ := List.exists_mem_of_ne_nil _ hb
    have hl := (mapM_ok hds).length_eq
    intro h0
    rw [h0, List.length_nil, List.length_eq_zero_iff] at hl
    have : p.xy ∈ (keys.flatMap Key.boundsI).map Vec.xy := List.mem_map.mpr ⟨p, List.mem_flatMap.mpr ⟨k, hk, hp⟩, rfl⟩
    rw [hl] at this
    cases this
  obtain ⟨m, hm⟩ := maxBy_succeeds (· < ·) Prod.fst hne
  dsimp only [bind, Except.bind] at hds
  rw [hds]
  dsimp only
  rw [hm]
  dsimp only
  rw [make_unit (dirAt_unit angle)]
  dsimp only
  rw [translated_unit (dirAt_unit angle)]
  dsimp only
  obtain ⟨os, hos⟩ := mapM_ok_of ((keys.flatMap Key.boundsO).map Vec.xy)
    (f := Line.distance2D ⟨m.2 + -(dirAt angle).ortho2D * thickness, dirAt angle⟩)
    (fun p _ => by rw [distance2D_unit (dirAt_unit2 angle)]; exact ⟨_, rfl⟩)
  have hne2 : os ≠ [] := by
    obtain ⟨k, hk, hb⟩ := hO
    obtain ⟨p, hp⟩ := List.exists_mem_of_ne_nil _ hb
    have hl := (mapM_ok hos).length_eq
    intro h0
    rw [h0, List.length_nil, List.length_eq_zero_iff] at hl
    have : p.xy ∈ (keys.flatMap Key.boundsO).map Vec.xy := List.mem_map.mpr ⟨p, List.mem_flatMap.mpr ⟨k, hk, hp⟩, rfl⟩
    rw [hl] at this
    cases this
  obtain ⟨ov, hov⟩ := pyMax_succeeds hne2
  rw [hos]
  dsimp only
  rw [hov]
  dsimp only
  split_ifs
  · rw [translated_unit (dirAt_unit angle)]
    dsimp only
    rw [translated_unit (dirAt_unit angle)]
    exact ⟨_, rfl⟩
  · exact ⟨_, rfl⟩

/-- **C56** Each key has bounds. -/
theorem C56_key_bounds {cfg : LayoutCfg} {switch : SwitchCfg} {roof : ℝ} {f : KeyFactory}
    (h : KeyFactory.make switch roof = .ok f) (units : ℝ) (m : Mat) :
    ((Key.make cfg f units).transform m).boundsI.length = 8 ∧ ((Key.make cfg f units).transform m).boundsO.length = 8 := by
  unfold KeyFactory.make at h
  obtain ⟨t, -, h⟩ := bind_ok h
  cases h
  simp [Key.boundsI, Key.boundsO, Key.transform, Key.make, factoryBoundsI, factoryBoundsO]

example : ∃ f, KeyFactory.make exSwitch 4 = .ok f ∧ ∃ lines,
    wallLines2D [Key.make exLayout f 1, (Key.make exLayout f 1).translate ⟨19, 3, 1⟩] 2 (1 / 10) = .ok lines := by
  obtain ⟨f, hf⟩ := factory_ok exSwitch 4 (by simp [exSwitch])
  refine ⟨f, hf, C56_succeeds _ _ _ ⟨_, by simp; left; rfl, ?_⟩ ⟨_, by simp; left; rfl, ?_⟩⟩ <;>
  · have := C56_key_bounds (cfg := exLayout) hf 1 1
    intro h0
    simp only [Key.transform, Key.make, Key.boundsI, Key.boundsO] at this h0
    simp_all

end Chrumm.Part
