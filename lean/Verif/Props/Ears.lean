import Verif.Props.Holes
import Verif.Spec.Clip

/-! C37, C38: cutting ears. -/

namespace Chrumm.Geo
open Spec Classical

/-! ### One ear -/

/-- What `makeEar` computes is acceptable. -/
def Ear.ok (e : Ear) (points : List Vec) (poly : List ℕ) : Prop := ¬ e.height < 0 ∧ ¬ e.blocked points poly

theorem mul_neg_iff_pos {d x : ℝ} (hd : 0 < d) : x * d < 0 ↔ x < 0 := by
  constructor
  · intro h; by_contra hn; exact absurd h (not_lt.mpr (mul_nonneg (not_lt.mp hn) hd.le))
  · intro h; exact mul_neg_of_neg_of_pos h hd

theorem norm2D_cases (u v : Vec) :
    (u.x = v.x ∧ u.y = v.y ∧ (v - u).normalized2D = .error .zeroDivision) ∨
    (0 < dist2D u v ∧ (v - u).normalized2D =
      .ok ⟨(v.x - u.x) / dist2D u v, (v.y - u.y) / dist2D u v, 0⟩) := by
  have hm : (v - u).magnitude2D = dist2D u v := by
    unfold Vec.magnitude2D dist2D distSq2D
    congr 1
    simp only [Vec.sub_x, Vec.sub_y]; ring
  unfold Vec.normalized2D
  rw [hm]
  by_cases h : dist2D u v = 0
  · left
    rw [if_pos h]
    unfold dist2D at h
    rw [Real.sqrt_eq_zero (by unfold distSq2D; positivity)] at h
    unfold distSq2D at h
    have e1 : u.x - v.x = 0 := by nlinarith [sq_nonneg (u.x - v.x), sq_nonneg (u.y - v.y)]
    have e2 : u.y - v.y = 0 := by nlinarith [sq_nonneg (u.x - v.x), sq_nonneg (u.y - v.y)]
    exact ⟨by linarith, by linarith, rfl⟩
  · right
    rw [if_neg h]
    exact ⟨lt_of_le_of_ne (Real.sqrt_nonneg _) (Ne.symm h), by simp only [Vec.sub_x, Vec.sub_y]⟩

/-- The points are apart in the xy plane. -/
def Apart (u v : Vec) : Prop := ¬ SamePlace u v

theorem makeEar_cases (points : List Vec) (poly : List ℕ) (i : ℕ) (hi : i < poly.length) :
    (∃ e, makeEar points poly i = .ok e ∧ e.ear = earAt poly i ∧ (e.ok points poly ↔ CanCut (pt points) poly i) ∧
      Apart (pt points e.ear.a) (pt points e.ear.b) ∧ Apart (pt points e.ear.b) (pt points e.ear.c) ∧
      Apart (pt points e.ear.c) (pt points e.ear.a)) ∨
    (makeEar points poly i = .error .zeroDivision ∧
      (¬ Apart (pt points (earAt poly i).a) (pt points (earAt poly i).b) ∨
       ¬ Apart (pt points (earAt poly i).b) (pt points (earAt poly i).c) ∨
       ¬ Apart (pt points (earAt poly i).c) (pt points (earAt poly i).a))) := by
  unfold makeEar CanCut
  dsimp only
  have hidx : (i + poly.length - 1) = i + (poly.length - 1) := by omega
  rw [hidx]
  have ea : poly.getD ((i + (poly.length - 1)) % poly.length) 0 = (earAt poly i).a := rfl
  have eb : poly.getD i 0 = (earAt poly i).b := rfl
  have ec : poly.getD ((i + 1) % poly.length) 0 = (earAt poly i).c := rfl
  rw [ea, eb, ec]
  have hap : ∀ u v : Vec, 0 < dist2D u v → Apart u v := by
    rintro u v h ⟨h1, h2⟩
    unfold dist2D distSq2D at h
    rw [h1, h2] at h
    simp at h
  rcases norm2D_cases (pt points (earAt poly i).a) (pt points (earAt poly i).b) with ⟨h1, h2, h3⟩ | ⟨da, ha⟩
  · right; rw [h3]; exact ⟨rfl, .inl (fun h => h ⟨h1, h2⟩)⟩
  rcases norm2D_cases (pt points (earAt poly i).b) (pt points (earAt poly i).c) with ⟨h1, h2, h3⟩ | ⟨db, hb⟩
  · right; rw [ha, h3]; exact ⟨rfl, .inr (.inl (fun h => h ⟨h1, h2⟩))⟩
  rcases norm2D_cases (pt points (earAt poly i).c) (pt points (earAt poly i).a) with ⟨h1, h2, h3⟩ | ⟨dc, hc⟩
  · right; rw [ha, hb, h3]; exact ⟨rfl, .inr (.inr (fun h => h ⟨h1, h2⟩))⟩
  left
  rw [ha, hb, hc]
  refine ⟨_, rfl, rfl, ?_, hap _ _ da, hap _ _ db, hap _ _ dc⟩
  have side : ∀ (u v p : Vec), 0 < dist2D u v →
      ((v.y - u.y) / dist2D u v * p.x - (v.x - u.x) / dist2D u v * p.y <
        (v.y - u.y) / dist2D u v * u.x - (v.x - u.x) / dist2D u v * u.y + 1e-6 ↔
      -(1e-6 * dist2D u v) < left u v p) := by
    intro u v p hd
    rw [← sub_pos, ← mul_pos_iff_of_pos_right hd]
    have : ((v.y - u.y) / dist2D u v * u.x - (v.x - u.x) / dist2D u v * u.y + 1e-6 -
        ((v.y - u.y) / dist2D u v * p.x - (v.x - u.x) / dist2D u v * p.y)) * dist2D u v =
        left u v p + 1e-6 * dist2D u v := by
      unfold left; field_simp; ring
    rw [this]
    constructor <;> intro h <;> linarith
  unfold Ear.ok Ear.blocked Ear.inside InTriangle
  dsimp only
  generalize pt points (earAt poly i).a = a at *
  generalize pt points (earAt poly i).b = b at *
  generalize pt points (earAt poly i).c = c at *
  have hh : (a.x - c.x) / dist2D c a * b.y - (a.y - c.y) / dist2D c a * b.x +
      ((a.y - c.y) / dist2D c a * c.x - (a.x - c.x) / dist2D c a * c.y + 1e-6) < 0 ↔
      ¬ -(1e-6 * dist2D c a) ≤ left a b c := by
    rw [← mul_neg_iff_pos dc]
    have : ((a.x - c.x) / dist2D c a * b.y - (a.y - c.y) / dist2D c a * b.x +
      ((a.y - c.y) / dist2D c a * c.x - (a.x - c.x) / dist2D c a * c.y + 1e-6)) * dist2D c a =
      left a b c + 1e-6 * dist2D c a := by
      unfold left; field_simp; ring
    rw [this]
    constructor
    · intro h h'; linarith
    · intro h; linarith [not_le.mp h]
  rw [hh, not_not]
  refine and_congr_right fun _ => ?_
  rw [not_exists]
  refine forall_congr' fun j => ?_
  rw [side c a _ dc, side b c _ db, side a b _ da]
  tauto

/-! ### The cache -/

/-- Cached ears are those of the current polygon. -/
def Coherent (points : List Vec) (poly : List ℕ) (cache : List (Option Ear)) : Prop :=
  cache.length = poly.length ∧ ∀ i e, cache.getD i none = some e → makeEar points poly i = .ok e

theorem getD_set {α : Type} (l : List α) (i j : ℕ) (x d : α) (hi : i < l.length) :
    (l.set i x).getD j d = if j = i then x else l.getD j d := by
  simp only [List.getD_eq_getElem?_getD, List.getElem?_set]
  by_cases h : i = j
  · subst h; simp [hi]
  · simp [h, Ne.symm h]

theorem getD_set_none {α : Type} (l : List (Option α)) (i j : ℕ) :
    (l.set i none).getD j none = if j = i then none else l.getD j none := by
  by_cases hi : i < l.length
  · exact getD_set l i j none none hi
  · rw [List.set_eq_of_length_le (by omega)]
    split_ifs with h
    · rw [h, List.getD_eq_getElem?_getD, List.getElem?_eq_none (by omega)]; rfl
    · rfl

theorem cachedEar_eq {points : List Vec} {poly : List ℕ} {cache : List (Option Ear)}
    (hc : Coherent points poly cache) (i : ℕ) : cachedEar points poly cache i = makeEar points poly i := by
  unfold cachedEar
  rcases hg : cache.getD i none with _ | e
  · rfl
  · exact (hc.2 i e hg).symm

/-- What a scan of the positions `is` does. -/
def ScanOK (points : List Vec) (poly : List ℕ) (is : List ℕ)
    (r : Py (List (Option Ear) × Option (ℕ × Ear))) : Prop :=
  match r with
  | .error x => ∃ i ∈ is, makeEar points poly i = .error x
  | .ok (cache, none) => Coherent points poly cache ∧
      ∀ i ∈ is, ∃ e, makeEar points poly i = .ok e ∧ ¬ e.ok points poly
  | .ok (cache, some (i, e)) => Coherent points poly cache ∧
      makeEar points poly i = .ok e ∧ e.ok points poly ∧ ∃ l r, is = l ++ i :: r ∧
      ∀ j ∈ l, ∃ e, makeEar points poly j = .ok e ∧ ¬ e.ok points poly

theorem ScanOK.cons {points : List Vec} {poly : List ℕ} {is : List ℕ} {i : ℕ}
    {r : Py (List (Option Ear) × Option (ℕ × Ear))}
    (hi : ∃ e, makeEar points poly i = .ok e ∧ ¬ e.ok points poly) (h : ScanOK points poly is r) :
    ScanOK points poly (i :: is) r := by
  rcases r with x | ⟨cache, _ | ⟨k, e⟩⟩
  · obtain ⟨j, hj, hx⟩ := h
    exact ⟨j, by simp [hj], hx⟩
  · refine ⟨h.1, ?_⟩
    intro j hj
    rw [List.mem_cons] at hj
    rcases hj with hj | hj
    · rw [hj]; exact hi
    · exact h.2 j hj
  · obtain ⟨h1, h2, h3, l, r, h5, h6⟩ := h
    refine ⟨h1, h2, h3, i :: l, r, by rw [h5]; rfl, ?_⟩
    intro j hj
    rw [List.mem_cons] at hj
    rcases hj with hj | hj
    · rw [hj]; exact hi
    · exact h6 j hj

theorem scan_spec (points : List Vec) (poly : List ℕ) : ∀ (is : List ℕ) (cache : List (Option Ear)),
    (∀ i ∈ is, i < poly.length) → Coherent points poly cache →
    ScanOK points poly is (scanEars points poly is cache)
  | [], cache, _, hc => ⟨hc, by simp⟩
  | i :: is, cache, his, hc => by
    have hi := his i (by simp)
    rw [scanEars, cachedEar_eq hc]
    rcases hme : makeEar points poly i with x | e
    · exact ⟨i, by simp, hme⟩
    · have hcoh : Coherent points poly (cache.set i (some e)) := by
        refine ⟨by simp [hc.1], fun j e' hj => ?_⟩
        rw [getD_set _ _ _ _ _ (by rw [hc.1]; exact hi)] at hj
        split_ifs at hj with hji
        · cases hj; rw [hji]; exact hme
        · exact hc.2 j e' hj
      have ih := scan_spec points poly is (cache.set i (some e)) (fun j hj => his j (by simp [hj])) hcoh
      simp only [bind, Except.bind, pure, Except.pure]
      split_ifs with h1 h2
      · exact ih.cons ⟨e, hme, fun h => h.1 h1⟩
      · exact ih.cons ⟨e, hme, fun h => h.2 h2⟩
      · exact ⟨hcoh, hme, ⟨h1, h2⟩, [], is, rfl, by simp⟩

/-! ### Removing a corner -/

theorem getD_eraseIdx {α : Type} (l : List α) (i k : ℕ) (d : α) :
    (l.eraseIdx i).getD k d = if k < i then l.getD k d else l.getD (k + 1) d := by
  simp only [List.getD_eq_getElem?_getD, List.getElem?_eraseIdx]
  split_ifs <;> rfl

theorem earAt_erase {poly : List ℕ} {i j : ℕ} (hn : 3 ≤ poly.length) (hi : i < poly.length)
    (hj : j < poly.length - 1) (h1 : j ≠ (i + (poly.length - 1) - 1) % (poly.length - 1))
    (h2 : j ≠ i % (poly.length - 1)) :
    earAt (poly.eraseIdx i) j = earAt poly (if j < i then j else j + 1) := by
  have hl : (poly.eraseIdx i).length = poly.length - 1 := by rw [List.length_eraseIdx, if_pos hi]
  unfold earAt
  rw [hl]
  generalize poly.length = n at *
  simp only [getD_eraseIdx]
  have e1 : (j + (n - 1 - 1)) % (n - 1) = if j = 0 then n - 2 else j - 1 := by
    split_ifs with h
    · rw [h, Nat.zero_add, Nat.mod_eq_of_lt (by omega)]; omega
    · rw [show j + (n - 1 - 1) = j - 1 + (n - 1) by omega, Nat.add_mod_right, Nat.mod_eq_of_lt (by omega)]
  have e2 : (j + 1) % (n - 1) = if j = n - 2 then 0 else j + 1 := by
    split_ifs with h
    · rw [h, show n - 2 + 1 = n - 1 by omega, Nat.mod_self]
    · rw [Nat.mod_eq_of_lt (by omega)]
  have e3 : i % (n - 1) = if i = n - 1 then 0 else i := by
    split_ifs with h
    · rw [h, Nat.mod_self]
    · rw [Nat.mod_eq_of_lt (by omega)]
  have e4 : (i + (n - 1) - 1) % (n - 1) = if i = 0 then n - 2 else i - 1 := by
    split_ifs with h
    · rw [h, Nat.zero_add, Nat.mod_eq_of_lt (by omega)]; omega
    · rw [show i + (n - 1) - 1 = i - 1 + (n - 1) by omega, Nat.add_mod_right, Nat.mod_eq_of_lt (by omega)]
  have m1 : ∀ k, k < n → (k + (n - 1)) % n = if k = 0 then n - 1 else k - 1 := by
    intro k hk
    split_ifs with h
    · rw [h, Nat.zero_add, Nat.mod_eq_of_lt (by omega)]
    · rw [show k + (n - 1) = k - 1 + n by omega, Nat.add_mod_right, Nat.mod_eq_of_lt (by omega)]
  have m2 : ∀ k, k < n → (k + 1) % n = if k = n - 1 then 0 else k + 1 := by
    intro k hk
    split_ifs with h
    · rw [h, show n - 1 + 1 = n by omega, Nat.mod_self]
    · rw [Nat.mod_eq_of_lt (by omega)]
  rw [e3] at h2
  rw [e4] at h1
  rw [e1, e2]
  by_cases hji : j < i
  · simp only [hji, if_true]
    rw [m1 j (by omega), m2 j (by omega)]
    congr 1 <;> (split_ifs at * <;> (try congr 1) <;> omega)
  · simp only [hji, if_false]
    rw [m1 (j + 1) (by omega), m2 (j + 1) (by omega)]
    congr 1 <;> (split_ifs at * <;> (try congr 1) <;> omega)

/-- `makeEar` depends on the three corners only. -/
theorem makeEar_congr {points : List Vec} {p q : List ℕ} {i j : ℕ} (hi : i < p.length) (hj : j < q.length)
    (h : earAt p i = earAt q j) : makeEar points p i = makeEar points q j := by
  unfold makeEar
  have e1 : i + p.length - 1 = i + (p.length - 1) := by omega
  have e2 : j + q.length - 1 = j + (q.length - 1) := by omega
  rw [e1, e2]
  have h1 := congrArg Tri.a h
  have h2 := congrArg Tri.b h
  have h3 := congrArg Tri.c h
  simp only [earAt] at h1 h2 h3
  rw [h1, h2, h3]

theorem coherent_erase {points : List Vec} {poly : List ℕ} {cache : List (Option Ear)} {i : ℕ}
    (hn : 3 ≤ poly.length) (hi : i < poly.length) (h : Coherent points poly cache) :
    Coherent points (poly.eraseIdx i)
      (let c := cache.eraseIdx i
       let c := c.set ((i + c.length - 1) % c.length) none
       c.set (i % c.length) none) := by
  have hl : (poly.eraseIdx i).length = poly.length - 1 := by rw [List.length_eraseIdx, if_pos hi]
  have hl' : (cache.eraseIdx i).length = poly.length - 1 := by
    rw [List.length_eraseIdx, h.1, if_pos hi]
  dsimp only
  refine ⟨by simp only [List.length_set]; rw [hl, hl'], ?_⟩
  intro j e hj
  rw [getD_set_none, getD_set_none, List.length_set, hl', getD_eraseIdx] at hj
  split_ifs at hj with h1 h2 h3
  all_goals
    have hj2 : j < poly.length - 1 := by
      by_contra hcon
      rw [List.getD_eq_getElem?_getD, List.getElem?_eq_none (by rw [h.1]; omega)] at hj
      cases hj
    have he := earAt_erase hn hi hj2 h2 h1
    rw [← h.2 _ e hj]
    apply makeEar_congr (by rw [hl]; exact hj2) (by omega)
    rw [he]
    simp [h3]

/-! ### The loop -/

theorem stuck_loop {points : List Vec} {poly : List ℕ}
    (hno : ∀ i < poly.length, ∃ e, makeEar points poly i = .ok e ∧ ¬ e.ok points poly) :
    ∀ (n : ℕ) (cache : List (Option Ear)) (ears : List (Tri ℕ)), Coherent points poly cache →
      cutLoop points n poly cache ears = .ok (ears, poly)
  | 0, _, _, _ => rfl
  | n + 1, cache, ears, hc => by
    have h1 := scan_spec points poly (List.range poly.length) cache (fun i hi => List.mem_range.mp hi) hc
    rw [cutLoop]
    rcases hs : scanEars points poly (List.range poly.length) cache with x | ⟨cache', cut⟩
    · rw [hs] at h1
      obtain ⟨i, hi, hx⟩ := h1
      obtain ⟨e, he, -⟩ := hno i (List.mem_range.mp hi)
      rw [he] at hx; cases hx
    · rw [hs] at h1
      rcases cut with _ | ⟨i, e⟩
      · exact stuck_loop hno n cache' ears h1.1
      · obtain ⟨-, hme, hok, l, r, hl, -⟩ := h1
        have hi : i < poly.length := List.mem_range.mp (by rw [hl]; simp)
        obtain ⟨e', he', hn⟩ := hno i hi
        rw [he'] at hme; cases hme
        exact absurd hok hn

theorem range_split {n i : ℕ} {l r : List ℕ} (h : List.range n = l ++ i :: r) : ∀ j, j < i → j ∈ l := by
  intro j hj
  have hi : i < n := List.mem_range.mp (by rw [h]; simp)
  have hlen : l.length < n := by
    have := congrArg List.length h
    simp at this; omega
  have hg : (List.range n)[l.length]? = some i := by rw [h]; simp
  rw [List.getElem?_range hlen] at hg
  have hli : l.length = i := Option.some.inj hg
  have hjn : (List.range n)[j]? = some j := List.getElem?_range (by omega)
  rw [h, List.getElem?_append_left (by omega)] at hjn
  exact List.mem_of_getElem? hjn

theorem loop_spec (points : List Vec) : ∀ (n : ℕ) (poly : List ℕ) (cache : List (Option Ear))
    (ears : List (Tri ℕ)), n = poly.length - 2 → Coherent points poly cache →
    ∀ out rest, cutLoop points n poly cache ears = .ok (out, rest) →
      ∃ ts, out = ears ++ ts ∧ Clip (pt points) poly ts rest ∧
        ∀ t ∈ ts, Apart (pt points t.a) (pt points t.b) ∧ Apart (pt points t.b) (pt points t.c) ∧
          Apart (pt points t.c) (pt points t.a)
  | 0, poly, cache, ears, hn, hc, out, rest, h => by
    cases h
    exact ⟨[], by simp, .done _ (by omega), by simp⟩
  | n + 1, poly, cache, ears, hn, hc, out, rest, h => by
    have hlen : 3 ≤ poly.length := by omega
    have h1 := scan_spec points poly (List.range poly.length) cache (fun i hi => List.mem_range.mp hi) hc
    rw [cutLoop] at h
    rcases hs : scanEars points poly (List.range poly.length) cache with x | ⟨cache', cut⟩
    · rw [hs] at h; cases h
    · rw [hs] at h h1
      have noCut : ∀ j < poly.length, (∃ e, makeEar points poly j = .ok e ∧ ¬ e.ok points poly) →
          ¬ CanCut (pt points) poly j := by
        rintro j hj ⟨e, he, hne⟩ hcan
        rcases makeEar_cases points poly j hj with ⟨e', he', -, hiff, -⟩ | ⟨hx, -⟩
        · rw [he] at he'; cases he'; exact hne (hiff.mpr hcan)
        · rw [he] at hx; cases hx
      rcases cut with _ | ⟨i, e⟩
      · have hno : ∀ i < poly.length, ∃ e, makeEar points poly i = .ok e ∧ ¬ e.ok points poly :=
          fun i hi => h1.2 i (List.mem_range.mpr hi)
        have := stuck_loop hno n cache' ears h1.1
        dsimp only [bind, Except.bind] at h
        rw [this] at h
        cases h
        exact ⟨[], by simp, .stuck _ fun i hi => noCut i hi (hno i hi), by simp⟩
      · obtain ⟨h3, hme, hok, l, r, hl, hbefore⟩ := h1
        have hi : i < poly.length := List.mem_range.mp (by rw [hl]; simp)
        have hlen' : (poly.eraseIdx i).length = poly.length - 1 := by rw [List.length_eraseIdx, if_pos hi]
        obtain ⟨ts, hts, hclip, hap⟩ := loop_spec points n (poly.eraseIdx i) _ (ears ++ [e.ear])
          (by rw [hlen']; omega) (coherent_erase hlen hi h3) out rest h
        rcases makeEar_cases points poly i hi with ⟨e', he', hear, hiff, hap'⟩ | ⟨hx, -⟩
        · rw [hme] at he'; cases he'
          refine ⟨e.ear :: ts, by rw [hts]; simp, ?_, ?_⟩
          · rw [hear]
            refine .cut poly i ts rest hlen hi (hiff.mp hok) ?_ hclip
            intro j hj
            exact noCut j (by omega) (hbefore j (range_split hl j hj))
          · intro t ht
            rw [List.mem_cons] at ht
            rcases ht with rfl | ht
            · exact hap'
            · exact hap t ht
        · rw [hme] at hx; cases hx

theorem coherent_init (points : List Vec) (poly : List ℕ) :
    Coherent points poly (List.replicate poly.length none) := by
  refine ⟨by simp, ?_⟩
  intro i e h
  simp [List.getD_eq_getElem?_getD, List.getElem?_replicate] at h
  split_ifs at h <;> cases h

/-- **C38** The cache does not change the result: what is cut is what ear clipping cuts that evaluates all
ears anew in each round, and always takes the first possible one. -/
theorem C38_cache_transparent (points : List Vec) (poly : List ℕ) (ears : List (Tri ℕ)) (rest : List ℕ)
    (h : cutEars points poly = .ok (ears, rest)) : Clip (pt points) poly ears rest := by
  obtain ⟨ts, hts, hc, -⟩ := loop_spec points _ poly _ [] rfl (coherent_init points poly) ears rest h
  rw [hts]; exact hc

theorem pairwise_getD {pos : ℕ → Vec} {poly : List ℕ} (h : poly.Pairwise fun i j => ¬ SamePlace (pos i) (pos j))
    {i j : ℕ} (hi : i < poly.length) (hj : j < poly.length) (hij : i ≠ j) :
    Apart (pos (poly.getD i 0)) (pos (poly.getD j 0)) := by
  rw [List.pairwise_iff_getElem] at h
  simp only [List.getD_eq_getElem?_getD, List.getElem?_eq_getElem hi, List.getElem?_eq_getElem hj, Option.getD_some]
  rcases lt_or_gt_of_ne hij with hlt | hlt
  · exact h i j hi hj hlt
  · rintro ⟨h1, h2⟩; exact h j i hj hi hlt ⟨h1.symm, h2.symm⟩

theorem loop_raises (points : List Vec) : ∀ (n : ℕ) (poly : List ℕ) (cache : List (Option Ear))
    (ears : List (Tri ℕ)), n = poly.length - 2 → Coherent points poly cache →
    ∀ x, cutLoop points n poly cache ears = .error x →
      x = .zeroDivision ∧ ¬ poly.Pairwise fun i j => ¬ SamePlace (pt points i) (pt points j)
  | 0, poly, cache, ears, hn, hc, x, h => by cases h
  | n + 1, poly, cache, ears, hn, hc, x, h => by
    have hlen : 3 ≤ poly.length := by omega
    have h1 := scan_spec points poly (List.range poly.length) cache (fun i hi => List.mem_range.mp hi) hc
    rw [cutLoop] at h
    rcases hs : scanEars points poly (List.range poly.length) cache with y | ⟨cache', cut⟩
    · rw [hs] at h h1
      cases h
      obtain ⟨i, hi, hx⟩ := h1
      have hi := List.mem_range.mp hi
      rcases makeEar_cases points poly i hi with ⟨e', he', -⟩ | ⟨hx', hno⟩
      · rw [hx] at he'; cases he'
      · rw [hx] at hx'
        cases hx'
        refine ⟨rfl, fun hp => ?_⟩
        have m1 : (i + (poly.length - 1)) % poly.length < poly.length := Nat.mod_lt _ (by omega)
        have m2 : (i + 1) % poly.length < poly.length := Nat.mod_lt _ (by omega)
        have n1 : (i + (poly.length - 1)) % poly.length ≠ i := by
          rcases Nat.eq_zero_or_pos i with h | h
          · rw [h, Nat.zero_add, Nat.mod_eq_of_lt (by omega)]; omega
          · rw [show i + (poly.length - 1) = i - 1 + poly.length by omega, Nat.add_mod_right,
              Nat.mod_eq_of_lt (by omega)]; omega
        have n2 : i ≠ (i + 1) % poly.length := by
          rcases Nat.lt_or_ge (i + 1) poly.length with h | h
          · rw [Nat.mod_eq_of_lt h]; omega
          · rw [show i + 1 = poly.length by omega, Nat.mod_self]; omega
        have n3 : (i + 1) % poly.length ≠ (i + (poly.length - 1)) % poly.length := by
          have e1 : (i + 1) % poly.length = if i + 1 = poly.length then 0 else i + 1 := by
            split_ifs with h
            · rw [h, Nat.mod_self]
            · rw [Nat.mod_eq_of_lt (by omega)]
          have e2 : (i + (poly.length - 1)) % poly.length = if i = 0 then poly.length - 1 else i - 1 := by
            split_ifs with h
            · rw [h, Nat.zero_add, Nat.mod_eq_of_lt (by omega)]
            · rw [show i + (poly.length - 1) = i - 1 + poly.length by omega, Nat.add_mod_right,
                Nat.mod_eq_of_lt (by omega)]
          rw [e1, e2]; split_ifs <;> omega
        rcases hno with h | h | h
        · exact h (pairwise_getD hp m1 hi n1)
        · exact h (pairwise_getD hp hi m2 n2)
        · exact h (pairwise_getD hp m2 m1 n3)
    · rw [hs] at h h1
      rcases cut with _ | ⟨i, e⟩
      · have := stuck_loop (fun i hi => h1.2 i (List.mem_range.mpr hi)) n cache' ears h1.1
        dsimp only [bind, Except.bind] at h
        rw [this] at h
        cases h
      · obtain ⟨h3, hme, hok, l, r, hl, hbefore⟩ := h1
        have hi : i < poly.length := List.mem_range.mp (by rw [hl]; simp)
        have hlen' : (poly.eraseIdx i).length = poly.length - 1 := by rw [List.length_eraseIdx, if_pos hi]
        obtain ⟨e1, e2⟩ := loop_raises points n (poly.eraseIdx i) _ (ears ++ [e.ear])
          (by rw [hlen']; omega) (coherent_erase hlen hi h3) x h
        exact ⟨e1, fun hp => e2 (hp.sublist (List.eraseIdx_sublist _ _))⟩

/-- **C38** Cutting ears raises nothing but a ZeroDivisionError, and that only if two corners of the
polygon are at the same place. -/
theorem C38_raises (points : List Vec) (poly : List ℕ) (x : Exn) (h : cutEars points poly = .error x) :
    x = .zeroDivision ∧ ¬ poly.Pairwise fun i j => ¬ SamePlace (pt points i) (pt points j) :=
  loop_raises points _ poly _ [] rfl (coherent_init points poly) x h

/-! ### The boundary -/

theorem esum_rotate {P A : Type} [AddCommGroup A] (g : P → P → A) (l : List P) (k : ℕ) :
    esum g (cycPairs (l.rotate k)) = esum g (cycPairs l) := by
  rw [cycPairs_rotate]; exact esum_perm (List.rotate_perm _ _)

/-- The ear at a position, seen from there. -/
theorem ear_shape (poly : List ℕ) (i : ℕ) (hn : 3 ≤ poly.length) (hi : i < poly.length) :
    ∃ b c m a, poly.rotate i = b :: c :: (m ++ [a]) ∧ (poly.eraseIdx i).rotate i = c :: (m ++ [a]) ∧
      earAt poly i = ⟨a, b, c⟩ := by
  have hsplit : poly = poly.take i ++ poly[i] :: poly.drop (i + 1) := by
    rw [List.cons_getElem_drop_succ, List.take_append_drop]
  have hlt : (poly.take i).length = i := by simp; omega
  have hrot : poly.rotate i = poly[i] :: (poly.drop (i + 1) ++ poly.take i) := by
    rw [List.rotate_eq_drop_append_take hi.le, ← List.cons_getElem_drop_succ, List.cons_append]
  have herase : (poly.eraseIdx i).rotate i = poly.drop (i + 1) ++ poly.take i := by
    have : poly.eraseIdx i = poly.take i ++ poly.drop (i + 1) := List.eraseIdx_eq_take_drop_succ _ _
    rw [this]
    conv_lhs => rw [← hlt]
    rw [hlt]
    have := List.rotate_append_length_eq (poly.take i) (poly.drop (i + 1))
    rwa [hlt] at this
  have hlen : (poly.drop (i + 1) ++ poly.take i).length = poly.length - 1 := by
    simp only [List.length_append, List.length_drop, hlt]; omega
  obtain ⟨c, m, a, hca⟩ : ∃ c m a, poly.drop (i + 1) ++ poly.take i = c :: (m ++ [a]) := by
    generalize poly.drop (i + 1) ++ poly.take i = w at hlen
    cases w with
    | nil => simp at hlen; omega
    | cons c w =>
      have hw : w ≠ [] := by rintro rfl; simp at hlen; omega
      exact ⟨c, w.dropLast, w.getLast hw, by rw [List.dropLast_append_getLast]⟩
  have hml : m.length + 3 = poly.length := by
    rw [hca] at hlen; simp at hlen; omega
  rw [hca] at hrot herase
  have hget : ∀ k, k < poly.length → poly.getD ((i + k) % poly.length) 0 = (poly[i] :: c :: (m ++ [a])).getD k 0 := by
    intro k hk
    rw [← hrot]
    have h1 : (i + k) % poly.length < poly.length := Nat.mod_lt _ (by omega)
    have h2 : k < (poly.rotate i).length := by simpa using hk
    simp only [List.getD_eq_getElem?_getD, List.getElem?_eq_getElem h1, List.getElem?_eq_getElem h2,
      List.getElem_rotate, Nat.add_comm]
  have ea : (earAt poly i).a = a := by
    show poly.getD ((i + (poly.length - 1)) % poly.length) 0 = a
    rw [hget _ (by omega), ← hml]
    simp [List.getD_eq_getElem?_getD]
  have eb : (earAt poly i).b = poly[i] := by
    show poly.getD i 0 = _
    simp [List.getD_eq_getElem?_getD, hi]
  have ec : (earAt poly i).c = c := by
    show poly.getD ((i + 1) % poly.length) 0 = c
    rw [hget 1 (by omega)]; rfl
  exact ⟨poly[i], c, m, a, hrot, herase, by
    show Tri.mk _ _ _ = _
    rw [← ea, ← eb, ← ec]; rfl⟩

/-- Cutting a corner. -/
theorem cut_sum {A : Type} [AddCommGroup A] {g : ℕ → ℕ → A} (hg : Anti g) (poly : List ℕ) (i : ℕ)
    (hn : 3 ≤ poly.length) (hi : i < poly.length) :
    esum g (cycPairs poly) = tsum g (earAt poly i) + esum g (cycPairs (poly.eraseIdx i)) := by
  obtain ⟨b, c, m, a, hrot, herase, he⟩ := ear_shape poly i hn hi
  rw [← esum_rotate g poly i, ← esum_rotate g (poly.eraseIdx i) i, hrot, herase, cycPairs_cons, cycPairs_cons]
  unfold tsum
  rw [he]
  have p1 : pathPairs (b :: c :: (m ++ [a]) ++ [b]) =
      (b, c) :: (pathPairs ((c :: m) ++ [a]) ++ pathPairs [a, b]) := by
    rw [← pathPairs_split]; simp [pathPairs]
  have p2 : pathPairs (c :: (m ++ [a]) ++ [c]) = pathPairs ((c :: m) ++ [a]) ++ pathPairs [a, c] := by
    rw [← pathPairs_split]; simp
  have q : ∀ x y : ℕ, esum g (pathPairs [x, y]) = g x y := fun x y => by simp [pathPairs]
  rw [p1, p2, esum_cons, esum_append, esum_append, q, q, hg.swap a c]
  abel

theorem clip_sum {A : Type} [AddCommGroup A] {g : ℕ → ℕ → A} (hg : Anti g) {pos : ℕ → Vec} {poly rest : List ℕ}
    {ears : List (Tri ℕ)} (h : Clip pos poly ears rest) :
    esum g (meshEdges ears) + esum g (cycPairs rest) = esum g (cycPairs poly) := by
  induction h with
  | done => simp [meshEdges]
  | stuck => simp [meshEdges]
  | cut poly i ears rest hn hi _ _ _ ih =>
    rw [cut_sum hg poly i hn hi, ← ih, esum_mesh, esum_mesh, List.map_cons, List.sum_cons]
    abel

/-- **C37** The ears together with what remains of the polygon have the boundary of the polygon. -/
theorem C37_boundary (points : List Vec) (poly : List ℕ) (ears : List (Tri ℕ)) (rest : List ℕ)
    (h : cutEars points poly = .ok (ears, rest)) :
    SameChain (meshEdges ears ++ cycPairs rest) (cycPairs poly) := by
  rw [sameChain_iff]
  intro g hg
  rw [esum_append, clip_sum hg (C38_cache_transparent points poly ears rest h)]

theorem clip_count {pos : ℕ → Vec} {poly rest : List ℕ} {ears : List (Tri ℕ)} (h : Clip pos poly ears rest) :
    ears.length + rest.length = poly.length ∧ rest.Sublist poly ∧
    (∀ t ∈ ears, t.a ∈ poly ∧ t.b ∈ poly ∧ t.c ∈ poly) ∧
    (2 ≤ poly.length → 2 ≤ rest.length) ∧
    (3 ≤ rest.length → ∀ i < rest.length, ¬ CanCut pos rest i) := by
  induction h with
  | done poly h => exact ⟨by simp, List.Sublist.refl _, by simp, id, fun h' => by omega⟩
  | stuck poly h => exact ⟨by simp, List.Sublist.refl _, by simp, id, fun _ => h⟩
  | cut poly i ears rest hn hi _ _ _ ih =>
    obtain ⟨i1, i2, i3, i4, i5⟩ := ih
    have hl : (poly.eraseIdx i).length = poly.length - 1 := by rw [List.length_eraseIdx, if_pos hi]
    have hs : (poly.eraseIdx i).Sublist poly := List.eraseIdx_sublist _ _
    have hmem : ∀ k, k < poly.length → poly.getD k 0 ∈ poly := by
      intro k hk; simp [List.getD_eq_getElem?_getD, hk]
    refine ⟨by simp; omega, i2.trans hs, ?_, fun _ => i4 (by omega), i5⟩
    intro t ht
    rw [List.mem_cons] at ht
    rcases ht with rfl | ht
    · exact ⟨hmem _ (Nat.mod_lt _ (by omega)), hmem _ hi, hmem _ (Nat.mod_lt _ (by omega))⟩
    · obtain ⟨h1, h2, h3⟩ := i3 t ht
      exact ⟨hs.subset h1, hs.subset h2, hs.subset h3⟩

/-- **C37** Each ear removes one corner. The ears' corners are corners of the polygon, at three different
places. If more than two corners remain, then none of the remaining ears can be cut. -/
theorem C37_ears (points : List Vec) (poly : List ℕ) (ears : List (Tri ℕ)) (rest : List ℕ)
    (h : cutEars points poly = .ok (ears, rest)) :
    ears.length + rest.length = poly.length ∧ rest.Sublist poly ∧ (2 ≤ poly.length → 2 ≤ rest.length) ∧
    (∀ t ∈ ears, (t.a ∈ poly ∧ t.b ∈ poly ∧ t.c ∈ poly) ∧ ¬ SamePlace (pt points t.a) (pt points t.b) ∧
      ¬ SamePlace (pt points t.b) (pt points t.c) ∧ ¬ SamePlace (pt points t.c) (pt points t.a)) ∧
    (3 ≤ rest.length → ∀ i < rest.length, ¬ CanCut (pt points) rest i) := by
  obtain ⟨h1, h2, h3, h4, h5⟩ := clip_count (C38_cache_transparent points poly ears rest h)
  obtain ⟨ts, hts, -, hap⟩ := loop_spec points _ poly _ [] rfl (coherent_init points poly) ears rest h
  rw [List.nil_append] at hts
  subst hts
  exact ⟨h1, h2, h4, fun t ht => ⟨h3 t ht, hap t ht⟩, h5⟩

theorem esum_two {P A : Type} [AddCommGroup A] {g : P → P → A} (hg : Anti g) {l : List P} (h : l.length = 2) :
    esum g (cycPairs l) = 0 := by
  match l, h with
  | [a, b], _ =>
    rw [cycPairs_cons]
    simp only [pathPairs, List.cons_append, List.nil_append, List.tail_cons, List.zip_cons_cons,
      List.zip_nil_right, esum_cons, esum_nil]
    rw [hg.swap a b]; abel

/-- **C37** The polygon of n corners is completely cut exactly if there are n - 2 ears, and then the ears
have its boundary. -/
theorem C37_complete (points : List Vec) (poly : List ℕ) (ears : List (Tri ℕ)) (rest : List ℕ)
    (hp : 2 ≤ poly.length) (h : cutEars points poly = .ok (ears, rest)) :
    (rest.length = 2 ↔ ears.length = poly.length - 2) ∧ ears.length ≤ poly.length - 2 ∧
    (ears.length = poly.length - 2 → SameChain (meshEdges ears) (cycPairs poly)) := by
  obtain ⟨h1, h2, h3, -, -⟩ := C37_ears points poly ears rest h
  have := h3 hp
  refine ⟨by omega, by omega, fun hc => ?_⟩
  rw [sameChain_iff]
  intro g hg
  rw [← clip_sum hg (C38_cache_transparent points poly ears rest h), esum_two hg (by omega : rest.length = 2),
    add_zero]

/-! ### Convex polygons -/

theorem convex_canCut {pos : ℕ → Vec} {b c : ℕ} {m : List ℕ} {a : ℕ}
    (h : ConvexWithMargin pos (b :: c :: (m ++ [a]))) : CanCut pos (b :: c :: (m ++ [a])) 0 := by
  have ha : earAt (b :: c :: (m ++ [a])) 0 = ⟨a, b, c⟩ := by
    unfold earAt
    have hl : (b :: c :: (m ++ [a])).length = m.length + 3 := by simp
    rw [hl]
    have e1 : (0 + (m.length + 3 - 1)) % (m.length + 3) = m.length + 2 := by
      rw [Nat.zero_add, Nat.mod_eq_of_lt (by omega)]; omega
    have e2 : (0 + 1) % (m.length + 3) = 1 := by rw [Nat.mod_eq_of_lt (by omega)]
    rw [e1, e2]
    simp [List.getD_eq_getElem?_getD]
  unfold CanCut
  rw [ha]
  dsimp only
  have h1 := h b c a (by simp)
  constructor
  · rw [left_rot]
    have : 0 ≤ dist2D (pos c) (pos a) := Real.sqrt_nonneg _
    nlinarith [h1.1]
  · intro j hj ja jb jc hin
    have hjm : j ∈ m := by
      simp only [List.mem_cons, List.mem_append, List.not_mem_nil, or_false] at hj
      tauto
    have h2 := h c j a (by
      refine List.Sublist.cons _ (List.Sublist.cons_cons _ ?_)
      exact List.Sublist.append (List.singleton_sublist.mpr hjm) (List.Sublist.refl [a]))
    have h3 := hin.2.2
    have e : left (pos c) (pos j) (pos a) = -left (pos c) (pos a) (pos j) := by unfold left; ring
    have hs : dist2D (pos c) (pos a) = dist2D (pos a) (pos c) := by
      unfold dist2D distSq2D; congr 1; ring
    rw [e, ← hs] at h2
    linarith [h2.2.2.2]

theorem convex_clip {pos : ℕ → Vec} : ∀ (n : ℕ) (poly : List ℕ) (ears : List (Tri ℕ)) (rest : List ℕ),
    poly.length ≤ n → ConvexWithMargin pos poly → Clip pos poly ears rest → rest.length ≤ 2
  | n, poly, ears, rest, hn, hc, h => by
    have hshape : 3 ≤ poly.length → ∃ b c m a, poly = b :: c :: (m ++ [a]) := by
      intro h3
      match poly, h3 with
      | b :: c :: w, h3 =>
        have hw : w ≠ [] := by rintro rfl; simp at h3
        exact ⟨b, c, w.dropLast, w.getLast hw, by rw [List.dropLast_append_getLast]⟩
    cases h with
    | done _ h => exact h
    | stuck _ h =>
      by_contra hcon
      obtain ⟨b, c, m, a, rfl⟩ := hshape (by omega)
      exact h 0 (by simp) (convex_canCut hc)
    | cut _ i ears rest h3 hi hcan hfirst hrec =>
      have hl : (poly.eraseIdx i).length = poly.length - 1 := by rw [List.length_eraseIdx, if_pos hi]
      match n with
      | 0 => omega
      | n + 1 =>
        exact convex_clip n (poly.eraseIdx i) ears rest (by omega)
          (fun x y z hs => hc x y z (hs.trans (List.eraseIdx_sublist _ _))) hrec

theorem sublist_grow {α : Type} {l p : List α} (h : l.Sublist p) : l.length < p.length →
    ∃ l', l'.length = l.length + 1 ∧ l.Sublist l' ∧ l'.Sublist p := by
  induction h with
  | slnil => simp
  | cons a h _ => exact fun _ => ⟨_, by simp, List.Sublist.cons a (List.Sublist.refl _), List.Sublist.cons_cons a h⟩
  | cons_cons a h ih =>
    intro hl
    obtain ⟨l', h1, h2, h3⟩ := ih (by simpa using hl)
    exact ⟨a :: l', by simp [h1], List.Sublist.cons_cons a h2, List.Sublist.cons_cons a h3⟩

theorem left_same {p q r : Vec} (h : 0 < left p q r) :
    ¬ SamePlace p q ∧ ¬ SamePlace q r ∧ ¬ SamePlace p r := by
  unfold left at h
  refine ⟨?_, ?_, ?_⟩ <;> rintro ⟨h1, h2⟩ <;> rw [h1, h2] at h <;> ring_nf at h <;> exact absurd h (lt_irrefl _)

/-- **C62** A convex polygon (with a margin for the tolerance) is always cut completely, into n - 2 ears,
without an error. -/
theorem C62_convex_complete (points : List Vec) (poly : List ℕ) (hn : 3 ≤ poly.length)
    (hc : ConvexWithMargin (pt points) poly) :
    ∃ ears rest, cutEars points poly = .ok (ears, rest) ∧ ears.length = poly.length - 2 ∧
      SameChain (meshEdges ears) (cycPairs poly) := by
  have hp : poly.Pairwise fun i j => ¬ SamePlace (pt points i) (pt points j) := by
    rw [List.pairwise_iff_forall_sublist]
    intro x y hs hsame
    obtain ⟨l', h1, h2, h3⟩ := sublist_grow hs (by simp; omega)
    match l', h1 with
    | [u, v, w], _ =>
      obtain ⟨e1, e2, e3⟩ := left_same (hc u v w h3).1
      have h2 : [x, y] ∈ [u, v, w].sublists := List.mem_sublists.mpr h2
      simp [List.sublists] at h2
      rcases h2 with ⟨rfl, rfl⟩ | ⟨rfl, rfl⟩ | ⟨rfl, rfl⟩
      · exact e1 hsame
      · exact e3 hsame
      · exact e2 hsame
  rcases h : cutEars points poly with x | ⟨ears, rest⟩
  · exact absurd hp (C38_raises points poly x h).2
  · have hr := convex_clip _ poly ears rest le_rfl hc (C38_cache_transparent points poly ears rest h)
    obtain ⟨h1, h2, h3⟩ := C37_complete points poly ears rest (by omega) h
    have := (C37_ears points poly ears rest h).1
    exact ⟨ears, rest, rfl, by omega, h3 (by omega)⟩

/-- A square is a convex polygon with a margin. -/
theorem square_convex : ConvexWithMargin (pt [⟨0, 0, 0⟩, ⟨1, 0, 0⟩, ⟨1, 1, 0⟩, ⟨0, 1, 0⟩]) [0, 1, 2, 3] := by
  have hd : ∀ p q : Vec, (p.x - q.x) ^ 2 ≤ 1 → (p.y - q.y) ^ 2 ≤ 1 → 1e-6 * dist2D p q ≤ 1 := by
    intro p q h1 h2
    have : dist2D p q ≤ 2 := by
      unfold dist2D distSq2D
      apply Real.sqrt_le_iff.mpr
      exact ⟨by norm_num, by nlinarith⟩
    linarith
  intro x y z h
  have h : [x, y, z] ∈ [0, 1, 2, 3].sublists := List.mem_sublists.mpr h
  simp [List.sublists] at h
  rcases h with ⟨rfl, rfl, rfl⟩ | ⟨rfl, rfl, rfl⟩ | ⟨rfl, rfl, rfl⟩ | ⟨rfl, rfl, rfl⟩ <;>
    refine ⟨?_, (hd _ _ ?_ ?_).trans ?_, (hd _ _ ?_ ?_).trans ?_, (hd _ _ ?_ ?_).trans ?_⟩ <;>
    norm_num [pt, left]

/-- So the square is cut into two ears. -/
example : ∃ ears rest, cutEars [⟨0, 0, 0⟩, ⟨1, 0, 0⟩, ⟨1, 1, 0⟩, ⟨0, 1, 0⟩] [0, 1, 2, 3] = .ok (ears, rest) ∧
    ears.length = 2 ∧ SameChain (meshEdges ears) (cycPairs [0, 1, 2, 3]) :=
  C62_convex_complete _ _ (by simp) square_convex

/-- A polygon with a repeated point raises. -/
example : cutEars [⟨0, 0, 0⟩, ⟨1, 1, 0⟩, ⟨0, 0, 1⟩] [0, 1, 2] = .error .zeroDivision := by
  simp [cutEars, cutLoop, scanEars, cachedEar, makeEar, pt, Vec.normalized2D, Vec.magnitude2D, List.range_succ,
    bind, Except.bind]

end Chrumm.Geo
