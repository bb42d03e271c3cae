import Verif.Props.Mesh
import Mathlib.Data.ZMod.Basic

/-! C34, C35, C61: point in polygon, collapsing, distance to an edge. -/

namespace Chrumm.Geo
open Spec Classical

/-! ### One segment -/

theorem crossesRay_iff (v a b : Vec) : crossesRay v a b = true ↔
    (a.y ≤ v.y ∧ v.y < b.y ∧ 0 < left a b v) ∨ (b.y ≤ v.y ∧ v.y < a.y ∧ left a b v < 0) := by
  unfold crossesRay left
  by_cases ha : v.y < a.y <;> by_cases hb : v.y < b.y
  · simp only [ha, hb, gt_iff_lt, decide_true, ne_eq, not_true, if_false, Bool.false_eq_true, false_iff]
    rintro (⟨h1, h2, -⟩ | ⟨h1, h2, -⟩) <;> linarith
  · have hd : b.y - a.y < 0 := by linarith
    simp only [gt_iff_lt, ha, hb, decide_true, decide_false, ne_eq, Bool.true_eq_false, not_false_eq_true,
      if_true, decide_eq_true_eq, false_and, and_false, false_or, true_and, not_lt.mp hb]
    rw [← sub_lt_iff_lt_add, lt_div_iff_of_neg hd]
    constructor <;> intro h <;> nlinarith
  · have hd : 0 < b.y - a.y := by linarith
    simp only [gt_iff_lt, ha, hb, decide_true, decide_false, ne_eq, Bool.false_eq_true, not_false_eq_true,
      if_true, decide_eq_true_eq, false_and, and_false, or_false, true_and, not_lt.mp ha]
    rw [← sub_lt_iff_lt_add, lt_div_iff₀ hd]
    constructor <;> intro h <;> nlinarith
  · simp [ha, hb]

theorem crossesRay_spec (v a b : Vec) : crossesRay v a b = true ↔ RayCross v a b := by
  rw [crossesRay_iff]
  unfold RayCross between2D left
  dsimp only
  have key : ∀ t : ℝ, a.y + t * (b.y - a.y) = v.y →
      (b.x - a.x) * (v.y - a.y) - (b.y - a.y) * (v.x - a.x) =
        (b.y - a.y) * (a.x + t * (b.x - a.x) - v.x) := by
    intro t ht; rw [← ht]; ring
  constructor
  · rintro (⟨h1, h2, h3⟩ | ⟨h1, h2, h3⟩)
    · have hd : 0 < b.y - a.y := by linarith
      have ht : a.y + (v.y - a.y) / (b.y - a.y) * (b.y - a.y) = v.y := by field_simp; ring
      refine ⟨.inr ⟨by linarith, h2⟩, (v.y - a.y) / (b.y - a.y), div_nonneg (by linarith) hd.le,
        (div_le_one hd).mpr (by linarith), ht, ?_⟩
      rw [key _ ht] at h3
      have := (mul_pos_iff_of_pos_left hd).mp h3
      linarith
    · have hd : b.y - a.y < 0 := by linarith
      have hd' := hd.ne
      have ht : a.y + (v.y - a.y) / (b.y - a.y) * (b.y - a.y) = v.y := by field_simp; ring
      refine ⟨.inl ⟨h2, by linarith⟩, (v.y - a.y) / (b.y - a.y),
        div_nonneg_of_nonpos (by linarith) hd.le, (div_le_one_of_neg hd).mpr (by linarith), ht, ?_⟩
      rw [key _ ht] at h3
      have := (mul_neg_iff.mp h3).resolve_left (by rintro ⟨h, -⟩; linarith)
      linarith [this.2]
  · rintro ⟨h, t, -, -, ht, hx⟩
    rw [key t ht]
    rcases h with ⟨h1, h2⟩ | ⟨h1, h2⟩
    · exact .inr ⟨by linarith, h1, mul_neg_of_neg_of_pos (by linarith) (by linarith)⟩
    · exact .inl ⟨by linarith, h2, mul_pos (by linarith) (by linarith)⟩

theorem crossesRay_swap (v a b : Vec) : crossesRay v a b = crossesRay v b a := by
  rw [Bool.eq_iff_iff, crossesRay_iff, crossesRay_iff, left_swap a b]
  constructor <;> rintro (⟨h1, h2, h3⟩ | ⟨h1, h2, h3⟩)
  · exact .inr ⟨h1, h2, by linarith⟩
  · exact .inl ⟨h1, h2, by linarith⟩
  · exact .inr ⟨h1, h2, by linarith⟩
  · exact .inl ⟨h1, h2, by linarith⟩

theorem crossesRay_self (v a : Vec) : crossesRay v a a = false := by
  rw [← Bool.not_eq_true, crossesRay_iff]
  rintro (⟨h1, h2, -⟩ | ⟨h1, h2, -⟩) <;> linarith

/-! ### Parity -/

/-- A truth value as parity. -/
def par (b : Bool) : ZMod 2 := if b then 1 else 0

theorem par_inj {a b : Bool} (h : par a = par b) : a = b := by
  cases a <;> cases b <;> simp [par] at h ⊢

theorem par_xor (a b : Bool) : par (xor a b) = par a + par b := by
  cases a <;> cases b <;> simp [par]; rfl

theorem neg_self2 (x : ZMod 2) : -x = x := ZMod.neg_eq_self_mod_two x

theorem crossAnti (v : Vec) : Anti fun a b => par (crossesRay v a b) :=
  ⟨fun x y => by rw [neg_self2, crossesRay_swap], fun x => by rw [crossesRay_self]; rfl⟩

theorem fold_par {α : Type} (f : α → Bool) : ∀ (l : List α) (b : Bool),
    par (l.foldl (fun s x => if f x then !s else s) b) = par b + (l.map fun x => par (f x)).sum
  | [], b => by simp
  | x :: l, b => by
    rw [List.foldl_cons, fold_par f l, List.map_cons, List.sum_cons, ← add_assoc]
    congr 1
    cases f x <;> cases b <;> simp [par]; rfl

theorem sum_par {α : Type} (f : α → Bool) (l : List α) :
    (l.map fun x => par (f x)).sum = par (decide (Odd (l.countP f))) := by
  induction l with
  | nil => simp [par]
  | cons x l ih =>
    rw [List.map_cons, List.sum_cons, ih, List.countP_cons]
    cases hf : f x
    · simp [par]
    · by_cases ho : Odd (l.countP f) <;> simp [par, ho, Nat.odd_add_one]; rfl

theorem inside_pairs (x : Vec) (t : List Vec) :
    ((List.range (x :: t).length).map fun i =>
      ((x :: t).getD ((i + (x :: t).length - 1) % (x :: t).length) 0, (x :: t).getD i 0)) =
    ((x :: t).getD t.length 0, x) :: pathPairs (x :: t) := by
  rw [List.length_cons, List.range_succ_eq_map, List.map_cons, List.map_map]
  congr 1
  · have : (0 + (t.length + 1) - 1) % (t.length + 1) = t.length := by
      rw [Nat.zero_add, Nat.add_sub_cancel, Nat.mod_eq_of_lt (by omega)]
    rw [this]; rfl
  · unfold pathPairs
    apply List.ext_getElem
    · simp
    · intro i h1 h2
      have hi : i < t.length := by simpa using h1
      have : (i + 1 + (t.length + 1) - 1) % (t.length + 1) = i := by
        rw [show i + 1 + (t.length + 1) - 1 = i + (t.length + 1) by omega, Nat.add_mod_right,
          Nat.mod_eq_of_lt (by omega)]
      simp only [List.getElem_map, List.getElem_range, Function.comp, List.getElem_zip, List.tail_cons,
        Nat.succ_eq_add_one, this]
      have e1 : i < (x :: t).length := by simp; omega
      have e2 : i + 1 < (x :: t).length := by simp; omega
      simp only [List.getD_eq_getElem?_getD, List.getElem?_eq_getElem e1, List.getElem?_eq_getElem e2]
      rfl

theorem pathPairs_snoc (x y : Vec) : ∀ t : List Vec,
    pathPairs (x :: t ++ [y]) = pathPairs (x :: t) ++ [((x :: t).getD t.length 0, y)] := by
  intro t
  induction t generalizing x with
  | nil => rfl
  | cons b t ih =>
    have : pathPairs (x :: (b :: t) ++ [y]) = (x, b) :: pathPairs (b :: t ++ [y]) := rfl
    rw [this, ih b]; rfl

/-- The code computes the parity of the crossings. -/
theorem contains_par (e : List Vec) (v : Vec) :
    par (contains2D e v) = esum (fun a b => par (crossesRay v a b)) (cycPairs e) := by
  cases e with
  | nil => simp [contains2D, cycPairs, par]
  | cons x t =>
    have h := fold_par (fun i => crossesRay v
      ((x :: t).getD ((i + (x :: t).length - 1) % (x :: t).length) 0) ((x :: t).getD i 0))
      (List.range (x :: t).length) false
    have h' : par (contains2D (x :: t) v) = _ := h
    rw [h']
    have h2 := congrArg (esum fun a b => par (crossesRay v a b)) (inside_pairs x t)
    rw [cycPairs_cons, pathPairs_snoc, esum_perm (List.perm_append_comm), List.singleton_append, ← h2]
    simp only [par, Bool.false_eq_true, if_false, zero_add, esum, List.map_map]
    rfl

theorem contains_of_chain {es fs : List Vec} {v : Vec} (h : SameChain (cycPairs es) (cycPairs fs)) :
    contains2D es v = contains2D fs v :=
  par_inj (by rw [contains_par, contains_par, esum_congr (crossAnti v) h])

/-! ### The properties -/

/-- **C34** `contains2D` is the even-odd rule: an odd number of sides crosses the ray to the right. -/
theorem C34_even_odd (e : List Vec) (v : Vec) :
    contains2D e v = true ↔ Odd ((cycPairs e).countP fun s => decide (RayCross v s.1 s.2)) := by
  have h : par (contains2D e v) = par (decide (Odd ((cycPairs e).countP fun s => crossesRay v s.1 s.2))) := by
    rw [contains_par, ← sum_par]; rfl
  rw [par_inj h, decide_eq_true_eq]
  have : (fun s : Vec × Vec => crossesRay v s.1 s.2) = fun s => decide (RayCross v s.1 s.2) := by
    funext s; rw [Bool.eq_iff_iff, crossesRay_spec, decide_eq_true_eq]
  rw [this]

theorem cycPairs_rotate {α : Type} (e : List α) (k : ℕ) : cycPairs (e.rotate k) = (cycPairs e).rotate k := by
  unfold cycPairs
  rw [List.rotate_rotate, Nat.add_comm k 1, ← List.rotate_rotate]
  have := List.zipWith_rotate_distrib Prod.mk e (e.rotate 1) k (by simp)
  simpa [List.zip] using this.symm

/-- **C34** It does not depend on where the polygon starts. -/
theorem C34_start (e : List Vec) (k : ℕ) (v : Vec) : contains2D (e.rotate k) v = contains2D e v := by
  apply par_inj
  rw [contains_par, contains_par, cycPairs_rotate]
  exact esum_perm (List.rotate_perm _ _)

theorem pathPairs_reverse {α : Type} : ∀ (l : List α),
    (pathPairs l.reverse).Perm (flipEdges (pathPairs l))
  | [] => .nil
  | [_] => .nil
  | a :: b :: l => by
    have h1 : pathPairs (a :: b :: l) = (a, b) :: pathPairs (b :: l) := rfl
    have h2 : ∀ (m : List α), pathPairs (m ++ [b, a]) = pathPairs (m ++ [b]) ++ [(b, a)] := by
      intro m
      induction m with
      | nil => rfl
      | cons x m ih => cases m with
        | nil => rfl
        | cons y m =>
          have : ∀ r, pathPairs (x :: y :: m ++ r) = (x, y) :: pathPairs (y :: m ++ r) := fun _ => rfl
          rw [this, this, ih]; rfl
    rw [List.reverse_cons, List.reverse_cons, List.append_assoc]
    show (pathPairs (l.reverse ++ [b, a])).Perm _
    rw [h2, h1, ← List.reverse_cons]
    refine (List.perm_append_comm).trans ?_
    exact (pathPairs_reverse (b :: l)).cons (b, a)

theorem cycPairs_reverse {α : Type} (e : List α) : (cycPairs e.reverse).Perm (flipEdges (cycPairs e)) := by
  cases e with
  | nil => exact .nil
  | cons x t =>
    have h1 : (x :: t).reverse = (x :: t.reverse).rotate 1 := by simp
    rw [h1, cycPairs_rotate, cycPairs_cons, cycPairs_cons]
    refine (List.rotate_perm _ _).trans ?_
    have h2 : x :: t.reverse ++ [x] = (x :: t ++ [x]).reverse := by simp
    rw [h2]
    exact pathPairs_reverse _

/-- **C34** It does not depend on the direction of the polygon. -/
theorem C34_direction (e : List Vec) (v : Vec) : contains2D e.reverse v = contains2D e v := by
  apply par_inj
  rw [contains_par, contains_par, esum_perm (cycPairs_reverse e), esum_flip (crossAnti v), neg_self2]

/-- **C34** Gluing: if the sides of two polygons are, up to sides used in both directions, those of a
third one, then that one contains the points that exactly one of the two contains. -/
theorem C34_glue (p q r : List Vec) (v : Vec) (h : SameChain (cycPairs r) (cycPairs p ++ cycPairs q)) :
    contains2D r v = xor (contains2D p v) (contains2D q v) := by
  apply par_inj
  rw [par_xor, contains_par, contains_par, contains_par, esum_congr (crossAnti v) h, esum_append]

theorem tri_par (t : Tri Vec) (v : Vec) :
    par (contains2D [t.a, t.b, t.c] v) = tsum (fun a b => par (crossesRay v a b)) t := by
  rw [contains_par]; simp [cycPairs, tsum, List.rotate, add_assoc]

/-- **C34** For a triangulated polygon, a point is contained iff an odd number of triangles contains it. -/
theorem C34_triangulated (e : List Vec) (ts : List (Tri Vec)) (v : Vec)
    (h : SameChain (meshEdges ts) (cycPairs e)) :
    contains2D e v = true ↔ Odd (ts.countP fun t => contains2D [t.a, t.b, t.c] v) := by
  have hp : par (contains2D e v) = par (decide (Odd (ts.countP fun t => contains2D [t.a, t.b, t.c] v))) := by
    rw [contains_par, ← esum_congr (crossAnti v) h, esum_mesh, ← sum_par]
    congr 2
    funext t
    exact (tri_par t v).symm
  rw [par_inj hp, decide_eq_true_eq]

/-! ### Triangles -/

theorem left_sum (a b c v : Vec) : left a b v + left b c v + left c a v = left a b c := by
  unfold left; ring

theorem left_height (a b c v : Vec) :
    left a b v * (c.y - v.y) + left b c v * (a.y - v.y) + left c a v * (b.y - v.y) = 0 := by
  unfold left; ring

/-- A linear function at a point is its barycentric mean at the corners. -/
theorem left_bary (p q a b c v : Vec) :
    left a b c * left p q v =
      left b c v * left p q a + left c a v * left p q b + left a b v * left p q c := by
  unfold left; ring

theorem contains_tri (a b c v : Vec) : contains2D [a, b, c] v =
    xor (xor (crossesRay v a b) (crossesRay v b c)) (crossesRay v c a) := by
  apply par_inj
  rw [tri_par ⟨a, b, c⟩ v, par_xor, par_xor]; rfl

theorem tri_inside {a b c v : Vec} (h1 : 0 < left a b v) (h2 : 0 < left b c v) (h3 : 0 < left c a v) :
    contains2D [a, b, c] v = true := by
  have hi := left_height a b c v
  have e : ∀ p q : Vec, 0 < left p q v → crossesRay v p q = (decide (p.y ≤ v.y) && decide (v.y < q.y)) := by
    intro p q h
    rw [Bool.eq_iff_iff, crossesRay_iff]
    simp only [h, not_lt.mpr h.le, and_true, and_false, or_false, Bool.and_eq_true, decide_eq_true_eq]
  rw [contains_tri, e _ _ h1, e _ _ h2, e _ _ h3]
  by_cases ha : v.y < a.y <;> by_cases hb : v.y < b.y <;> by_cases hc : v.y < c.y <;>
    simp only [ha, hb, hc, not_le.mpr, not_lt.mp, decide_true, decide_false, Bool.and_true, Bool.and_false,
      Bool.true_and, Bool.false_and, not_false_eq_true, Bool.xor_false, Bool.xor_true, Bool.not_false] <;> exfalso
  · nlinarith [mul_pos h1 (sub_pos.mpr hc), mul_pos h2 (sub_pos.mpr ha), mul_pos h3 (sub_pos.mpr hb)]
  · rw [not_lt] at ha hb hc
    have k1 := mul_nonneg h1.le (sub_nonneg.mpr hc)
    have k2 := mul_nonneg h2.le (sub_nonneg.mpr ha)
    have k3 := mul_nonneg h3.le (sub_nonneg.mpr hb)
    have z2 : left b c v * (v.y - a.y) = 0 := by linarith
    have z3 : left c a v * (v.y - b.y) = 0 := by linarith
    have y2 := (mul_eq_zero.mp z2).resolve_left h2.ne'
    have y3 := (mul_eq_zero.mp z3).resolve_left h3.ne'
    have : left a b v = 0 := by
      unfold left
      rw [show v.y - a.y = 0 by linarith, show b.y - a.y = 0 by linarith]; ring
    linarith

theorem cross_same {p q v : Vec} (h : v.y < p.y ↔ v.y < q.y) : crossesRay v p q = false := by
  rw [← Bool.not_eq_true, crossesRay_iff]
  rintro (⟨h1, h2, -⟩ | ⟨h1, h2, -⟩)
  · exact absurd (h.mpr h2) (not_lt.mpr h1)
  · exact absurd (h.mp h2) (not_lt.mpr h1)

theorem cross_up {p q v : Vec} (h1 : ¬ v.y < p.y) (h2 : v.y < q.y) :
    crossesRay v p q = decide (0 < left p q v) := by
  rw [Bool.eq_iff_iff, crossesRay_iff, decide_eq_true_eq]
  simp [h1, h2, not_lt.mp h1]

theorem cross_down {p q v : Vec} (h1 : v.y < p.y) (h2 : ¬ v.y < q.y) :
    crossesRay v p q = decide (left p q v < 0) := by
  rw [Bool.eq_iff_iff, crossesRay_iff, decide_eq_true_eq]
  simp [h1, h2, not_lt.mp h2]

theorem tri_outside {a b c v : Vec} (hS : 0 < left a b c) (h1 : left a b v < 0) :
    contains2D [a, b, c] v = false := by
  have hi := left_height a b c v
  have hs := left_sum a b c v
  rw [contains_tri]
  generalize left a b c = S at *
  by_cases ha : v.y < a.y <;> by_cases hb : v.y < b.y <;> by_cases hc : v.y < c.y
  · rw [cross_same (by tauto), cross_same (by tauto), cross_same (by tauto)]; rfl
  · rw [cross_same (by tauto), cross_down hb hc, cross_up hc ha]
    generalize left a b v = o1 at *; generalize left b c v = o2 at *; generalize left c a v = o3 at *
    by_cases h2 : o2 < 0
    · have h3 : 0 < o3 := by linarith
      simp [h2, h3]
    · have h3 : ¬ 0 < o3 := by
        intro h3
        nlinarith [mul_nonneg_of_nonpos_of_nonpos h1.le (sub_nonpos.mpr (not_lt.mp hc)),
          mul_nonneg (not_lt.mp h2) (sub_pos.mpr ha).le, mul_pos h3 (sub_pos.mpr hb)]
      simp [h2, h3]
  · rw [cross_down ha hb, cross_up hb hc, cross_same (p := c) (by tauto)]
    generalize left a b v = o1 at *; generalize left b c v = o2 at *; generalize left c a v = o3 at *
    have h2 : 0 < o2 := by
      by_contra h2
      have h3 : 0 < o3 := by linarith
      nlinarith [mul_neg_of_neg_of_pos h1 (sub_pos.mpr hc),
        mul_nonpos_of_nonpos_of_nonneg (not_lt.mp h2) (sub_pos.mpr ha).le,
        mul_nonpos_of_nonneg_of_nonpos h3.le (sub_nonpos.mpr (not_lt.mp hb))]
    simp [h1, h2]
  · rw [cross_down ha hb, cross_same (p := b) (by tauto), cross_up hc ha]
    generalize left a b v = o1 at *; generalize left b c v = o2 at *; generalize left c a v = o3 at *
    have h3 : 0 < o3 := by
      by_contra h3
      have h2 : 0 < o2 := by linarith
      nlinarith [mul_nonneg_of_nonpos_of_nonpos h1.le (sub_nonpos.mpr (not_lt.mp hc)),
        mul_pos h2 (sub_pos.mpr ha),
        mul_nonneg_of_nonpos_of_nonpos (not_lt.mp h3) (sub_nonpos.mpr (not_lt.mp hb))]
    simp [h1, h3]
  · rw [cross_up ha hb, cross_same (p := b) (by tauto), cross_down hc ha]
    generalize left a b v = o1 at *; generalize left b c v = o2 at *; generalize left c a v = o3 at *
    have h3 : ¬ o3 < 0 := by
      intro h3
      have h2 : 0 < o2 := by linarith
      nlinarith [mul_neg_of_neg_of_pos h1 (sub_pos.mpr hc),
        mul_nonpos_of_nonneg_of_nonpos h2.le (sub_nonpos.mpr (not_lt.mp ha)),
        mul_neg_of_neg_of_pos h3 (sub_pos.mpr hb)]
    simp [not_lt.mpr h1.le, h3]
  · rw [cross_up ha hb, cross_down hb hc, cross_same (p := c) (by tauto)]
    generalize left a b v = o1 at *; generalize left b c v = o2 at *; generalize left c a v = o3 at *
    have h2 : ¬ o2 < 0 := by
      intro h2
      have h3 : 0 < o3 := by linarith
      nlinarith [mul_nonneg_of_nonpos_of_nonpos h1.le (sub_nonpos.mpr (not_lt.mp hc)),
        mul_nonneg_of_nonpos_of_nonpos h2.le (sub_nonpos.mpr (not_lt.mp ha)),
        mul_pos h3 (sub_pos.mpr hb)]
    simp [not_lt.mpr h1.le, h2]
  · rw [cross_same (by tauto), cross_up hb hc, cross_down hc ha]
    generalize left a b v = o1 at *; generalize left b c v = o2 at *; generalize left c a v = o3 at *
    by_cases h2 : 0 < o2
    · have h3 : o3 < 0 := by
        by_contra h3
        nlinarith [mul_neg_of_neg_of_pos h1 (sub_pos.mpr hc),
          mul_nonpos_of_nonneg_of_nonpos h2.le (sub_nonpos.mpr (not_lt.mp ha)),
          mul_nonpos_of_nonneg_of_nonpos (not_lt.mp h3) (sub_nonpos.mpr (not_lt.mp hb))]
      simp [h2, h3]
    · have h3 : ¬ o3 < 0 := by linarith
      simp [h2, h3]
  · rw [cross_same (by tauto), cross_same (by tauto), cross_same (by tauto)]; rfl

theorem contains_rot (a b c v : Vec) : contains2D [a, b, c] v = contains2D [b, c, a] v :=
  (C34_start [a, b, c] 1 v).symm

theorem tri_weak {a b c v : Vec} (hS : 0 < left a b c) (h : contains2D [a, b, c] v = true) :
    0 ≤ left a b v ∧ 0 ≤ left b c v ∧ 0 ≤ left c a v := by
  refine ⟨?_, ?_, ?_⟩ <;> by_contra hn <;> rw [not_le] at hn
  · rw [tri_outside hS hn] at h; cases h
  · rw [contains_rot, tri_outside (by rw [left_rot] at hS; exact hS) hn] at h; cases h
  · rw [contains_rot, contains_rot, tri_outside (by rw [left_rot, left_rot] at hS; exact hS) hn] at h; cases h

/-- A side belongs to the triangle if it is on its left, or bottom. -/
def LowSide (a b : Vec) : Prop := b.y < a.y ∨ (a.y = b.y ∧ a.x < b.x)

theorem tri_side {a b c v : Vec} (h1 : left a b v = 0) (h2 : 0 < left b c v) (h3 : 0 < left c a v) :
    contains2D [a, b, c] v = decide (LowSide a b) := by
  have hi := left_height a b c v
  have hs := left_sum a b c v
  rw [h1, zero_mul, zero_add] at hi
  rw [h1, zero_add] at hs
  have hab : crossesRay v a b = false := by
    rw [← Bool.not_eq_true, crossesRay_iff, h1]; simp
  rw [contains_tri, hab]
  rcases lt_trichotomy a.y v.y with ha | ha | ha
  · have hb : v.y < b.y := by
      by_contra hb
      nlinarith [mul_neg_of_pos_of_neg h2 (sub_neg.mpr ha),
        mul_nonpos_of_nonneg_of_nonpos h3.le (sub_nonpos.mpr (not_lt.mp hb))]
    have hl : ¬ LowSide a b := by rintro (h | ⟨h, -⟩) <;> linarith
    have ha' : ¬ v.y < a.y := by linarith
    by_cases hc : v.y < c.y
    · rw [cross_same (by tauto), cross_down hc ha']; simp [hl, not_lt.mpr h3.le]
    · rw [cross_down hb hc, cross_same (by tauto)]; simp [hl, not_lt.mpr h2.le]
  · have hb : b.y = v.y := by
      have : left c a v * (b.y - v.y) = 0 := by rw [ha] at hi; linarith
      linarith [(mul_eq_zero.mp this).resolve_left h3.ne']
    have hb' : ¬ v.y < b.y := by linarith
    have ha' : ¬ v.y < a.y := by linarith
    have hS : 0 < (b.x - a.x) * (c.y - v.y) := by
      have : 0 < left a b c := by linarith
      unfold left at this
      rw [ha, hb] at this
      linarith
    by_cases hc : v.y < c.y
    · rw [cross_up hb' hc, cross_down hc ha']
      have : LowSide a b := .inr ⟨by rw [ha, hb], by
        have := (mul_pos_iff_of_pos_right (sub_pos.mpr hc)).mp hS; linarith⟩
      simp [this, h2, not_lt.mpr h3.le]
    · rw [cross_same (by tauto), cross_same (by tauto)]
      have : ¬ LowSide a b := by
        rintro (h | ⟨-, h⟩)
        · linarith
        · nlinarith [mul_nonneg (sub_pos.mpr h).le (sub_nonneg.mpr (not_lt.mp hc))]
      simp [this]
  · have hb : ¬ v.y < b.y := by
      intro hb
      nlinarith [mul_pos h2 (sub_pos.mpr ha), mul_pos h3 (sub_pos.mpr hb)]
    have hb2 : b.y ≠ a.y := by rintro h; rw [h] at hb; exact hb ha
    have hl : LowSide a b := .inl (by linarith)
    by_cases hc : v.y < c.y
    · rw [cross_up hb hc, cross_same (by tauto)]; simp [hl, h2]
    · rw [cross_same (by tauto), cross_up hc ha]; simp [hl, h3]

/-- **C34** A triangle contains the points inside of it, whatever its direction. -/
theorem C34_triangle_inside (a b c v : Vec)
    (h : (0 < left a b v ∧ 0 < left b c v ∧ 0 < left c a v) ∨
      (left a b v < 0 ∧ left b c v < 0 ∧ left c a v < 0)) : contains2D [a, b, c] v = true := by
  rcases h with ⟨h1, h2, h3⟩ | ⟨h1, h2, h3⟩
  · exact tri_inside h1 h2 h3
  · rw [← C34_direction]
    exact tri_inside (by rw [left_swap]; linarith) (by rw [left_swap]; linarith) (by rw [left_swap]; linarith)

/-- **C34** A triangle does not contain the points outside of it. -/
theorem C34_triangle_outside (a b c v : Vec)
    (h : (0 < left a b c ∧ (left a b v < 0 ∨ left b c v < 0 ∨ left c a v < 0)) ∨
      (left a b c < 0 ∧ (0 < left a b v ∨ 0 < left b c v ∨ 0 < left c a v))) :
    contains2D [a, b, c] v = false := by
  rw [← Bool.not_eq_true]
  intro hc
  rcases h with ⟨hS, h⟩ | ⟨hS, h⟩
  · have := tri_weak hS hc
    rcases h with h | h | h <;> linarith
  · rw [← C34_direction] at hc
    have := tri_weak (a := c) (b := b) (c := a) (by rw [left_swap, left_rot, left_rot]; linarith) hc
    rw [left_swap c b, left_swap b a, left_swap a c] at this
    rcases h with h | h | h <;> linarith

/-! ### Convex polygons -/

theorem cycPairs3 (p q r : Vec) (l : List Vec) :
    cycPairs (p :: q :: r :: l) = (p, q) :: (q, r) :: pathPairs (r :: l ++ [p]) := by
  rw [cycPairs_cons]; rfl

theorem cycPairs2 (p r : Vec) (l : List Vec) :
    cycPairs (p :: r :: l) = (p, r) :: pathPairs (r :: l ++ [p]) := by
  rw [cycPairs_cons]; rfl

theorem peel (p q r : Vec) (l : List Vec) (v : Vec) :
    contains2D (p :: q :: r :: l) v = xor (contains2D [p, q, r] v) (contains2D (p :: r :: l) v) := by
  apply C34_glue
  rw [sameChain_iff]
  intro g hg
  rw [cycPairs3 p q r l, cycPairs3 p q r [], cycPairs2 p r l, esum_append]
  simp only [esum_cons]
  have : esum g (pathPairs ([r] ++ [p])) = g r p := by simp [pathPairs]
  rw [this, hg.swap r p]; ring

theorem cycPairs_start {e : List Vec} {c : Vec} (h : c ∈ e) : ∃ d, (c, d) ∈ cycPairs e := by
  obtain ⟨i, hi, rfl⟩ := List.mem_iff_getElem.mp h
  refine ⟨(e.rotate 1)[i]'(by simpa using hi), ?_⟩
  unfold cycPairs
  rw [List.mem_iff_getElem]
  exact ⟨i, by simpa using hi, by simp⟩

/-- In a convex polygon, the other corners are strictly to the left of a short diagonal. -/
theorem diagonal {p q r c : Vec} {l : List Vec} (h : ConvexPolygon (p :: q :: r :: l)) (hc : c ∈ l) :
    0 < left p r c := by
  obtain ⟨-, hnd, hl⟩ := h
  have hp : p ≠ q ∧ p ≠ r ∧ p ∉ l ∧ q ≠ r ∧ q ∉ l ∧ r ∉ l := by
    simp only [List.nodup_cons, List.mem_cons, not_or] at hnd; tauto
  obtain ⟨n1, n2, n3, n4, n5, n6⟩ := hp
  have cp : c ≠ p := by rintro rfl; exact n3 hc
  have cq : c ≠ q := by rintro rfl; exact n5 hc
  have cr : c ≠ r := by rintro rfl; exact n6 hc
  have hce : c ∈ p :: q :: r :: l := by simp [hc]
  have o1 := hl (p, q) (by rw [cycPairs3]; simp) c hce cp cq
  have o2 := hl (q, r) (by rw [cycPairs3]; simp) c hce cq cr
  have hS := hl (p, q) (by rw [cycPairs3]; simp) r (by simp) n2.symm n4.symm
  dsimp only at o1 o2 hS
  by_contra hn
  have o3 : 0 ≤ left r p c := by rw [left_swap]; linarith
  obtain ⟨d, hd⟩ := cycPairs_start hce
  have key := left_bary c d p q r c
  rw [left_self1, mul_zero] at key
  have lp : p ≠ d → 0 < left c d p := fun hd' => hl _ hd p (by simp) cp.symm hd'
  have lq : q ≠ d → 0 < left c d q := fun hd' => hl _ hd q (by simp) cq.symm hd'
  have lr : r ≠ d → 0 < left c d r := fun hd' => hl _ hd r (by simp) cr.symm hd'
  have z : ∀ x, (x ≠ d → 0 < left c d x) → 0 ≤ left c d x := by
    intro x hx
    by_cases e : x = d
    · rw [e, left_self2]
    · exact (hx e).le
  by_cases e : p = d
  · have := lr (by rw [← e]; exact n2.symm)
    nlinarith [mul_nonneg o2.le (z p lp), mul_nonneg o3 (z q lq), mul_pos o1 this]
  · have := lp e
    nlinarith [mul_pos o2 this, mul_nonneg o3 (z q lq), mul_nonneg o1.le (z r lr)]

theorem Spec.ConvexPolygon.peel {p q r c : Vec} {l : List Vec} (h : ConvexPolygon (p :: q :: r :: c :: l)) :
    ConvexPolygon (p :: r :: c :: l) := by
  refine ⟨by simp, ?_, ?_⟩
  · exact h.2.1.sublist (by simp)
  · intro s hs x hx x1 x2
    rw [cycPairs2, List.mem_cons] at hs
    rcases hs with rfl | hs
    · simp only [List.mem_cons] at hx
      rcases hx with rfl | rfl | hx
      · exact absurd rfl x1
      · exact absurd rfl x2
      · exact diagonal h (List.mem_cons.mpr hx)
    · refine h.2.2 s (by rw [cycPairs3]; exact .tail _ (.tail _ hs)) x ?_ x1 x2
      simp only [List.mem_cons] at hx ⊢; tauto

theorem Spec.ConvexPolygon.tri {p q r : Vec} {l : List Vec} (h : ConvexPolygon (p :: q :: r :: l)) :
    0 < left p q r := by
  have hnd := h.2.1
  simp only [List.nodup_cons, List.mem_cons, not_or] at hnd
  exact h.2.2 (p, q) (by rw [cycPairs3]; simp) r (by simp) (fun e => hnd.1.2.1 e.symm) (fun e => hnd.2.1.1 e.symm)

/-- What a convex polygon contains is in every half plane that contains its corners. -/
theorem convex_weak (a b v : Vec) : ∀ (l : List Vec) (p q r : Vec), ConvexPolygon (p :: q :: r :: l) →
    contains2D (p :: q :: r :: l) v = true → (∀ x ∈ p :: q :: r :: l, 0 ≤ left a b x) → 0 ≤ left a b v := by
  have tri : ∀ p q r : Vec, 0 < left p q r → contains2D [p, q, r] v = true → 0 ≤ left a b p →
      0 ≤ left a b q → 0 ≤ left a b r → 0 ≤ left a b v := by
    intro p q r hS hc hp hq hr
    obtain ⟨w1, w2, w3⟩ := tri_weak hS hc
    have key := left_bary a b p q r v
    have : 0 ≤ left p q r * left a b v := by rw [key]; positivity
    exact nonneg_of_mul_nonneg_right this hS
  intro l
  induction l with
  | nil =>
    intro p q r hcv hc hx
    exact tri p q r hcv.tri hc (hx p (by simp)) (hx q (by simp)) (hx r (by simp))
  | cons c l ih =>
    intro p q r hcv hc hx
    rw [Chrumm.Geo.peel] at hc
    by_cases ht : contains2D [p, q, r] v = true
    · exact tri p q r hcv.tri ht (hx p (by simp)) (hx q (by simp)) (hx r (by simp))
    · rw [Bool.not_eq_true] at ht
      rw [ht, Bool.false_xor] at hc
      refine ih p r c hcv.peel hc ?_
      intro x hx'
      apply hx
      simp only [List.mem_cons] at hx' ⊢; tauto

/-- A point on the first side, and inside of all others. -/
theorem convex_side {p q r : Vec} {l : List Vec} {v : Vec} (h : ConvexPolygon (p :: q :: r :: l))
    (h1 : left p q v = 0) (hin : ∀ s ∈ (q, r) :: pathPairs (r :: l ++ [p]), 0 < left s.1 s.2 v) :
    contains2D (p :: q :: r :: l) v = decide (LowSide p q) := by
  cases l with
  | nil => exact tri_side h1 (hin (q, r) (by simp)) (hin (r, p) (by simp [pathPairs]))
  | cons c l =>
    obtain ⟨z, hz⟩ : ∃ z, (z, p) ∈ pathPairs (r :: c :: l ++ [p]) := by
      rw [pathPairs_snoc]; exact ⟨_, List.mem_append_right _ List.mem_cons_self⟩
    have hzp := hin (z, p) (.tail _ hz)
    have hnd := h.2.1
    have hze : (z, p) ∈ cycPairs (p :: q :: r :: c :: l) := by rw [cycPairs3]; exact .tail _ (.tail _ hz)
    have hrp : r ≠ p := by
      intro e; rw [e] at hnd; simp at hnd
    have hqp : q ≠ p := by
      intro e; rw [e] at hnd; simp at hnd
    have hqz : q ≠ z := by
      rintro rfl
      obtain ⟨m, n, hmn⟩ := mem_pathPairs.mp hz
      have : q ∈ r :: c :: l ++ [p] := by rw [hmn]; simp
      simp only [List.nodup_cons, List.mem_cons, not_or] at hnd
      simp only [List.cons_append, List.mem_cons, List.mem_append, List.not_mem_nil, or_false] at this
      tauto
    have hz1 := h.2.2 _ hze q (by simp) hqz hqp
    dsimp only at hzp hz1
    have htri := h.tri
    -- v is on the ray from p to q
    have hpr : 0 < left r p v := by
      have key : left z p v * left r p q - left r p v * left z p q = -left p q v * left p z r := by
        unfold left; ring
      rw [h1] at key
      have hrpq : 0 < left r p q := by rw [left_rot]; exact htri
      have : 0 < left r p v * left z p q := by nlinarith [mul_pos hzp hrpq]
      exact (mul_pos_iff_of_pos_right hz1).mp this
    rw [Chrumm.Geo.peel, tri_side h1 (hin (q, r) (by simp)) hpr]
    have : contains2D (p :: r :: c :: l) v = false := by
      rw [← Bool.not_eq_true]
      intro hc
      have := convex_weak p r v l p r c h.peel hc (by
        intro x hx
        simp only [List.mem_cons] at hx
        rcases hx with rfl | rfl | hx
        · rw [left_self1]
        · rw [left_self2]
        · exact (diagonal h (List.mem_cons.mpr hx)).le)
      rw [left_swap] at this
      linarith
    rw [this, Bool.xor_false]

theorem convex_inside (v : Vec) : ∀ (l : List Vec) (p q r : Vec), ConvexPolygon (p :: q :: r :: l) →
    (∀ s ∈ cycPairs (p :: q :: r :: l), 0 < left s.1 s.2 v) → contains2D (p :: q :: r :: l) v = true := by
  intro l
  induction l with
  | nil =>
    intro p q r _ hin
    exact tri_inside (hin (p, q) (by rw [cycPairs3]; simp)) (hin (q, r) (by rw [cycPairs3]; simp))
      (hin (r, p) (by rw [cycPairs3]; simp [pathPairs]))
  | cons c l ih =>
    intro p q r h hin
    rw [cycPairs3] at hin
    have h1 : 0 < left p q v := hin (p, q) (by simp)
    have h2 : 0 < left q r v := hin (q, r) (by simp)
    have h3 : ∀ s ∈ pathPairs (r :: c :: l ++ [p]), 0 < left s.1 s.2 v := fun s hs => hin s (.tail _ (.tail _ hs))
    rw [Chrumm.Geo.peel]
    rcases lt_trichotomy (left p r v) 0 with hd | hd | hd
    · rw [tri_inside h1 h2 (by rw [left_swap]; linarith)]
      have : contains2D (p :: r :: c :: l) v = false := by
        rw [← Bool.not_eq_true]
        intro hc
        have := convex_weak p r v l p r c h.peel hc (by
          intro x hx
          simp only [List.mem_cons] at hx
          rcases hx with rfl | rfl | hx
          · rw [left_self1]
          · rw [left_self2]
          · exact (diagonal h (List.mem_cons.mpr hx)).le)
        linarith
      rw [this]; rfl
    · have hside := convex_side h.peel hd (by
        intro s hs
        exact h3 s hs)
      have htri : contains2D [r, p, q] v = decide (LowSide r p) :=
        tri_side (by rw [left_swap, hd, neg_zero]) h1 h2
      rw [hside, contains_rot, contains_rot, htri]
      have hc := diagonal h (List.mem_cons_self : c ∈ c :: l)
      by_cases e : p.y = r.y
      · have hx : p.x ≠ r.x := by
          intro ex
          unfold left at hc
          rw [e, ex] at hc
          simp at hc
        rcases lt_or_gt_of_ne hx with hx | hx <;> simp [LowSide, e, hx, hx.le, not_lt.mpr hx.le]
      · rcases lt_or_gt_of_ne e with hx | hx <;> simp [LowSide, hx, not_lt.mpr hx.le, hx.ne, hx.ne']
    · have : contains2D [r, p, q] v = false :=
        tri_outside (by rw [left_rot]; exact h.tri) (by rw [left_swap]; linarith)
      rw [contains_rot, contains_rot, this, Bool.false_xor]
      refine ih p r c h.peel ?_
      intro s hs
      rw [cycPairs2, List.mem_cons] at hs
      rcases hs with rfl | hs
      · exact hd
      · exact h3 s hs

/-- **C34** A convex polygon contains the points on the inner side of all of its sides. -/
theorem C34_convex_inside (e : List Vec) (v : Vec) (h : ConvexPolygon e)
    (hv : ∀ s ∈ cycPairs e, 0 < left s.1 s.2 v) : contains2D e v = true := by
  match e, h, hv with
  | p :: q :: r :: l, h, hv => exact convex_inside v l p q r h hv
  | [], h, _ => exact absurd h.1 (by simp)
  | [_], h, _ => exact absurd h.1 (by simp)
  | [_, _], h, _ => exact absurd h.1 (by simp)

/-- **C34** A convex polygon does not contain the points on the outer side of one of its sides. -/
theorem C34_convex_outside (e : List Vec) (v : Vec) (h : ConvexPolygon e) (s : Vec × Vec)
    (hs : s ∈ cycPairs e) (hv : left s.1 s.2 v < 0) : contains2D e v = false := by
  rw [← Bool.not_eq_true]
  intro hc
  have hx : ∀ x ∈ e, 0 ≤ left s.1 s.2 x := by
    intro x hx
    by_cases e1 : x = s.1
    · rw [e1, left_self1]
    by_cases e2 : x = s.2
    · rw [e2, left_self2]
    exact (h.2.2 s hs x hx e1 e2).le
  match e, h, hc, hx with
  | p :: q :: r :: l, h, hc, hx => linarith [convex_weak s.1 s.2 v l p q r h hc hx]
  | [], h, _, _ => exact absurd h.1 (by simp)
  | [_], h, _, _ => exact absurd h.1 (by simp)
  | [_, _], h, _, _ => exact absurd h.1 (by simp)

/-- **C34**, **C31** The hull of points that are not on a line is such a polygon. -/
theorem C34_hull (vs : List Vec) (h : 3 ≤ (fromConvexHull2D vs).length)
    (hd : ∃ u ∈ vs, ∃ v ∈ vs, u.xy ≠ v.xy) : ConvexPolygon (fromConvexHull2D vs) := by
  obtain ⟨-, h1, -, h2⟩ := C31_convex_hull vs hd
  exact ⟨h, h1, fun s hs => (h2 s hs).2⟩

/-- A square with a point inside and a point outside. -/
example : contains2D [⟨0, 0, 0⟩, ⟨2, 0, 0⟩, ⟨2, 2, 0⟩, ⟨0, 2, 0⟩] ⟨1, 1, 0⟩ = true ∧
    contains2D [⟨0, 0, 0⟩, ⟨2, 0, 0⟩, ⟨2, 2, 0⟩, ⟨0, 2, 0⟩] ⟨3, 1, 0⟩ = false := by
  have h : ConvexPolygon [⟨0, 0, 0⟩, ⟨2, 0, 0⟩, ⟨2, 2, 0⟩, ⟨0, 2, 0⟩] := by
    refine ⟨by simp, by simp, ?_⟩
    intro s hs r hr
    simp [cycPairs] at hs hr
    rcases hs with rfl | rfl | rfl | rfl <;> rcases hr with rfl | rfl | rfl | rfl <;> norm_num [left]
  constructor
  · apply C34_convex_inside _ _ h
    intro s hs
    simp [cycPairs] at hs
    rcases hs with rfl | rfl | rfl | rfl <;> norm_num [left]
  · apply C34_convex_outside _ _ h (⟨2, 0, 0⟩, ⟨2, 2, 0⟩) (by simp [cycPairs])
    norm_num [left]

/-! ### Segments -/

theorem toSegments_closed (e : List Vec) : toSegments e true = (cycPairs e).map fun s => ⟨s.1, s.2⟩ := by
  unfold toSegments cycPairs
  apply List.ext_getElem
  · simp
  · intro i h1 h2
    have hi : i < e.length := by simpa using h1
    simp only [List.getElem_map, List.getElem_range, List.getElem_zip, List.getElem_rotate]
    have hm : (i + 1) % e.length < e.length := Nat.mod_lt _ (by omega)
    simp only [List.getD_eq_getElem?_getD, List.getElem?_eq_getElem hi, List.getElem?_eq_getElem hm]
    rfl

theorem segment_magnitude (a b : Vec) : Segment.magnitude ⟨a, b⟩ = Real.sqrt (distSq a b) := by
  unfold Segment.magnitude Vec.magnitude distSq
  congr 1
  simp only [Vec.sub_x, Vec.sub_y, Vec.sub_z]; ring

/-- **C35** `collapsed` keeps, in order, the points where a segment of at least the given length starts
(the last segment returns to the first point). -/
theorem C35_keeps (e : List Vec) (d : ℝ) : collapsed e d =
    ((cycPairs e).filter fun s => decide (d ≤ Real.sqrt (distSq s.1 s.2))).map Prod.fst := by
  unfold collapsed
  rw [toSegments_closed, List.filter_map, List.map_map]
  simp only [Function.comp_def, segment_magnitude, ge_iff_le]

theorem cycPairs_fst {α : Type} (e : List α) : (cycPairs e).map Prod.fst = e :=
  List.map_fst_zip (by simp)

/-- **C35** The result is a subsequence of the points, and all of them if no segment is too short. -/
theorem C35_subsequence (e : List Vec) (d : ℝ) : (collapsed e d).Sublist e ∧
    ((∀ s ∈ cycPairs e, d ≤ Real.sqrt (distSq s.1 s.2)) → collapsed e d = e) := by
  rw [C35_keeps]
  constructor
  · have := (List.filter_sublist (p := fun s : Vec × Vec => decide (d ≤ Real.sqrt (distSq s.1 s.2)))
      (l := cycPairs e)).map Prod.fst
    rwa [cycPairs_fst] at this
  · intro h
    rw [List.filter_eq_self.mpr (fun s hs => decide_eq_true (h s hs)), cycPairs_fst]

/-- **C35** Coincident consecutive points are dropped for every positive length. -/
theorem C35_repeated (e1 e2 : List Vec) (p : Vec) (d : ℝ) (hd : 0 < d) :
    collapsed (e1 ++ p :: p :: e2) d = collapsed (e1 ++ p :: e2) d := by
  have h1 : ∀ l : List Vec, cycPairs (e1 ++ p :: l) = pathPairs (e1 ++ [p]) ++
      pathPairs (p :: l ++ [(e1 ++ [p]).headD p]) := by
    have hp : ∀ (a l : List Vec), pathPairs (a ++ p :: l) = pathPairs (a ++ [p]) ++ pathPairs (p :: l) := by
      intro a
      induction a with
      | nil => intro l; rfl
      | cons x a ih =>
        intro l
        cases a with
        | nil => rfl
        | cons y a =>
          have : ∀ r, pathPairs (x :: y :: a ++ r) = (x, y) :: pathPairs (y :: a ++ r) := fun _ => rfl
          rw [this, this, ih]; rfl
    intro l
    cases e1 with
    | nil => exact cycPairs_cons p l
    | cons x a =>
      rw [List.cons_append, cycPairs_cons]
      have : x :: (a ++ p :: l) ++ [x] = (x :: a) ++ p :: (l ++ [x]) := by simp
      rw [this, hp]; rfl
  have h2 : pathPairs (p :: p :: e2 ++ [(e1 ++ [p]).headD p]) =
    (p, p) :: pathPairs (p :: e2 ++ [(e1 ++ [p]).headD p]) := rfl
  have h0 : ¬ d ≤ Real.sqrt (distSq p p) := by
    have : distSq p p = 0 := by simp [distSq]
    rw [this, Real.sqrt_zero]; linarith
  rw [C35_keeps, C35_keeps, h1, h1, h2]
  simp [h0]

/-- A square with one corner doubled. -/
example : (collapsed [⟨0, 0, 0⟩, ⟨2, 0, 0⟩, ⟨2, 0, 0⟩, ⟨2, 2, 0⟩, ⟨0, 2, 0⟩] 1).length = 4 := by
  rw [show [⟨0, 0, 0⟩, ⟨2, 0, 0⟩, ⟨2, 0, 0⟩, ⟨2, 2, 0⟩, ⟨0, 2, 0⟩] =
    [⟨0, 0, 0⟩] ++ (⟨2, 0, 0⟩ : Vec) :: ⟨2, 0, 0⟩ :: [⟨2, 2, 0⟩, ⟨0, 2, 0⟩] from rfl,
    C35_repeated _ _ _ _ one_pos, (C35_subsequence _ _).2]
  · rfl
  · intro s hs
    simp [cycPairs] at hs
    rcases hs with rfl | rfl | rfl | rfl <;> norm_num [distSq]

/-- **C35** What is not guaranteed: a chain of short segments collapses as a whole, even if its ends
are far apart, and the result may have short segments again. -/
theorem C35_not_resegmented :
    collapsed [⟨0, 0, 0⟩, ⟨1, 0, 0⟩, ⟨2, 0, 0⟩, ⟨1, 1, 0⟩] 2 = [] ∧
    ∃ e s, s ∈ cycPairs (collapsed e 1) ∧ Real.sqrt (distSq s.1 s.2) < 1 := by
  have r2 : (Real.sqrt 2) < 2 := by
    rw [Real.sqrt_lt' (by norm_num)]; norm_num
  constructor
  · rw [C35_keeps]
    norm_num [cycPairs, distSq, r2]
  · refine ⟨[⟨0, 0, 0⟩, ⟨1, 0, 0⟩, ⟨1 / 2, 0, 0⟩, ⟨1 / 2, 2, 0⟩], (⟨0, 0, 0⟩, ⟨1 / 2, 0, 0⟩), ?_, ?_⟩
    · have h1 : (1 : ℝ) ≤ Real.sqrt (1 / 4 + 4) := Real.one_le_sqrt.mpr (by norm_num)
      have h2 : Real.sqrt (1 / 4) < 1 := by rw [Real.sqrt_lt' one_pos]; norm_num
      have h3 : Real.sqrt ((1 - 1 / 2 : ℝ) ^ 2) < 1 := by rw [Real.sqrt_sq] <;> norm_num
      rw [C35_keeps]
      norm_num [cycPairs, distSq, h1, h2, h3]
    · rw [Real.sqrt_lt' one_pos]; norm_num [distSq]

theorem foldl_min (d : ℝ) (ds : List ℝ) :
    (∀ x ∈ d :: ds, ds.foldl min d ≤ x) ∧ ds.foldl min d ∈ d :: ds := by
  induction ds generalizing d with
  | nil => simp
  | cons y ds ih =>
    rw [List.foldl_cons]
    obtain ⟨h1, h2⟩ := ih (min d y)
    constructor
    · intro x hx
      have hm := h1 (min d y) (by simp)
      simp only [List.mem_cons] at hx
      rcases hx with rfl | rfl | hx
      · exact hm.trans (min_le_left _ _)
      · exact hm.trans (min_le_right _ _)
      · exact h1 x (by simp [hx])
    · rw [List.mem_cons] at h2
      rcases h2 with h2 | h2
      · rw [h2]
        rcases min_choice d y with h | h <;> rw [h] <;> simp
      · simp [h2]

/-- **C61** The distance to an edge is zero inside, else the minimal distance (in the xy plane) to a
point of one of its segments. -/
theorem C61_distance (e : List Vec) (v : Vec) (r : ℝ) (h : edgeDistance2D e v = .ok r) :
    (contains2D e v = true → r = 0) ∧
    (contains2D e v = false →
      (∀ s ∈ cycPairs e, ∀ t, 0 ≤ t → t ≤ 1 → r ≤ Real.sqrt (distSq2D (between2D s.1 s.2 t) v)) ∧
      ∃ s ∈ cycPairs e, ∃ t, 0 ≤ t ∧ t ≤ 1 ∧ r = Real.sqrt (distSq2D (between2D s.1 s.2 t) v)) := by
  unfold edgeDistance2D at h
  by_cases hc : contains2D e v = true
  · rw [if_pos hc] at h
    cases h
    exact ⟨fun _ => rfl, fun h => by rw [hc] at h; cases h⟩
  · rw [if_neg hc] at h
    refine ⟨fun h => absurd h hc, fun _ => ?_⟩
    rw [toSegments_closed, List.map_map] at h
    split at h
    · cases h
    · rename_i d ds heq
      cases h
      obtain ⟨h1, h2⟩ := foldl_min d ds
      rw [← heq] at h1 h2
      constructor
      · intro s hs t t0 t1
        refine (h1 _ (List.mem_map_of_mem hs)).trans ?_
        exact (C28_segment_distance ⟨s.1, s.2⟩ v).1 t t0 t1
      · obtain ⟨s, hs, he⟩ := List.mem_map.mp h2
        obtain ⟨t, t0, t1, ht⟩ := (C28_segment_distance ⟨s.1, s.2⟩ v).2
        exact ⟨s, hs, t, t0, t1, by rw [← he]; exact ht⟩

/-- **C61** It raises exactly for edges without points. -/
theorem C61_raises_iff (e : List Vec) (v : Vec) (x : Exn) :
    edgeDistance2D e v = .error x ↔ e = [] ∧ x = .valueError := by
  unfold edgeDistance2D
  cases e with
  | nil => simp [contains2D, toSegments]; exact eq_comm
  | cons a e =>
    simp only [reduceCtorEq, false_and, iff_false]
    split
    · nofun
    · rw [toSegments_closed, List.map_map]
      split
      · rename_i heq
        have := congrArg List.length heq
        simp [cycPairs] at this
      · nofun

/-- **C61** The distance is never negative, and zero exactly for contained and boundary points. -/
theorem C61_zero_iff (e : List Vec) (v : Vec) (r : ℝ) (h : edgeDistance2D e v = .ok r) :
    0 ≤ r ∧ (r = 0 ↔ contains2D e v = true ∨ ∃ s ∈ cycPairs e, ∃ t, 0 ≤ t ∧ t ≤ 1 ∧
      v.xy = between2D s.1 s.2 t) := by
  obtain ⟨h1, h2⟩ := C61_distance e v r h
  by_cases hc : contains2D e v = true
  · simp [h1 hc, hc]
  · obtain ⟨ha, s, hs, t, t0, t1, hr⟩ := h2 (by simpa using hc)
    have hz : ∀ w : Vec, w.z = 0 → (Real.sqrt (distSq2D w v) = 0 ↔ v.xy = w) := by
      intro w hw
      have hn : 0 ≤ distSq2D w v := by unfold distSq2D; positivity
      rw [Real.sqrt_eq_zero hn]
      unfold distSq2D
      constructor
      · intro h
        have e1 : (w.x - v.x) ^ 2 = 0 := by nlinarith [sq_nonneg (w.x - v.x), sq_nonneg (w.y - v.y)]
        have e2 : (w.y - v.y) ^ 2 = 0 := by nlinarith [sq_nonneg (w.x - v.x), sq_nonneg (w.y - v.y)]
        have e1 := pow_eq_zero_iff (two_ne_zero) |>.mp e1
        have e2 := pow_eq_zero_iff (two_ne_zero) |>.mp e2
        ext
        · show v.x = w.x; linarith
        · show v.y = w.y; linarith
        · show (0 : ℝ) = w.z; rw [hw]
      · intro h; rw [← h]; simp [Vec.xy]
    refine ⟨by rw [hr]; exact Real.sqrt_nonneg _, ?_⟩
    constructor
    · intro h0
      exact .inr ⟨s, hs, t, t0, t1, (hz _ rfl).mp (by rw [← hr, h0])⟩
    · rintro (h | ⟨s, hs, t, t0, t1, he⟩)
      · exact absurd h hc
      · have := ha s hs t t0 t1
        rw [(hz _ rfl).mpr he] at this
        have : 0 ≤ r := by rw [hr]; exact Real.sqrt_nonneg _
        linarith

/-- The distance of a point left of a triangle. -/
example : ∃ r, edgeDistance2D [⟨0, 0, 0⟩, ⟨2, 0, 0⟩, ⟨0, 2, 0⟩] ⟨-1, 1, 0⟩ = .ok r ∧ 0 < r := by
  rcases hr : edgeDistance2D [⟨0, 0, 0⟩, ⟨2, 0, 0⟩, ⟨0, 2, 0⟩] ⟨-1, 1, 0⟩ with x | r
  · exact absurd ((C61_raises_iff _ _ _).mp hr).1 (by simp)
  · obtain ⟨h0, hz⟩ := C61_zero_iff _ _ _ hr
    refine ⟨r, rfl, lt_of_le_of_ne h0 (Ne.symm ?_)⟩
    rw [Ne, hz]
    rintro (h | ⟨s, hs, t, t0, t1, he⟩)
    · rw [C34_triangle_outside _ _ _ _ (.inl ⟨by norm_num [left], .inr (.inr (by norm_num [left]))⟩)] at h
      cases h
    · have hx := congrArg Vec.x he
      simp [cycPairs] at hs
      rcases hs with rfl | rfl | rfl <;> simp [Vec.xy, between2D] at hx <;> linarith

end Chrumm.Geo
