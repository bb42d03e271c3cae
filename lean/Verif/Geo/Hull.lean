import Verif.Geo.Edge
import Verif.Geo.Chain

/-! Lemmas for the convex hull (monotone chain). -/

namespace Chrumm.Geo
open Spec Classical

/-- Lexicographically positive direction. -/
def Pos (x y : ℝ) : Prop := 0 < x ∨ (x = 0 ∧ 0 < y)
/-- Lexicographically non-negative direction. -/
def Nn (x y : ℝ) : Prop := 0 < x ∨ (x = 0 ∧ 0 ≤ y)

theorem Pos.nn {x y : ℝ} (h : Pos x y) : Nn x y := h.imp id fun h => ⟨h.1, h.2.le⟩

theorem Nn.pos {x y : ℝ} (h : Nn x y) (h0 : x ≠ 0 ∨ y ≠ 0) : Pos x y := by
  rcases h with h | ⟨h1, h2⟩
  · exact .inl h
  · refine .inr ⟨h1, lt_of_le_of_ne h2 ?_⟩
    rcases h0 with h0 | h0
    · exact absurd h1 h0
    · exact h0.symm

theorem slope_trans {dx dy ex ey fx fy : ℝ} (hd : Nn dx dy) (he : Pos ex ey) (hf : Nn fx fy)
    (h1 : 0 ≤ dx * ey - dy * ex) (h2 : 0 ≤ ex * fy - ey * fx) : 0 ≤ dx * fy - dy * fx := by
  have d0 : 0 ≤ dx := by rcases hd with h | h <;> linarith [h]
  have f0 : 0 ≤ fx := by rcases hf with h | h <;> linarith [h]
  rcases he with he | ⟨he, he'⟩
  · have : 0 ≤ ex * (dx * fy - dy * fx) := by
      have e : ex * (dx * fy - dy * fx) = dx * (ex * fy - ey * fx) + fx * (dx * ey - dy * ex) := by ring
      rw [e]; positivity
    exact nonneg_of_mul_nonneg_right this he
  · subst he
    have hfx : fx = 0 := by nlinarith
    subst hfx
    rcases hf with hf | ⟨-, hf⟩
    · exact absurd hf (lt_irrefl _)
    · have := mul_nonneg d0 hf; linarith

theorem slope_trans_strict {dx dy ex ey fx fy : ℝ} (hd : Nn dx dy) (he : Pos ex ey) (hf : Nn fx fy)
    (h1 : 0 < dx * ey - dy * ex) (h2 : 0 < ex * fy - ey * fx) : 0 < dx * fy - dy * fx := by
  have d0 : 0 ≤ dx := by rcases hd with h | h <;> linarith [h]
  have f0 : 0 ≤ fx := by rcases hf with h | h <;> linarith [h]
  rcases he with he | ⟨he, he'⟩
  · have dp : 0 < dx := by
      rcases hd with h | ⟨h, h'⟩
      · exact h
      · subst h; nlinarith [mul_nonneg h' he.le]
    have : 0 < ex * (dx * fy - dy * fx) := by
      have e : ex * (dx * fy - dy * fx) = dx * (ex * fy - ey * fx) + fx * (dx * ey - dy * ex) := by ring
      rw [e]; nlinarith [mul_pos dp h2, mul_nonneg f0 h1.le]
    exact pos_of_mul_pos_right this he.le |> fun h => by simpa using h
  · subst he
    nlinarith [mul_nonneg he'.le f0]

/-- The consecutive pairs are the neighbours. -/
theorem mem_pathPairs {α : Type} {l : List α} {p q : α} :
    (p, q) ∈ pathPairs l ↔ ∃ l1 l2, l = l1 ++ p :: q :: l2 := by
  unfold pathPairs
  induction l with
  | nil => simp
  | cons a l ih =>
    cases l with
    | nil =>
      simp only [List.tail_cons, List.zip_nil_right, List.not_mem_nil, false_iff, not_exists]
      intro l1 l2 h
      have := congrArg List.length h
      simp at this
      omega
    | cons b l =>
      simp only [List.tail_cons, List.zip_cons_cons, List.mem_cons, Prod.mk.injEq]
      simp only [List.tail_cons] at ih
      constructor
      · rintro (⟨rfl, rfl⟩ | h)
        · exact ⟨[], l, rfl⟩
        · obtain ⟨l1, l2, e⟩ := ih.mp h
          exact ⟨a :: l1, l2, by rw [e]; rfl⟩
      · rintro ⟨l1, l2, e⟩
        cases l1 with
        | nil => simp only [List.nil_append, List.cons.injEq] at e; exact .inl ⟨e.1.symm, e.2.1.symm⟩
        | cons c l1 =>
          simp only [List.cons_append, List.cons.injEq] at e
          exact .inr (ih.mpr ⟨l1, l2, e.2⟩)

/-- All triples of the (top first) chain turn left. -/
def AllTri : List Vec → Prop
  | [] => True
  | v :: st => st.Pairwise (fun b a => 0 < left a b v) ∧ AllTri st

/-- Strictly smaller / not larger in lexicographic order. -/
def Slt (a b : Vec) : Prop := Pos (b.x - a.x) (b.y - a.y)
def Sle (a b : Vec) : Prop := Nn (b.x - a.x) (b.y - a.y)

theorem Slt.le {a b : Vec} (h : Slt a b) : Sle a b := Pos.nn h

theorem Sle.antisymm {a b : Vec} (h : Sle a b) (h' : Sle b a) : a.x = b.x ∧ a.y = b.y := by
  unfold Sle Nn at *
  rcases h with h | ⟨h1, h2⟩ <;> rcases h' with h' | ⟨h1', h2'⟩ <;> constructor <;> linarith

theorem Sle.trans {a b c : Vec} (h : Sle a b) (h' : Sle b c) : Sle a c := by
  unfold Sle Nn at *
  rcases h with h | ⟨h1, h2⟩ <;> rcases h' with h' | ⟨h1', h2'⟩
  · left; linarith
  · left; linarith
  · left; linarith
  · right; constructor <;> linarith

theorem Slt.trans_le {a b c : Vec} (h : Slt a b) (h' : Sle b c) : Slt a c := by
  unfold Slt Sle Nn Pos at *
  rcases h with h | ⟨h1, h2⟩ <;> rcases h' with h' | ⟨h1', h2'⟩
  · left; linarith
  · left; linarith
  · left; linarith
  · right; constructor <;> linarith

theorem Sle.total (a b : Vec) : Sle a b ∨ Sle b a := by
  unfold Sle Nn
  rcases lt_trichotomy a.x b.x with h | h | h
  · left; left; linarith
  · rcases le_total a.y b.y with h' | h'
    · left; right; constructor <;> linarith
    · right; right; constructor <;> linarith
  · right; left; linarith

theorem vec_eq {a b : Vec} (h : a.x = b.x ∧ a.y = b.y) (ha : a.z = 0) (hb : b.z = 0) : a = b := by
  ext
  · exact h.1
  · exact h.2
  · rw [ha, hb]

theorem Sle.lt_of_ne {a b : Vec} (h : Sle a b) (ha : a.z = 0) (hb : b.z = 0) (hne : a ≠ b) : Slt a b := by
  apply Nn.pos h
  by_contra hc
  push Not at hc
  apply hne
  exact vec_eq ⟨by linarith [hc.1], by linarith [hc.2]⟩ ha hb

theorem Slt.irrefl (a : Vec) : ¬ Slt a a := by
  unfold Slt Pos; simp

theorem left_rot (p q v : Vec) : left p q v = left q v p := by unfold left; ring
theorem left_swap (p q v : Vec) : left p q v = -left q p v := by unfold left; ring
theorem left_self1 (p q : Vec) : left p q p = 0 := by unfold left; ring
theorem left_self2 (p q : Vec) : left p q q = 0 := by unfold left; ring

/-- Adding a vertex that turns left at the top keeps all triples turning left. -/
theorem allTri_push {v t s : Vec} {rest : List Vec} (h : AllTri (t :: s :: rest))
    (hs : (t :: s :: rest).Pairwise (fun b a => Slt a b)) (hv : Sle t v) (hl : 0 < left s t v) :
    AllTri (v :: t :: s :: rest) := by
  refine ⟨?_, h⟩
  obtain ⟨h1, h2⟩ := h
  rw [List.pairwise_cons] at hs
  obtain ⟨hst, hs'⟩ := hs
  rw [List.pairwise_cons] at hs' h1
  -- triples (a, t, v)
  have ht : ∀ a ∈ s :: rest, 0 < left a t v := by
    intro a ha
    rcases List.mem_cons.mp ha with rfl | ha
    · exact hl
    · have h3 : 0 < left a s t := h1.1 a ha
      have hsa : Slt a s := hs'.1 a ha
      have hts : Slt s t := hst s (by simp)
      have := slope_trans_strict (dx := s.x - a.x) (dy := s.y - a.y) (ex := t.x - s.x) (ey := t.y - s.y)
        (fx := v.x - t.x) (fy := v.y - t.y) hsa.nn hts hv (by unfold left at h3; linarith)
        (by unfold left at hl; linarith)
      unfold left at *; linarith
  rw [List.pairwise_cons]
  refine ⟨ht, ?_⟩
  have h1' : (s :: rest).Pairwise (fun b a => 0 < left a b t) := List.pairwise_cons.mpr h1
  have hp : (s :: rest).Pairwise (fun b a => Slt a b) := List.pairwise_cons.mpr hs'
  have h3 := List.Pairwise.and h1' hp
  apply List.Pairwise.imp_of_mem _ h3
  intro b a hb ha hba
  obtain ⟨hx, hy⟩ := hba
  have hbt := ht b hb
  have hbt' : Slt b t := hst b hb
  have := slope_trans_strict (dx := b.x - a.x) (dy := b.y - a.y) (ex := t.x - b.x) (ey := t.y - b.y)
    (fx := v.x - t.x) (fy := v.y - t.y) hy.nn hbt' hv (by unfold left at hx; linarith)
    (by unfold left at hbt; linarith)
  unfold left at *; linarith

/-- A stack (top first) of a half hull of the points `P`, except that the top need not be maximal. -/
structure Stack (P : List Vec) (st : List Vec) : Prop where
  sub : ∀ v ∈ st, v ∈ P
  sorted : st.Pairwise (fun b a => Slt a b)
  tri : AllTri st
  edge : ∀ l1 q p l2, st = l1 ++ q :: p :: l2 → ∀ u ∈ P, 0 ≤ left p q u
  bot : ∃ m, st.getLast? = some m ∧ ∀ u ∈ P, Sle m u

theorem Stack.tail {P : List Vec} {t s : Vec} {rest : List Vec} (h : Stack P (t :: s :: rest)) :
    Stack P (s :: rest) where
  sub v hv := h.sub v (List.mem_cons_of_mem _ hv)
  sorted := (List.pairwise_cons.mp h.sorted).2
  tri := h.tri.2
  edge l1 q p l2 e := h.edge (t :: l1) q p l2 (by rw [e]; rfl)
  bot := by simpa using h.bot

theorem popLoop_stack (P : List Vec) (v : Vec) (hv : ∀ u ∈ P, Sle u v) : ∀ (st : List Vec), Stack P st →
    (∀ t, st.head? = some t → ∀ u ∈ P, Sle t u → 0 ≤ left t v u) →
    ∃ t rest, popLoop v st = t :: rest ∧ Stack P (t :: rest) ∧
      (∀ u ∈ P, Sle t u → 0 ≤ left t v u) ∧ (∀ s r, rest = s :: r → 0 < left s t v)
  | [], h, _ => by obtain ⟨m, hm, -⟩ := h.bot; simp at hm
  | [t], h, ht => ⟨t, [], rfl, h, ht t rfl, by simp⟩
  | t :: s :: rest, h, ht => by
    have e : ((s - v).cross (t - v)).z = left s t v := by
      simp only [Vec.cross, Vec.sub_x, Vec.sub_y, left]; ring
    by_cases hc : ((s - v).cross (t - v)).z ≤ 0
    · have hp : popLoop v (t :: s :: rest) = popLoop v (s :: rest) := by
        rw [popLoop, if_pos hc]
      rw [hp]
      apply popLoop_stack P v hv (s :: rest) h.tail
      intro s' hs' u hu hsu
      cases hs'
      rw [e] at hc
      have hst : Slt s t := (List.pairwise_cons.mp h.sorted).1 s (by simp)
      have h1 := h.edge [] t s rest rfl u hu
      have := slope_trans (dx := v.x - s.x) (dy := v.y - s.y) (ex := t.x - s.x) (ey := t.y - s.y)
        (fx := u.x - s.x) (fy := u.y - s.y) (hv s (h.sub s (by simp))) hst hsu
        (by unfold left at hc; linarith) (by unfold left at h1; linarith)
      unfold left; linarith
    · refine ⟨t, s :: rest, by rw [popLoop, if_neg hc], h, ht t rfl, ?_⟩
      intro s' r' e'
      cases e'
      rw [e] at hc
      exact not_le.mp hc

/-- The state of the loop: `[a, a]` while all points are the same, else a proper stack whose top is
the maximum. -/
def HullInv (P st : List Vec) : Prop :=
  (∃ a, st = [a, a] ∧ (a ∈ P ∧ ∀ u ∈ P, u = a)) ∨
  (Stack P st ∧ ∀ t, st.head? = some t → ∀ u ∈ P, Sle u t)

theorem stack_single {P : List Vec} {a : Vec} (ha : a ∈ P) (hm : ∀ u ∈ P, Sle a u) : Stack P [a] where
  sub v hv := by simp at hv; rw [hv]; exact ha
  sorted := by simp
  tri := by simp [AllTri]
  edge l1 q p l2 e := by
    have := congrArg List.length e; simp at this; omega
  bot := ⟨a, rfl, hm⟩

/-- Pushing after popping. -/
theorem push_stack {P : List Vec} {v t : Vec} {rest : List Vec} (hz : ∀ u ∈ P, u.z = 0) (hvz : v.z = 0)
    (hv : ∀ u ∈ P, Sle u v) (h : Stack P (t :: rest)) (hr : ∀ u ∈ P, Sle t u → 0 ≤ left t v u)
    (hs : ∀ s r, rest = s :: r → 0 < left s t v) : HullInv (P ++ [v]) (v :: t :: rest) := by
  have htP : t ∈ P := h.sub t (by simp)
  by_cases hvt : v = t
  · subst hvt
    cases rest with
    | cons s r =>
      have := hs s r rfl
      rw [left_self2] at this
      exact absurd this (lt_irrefl _)
    | nil =>
      obtain ⟨m, hm, hmin⟩ := h.bot
      simp at hm
      subst hm
      left
      refine ⟨v, rfl, by simp, ?_⟩
      intro u hu
      rcases List.mem_append.mp hu with hu | hu
      · exact vec_eq (Sle.antisymm (hv u hu) (hmin u hu)) (hz u hu) hvz
      · simpa using hu
  · right
    have hlt : Slt t v := (hv t htP).lt_of_ne (hz t htP) hvz (Ne.symm hvt)
    have hsort : (v :: t :: rest).Pairwise (fun b a => Slt a b) := by
      rw [List.pairwise_cons]
      refine ⟨?_, h.sorted⟩
      intro a ha
      rcases List.mem_cons.mp ha with rfl | ha
      · exact hlt
      · exact ((List.pairwise_cons.mp h.sorted).1 a ha).trans_le hlt.le
    have htri : AllTri (v :: t :: rest) := by
      cases rest with
      | nil => simp [AllTri]
      | cons s r => exact allTri_push h.tri h.sorted hlt.le (hs s r rfl)
    refine ⟨⟨?_, hsort, htri, ?_, ?_⟩, ?_⟩
    · intro a ha
      rcases List.mem_cons.mp ha with rfl | ha
      · simp
      · exact List.mem_append_left _ (h.sub a ha)
    · intro l1 q p l2 e u hu
      cases l1 with
      | nil =>
        simp only [List.nil_append, List.cons.injEq] at e
        obtain ⟨rfl, rfl, rfl⟩ := e
        rcases List.mem_append.mp hu with hu | hu
        · rcases Sle.total t u with hc | hc
          · exact hr u hu hc
          · cases hrest : rest with
            | nil =>
              subst hrest
              obtain ⟨m, hm, hmin⟩ := h.bot
              simp at hm
              subst hm
              exact hr u hu (hmin u hu)
            | cons s r =>
              subst hrest
              have h1 := h.edge [] t s r rfl u hu
              have h2 := hs s r rfl
              have hst : Slt s t := (List.pairwise_cons.mp h.sorted).1 s (by simp)
              have := slope_trans (dx := t.x - u.x) (dy := t.y - u.y) (ex := t.x - s.x) (ey := t.y - s.y)
                (fx := v.x - t.x) (fy := v.y - t.y) hc hst hlt.le
                (by unfold left at h1; linarith) (by unfold left at h2; linarith)
              unfold left; linarith
        · simp at hu; subst hu; rw [left_self2]
      | cons c l1 =>
        simp only [List.cons_append, List.cons.injEq] at e
        obtain ⟨rfl, e⟩ := e
        rcases List.mem_append.mp hu with hu | hu
        · exact h.edge l1 q p l2 e u hu
        · simp at hu; subst hu
          have := htri.1
          rw [e] at this
          have := (List.pairwise_append.mp this).2.1
          exact ((List.pairwise_cons.mp this).1 p (by simp)).le
    · obtain ⟨m, hm, hmin⟩ := h.bot
      refine ⟨m, by simpa using hm, ?_⟩
      intro u hu
      rcases List.mem_append.mp hu with hu | hu
      · exact hmin u hu
      · simp at hu; subst hu; exact (hmin t htP).trans hlt.le
    · intro t' ht' u hu
      simp at ht'; subst ht'
      rcases List.mem_append.mp hu with hu | hu
      · exact hv u hu
      · simp at hu; subst hu; right; simp

theorem hull_step {P st : List Vec} {v : Vec} (hz : ∀ u ∈ P, u.z = 0) (hvz : v.z = 0)
    (hv : ∀ u ∈ P, Sle u v) (h : HullInv P st) : HullInv (P ++ [v]) (v :: popLoop v st) := by
  have key : ∀ st, Stack P st → (∀ t, st.head? = some t → ∀ u ∈ P, Sle u t) →
      HullInv (P ++ [v]) (v :: popLoop v st) := by
    intro st h hm
    obtain ⟨t, rest, e, h1, h2, h3⟩ := popLoop_stack P v hv st h (by
      intro t ht u hu htu
      have hmem : t ∈ st := List.mem_of_mem_head? ht
      have : u = t := vec_eq (Sle.antisymm (hm t ht u hu) htu) (hz u hu) (hz t (h.sub t hmem))
      subst this
      rw [left_self1])
    rw [e]
    exact push_stack hz hvz hv h1 h2 h3
  rcases h with ⟨a, rfl, haP, ha⟩ | ⟨h, hm⟩
  · have hp : popLoop v [a, a] = popLoop v [a] := by
      have e : ((a - v).cross (a - v)).z ≤ 0 := by
        apply le_of_eq
        simp only [Vec.cross, Vec.sub_x, Vec.sub_y]; ring
      rw [popLoop, if_pos e]
    rw [hp]
    apply key [a] (stack_single haP ?_) ?_
    · intro u hu; rw [ha u hu]; right; simp
    · intro t ht u hu
      simp at ht; rw [← ht, ha u hu]; right; simp
  · exact key st h hm

theorem hull_fold : ∀ (l P st : List Vec), (∀ u ∈ P ++ l, u.z = 0) → l.Pairwise Sle →
    (∀ u ∈ P, ∀ v ∈ l, Sle u v) → HullInv P st →
    HullInv (P ++ l) (l.foldl (fun st v => v :: popLoop v st) st)
  | [], P, st, _, _, _, h => by simpa using h
  | v :: l, P, st, hz, hs, hu, h => by
    have hs' := List.pairwise_cons.mp hs
    have := hull_fold l (P ++ [v]) (v :: popLoop v st) (by simpa using hz) hs'.2 (by
      intro u hu' w hw
      rcases List.mem_append.mp hu' with hu' | hu'
      · exact hu u hu' w (List.mem_cons_of_mem _ hw)
      · simp at hu'; subst hu'; exact hs'.1 w hw)
      (hull_step (fun u hu' => hz u (by simp [hu'])) (hz v (by simp))
        (fun u hu' => hu u hu' v (by simp)) h)
    simpa using this

/-- One half of the hull, from the smallest to the largest point. `s` is 1 for the order by
(x, y), and -1 for the reverse order. -/
structure Half (s : ℝ) (P h : List Vec) : Prop where
  sub : ∀ v ∈ h, v ∈ P
  sorted : h.Pairwise (fun a b => Pos (s * (b.x - a.x)) (s * (b.y - a.y)))
  tri : ∀ a b c, [a, b, c].Sublist h → 0 < left a b c
  edge : ∀ l1 p q l2, h = l1 ++ p :: q :: l2 → ∀ u ∈ P, 0 ≤ left p q u
  bot : ∃ m, h.head? = some m ∧ ∀ u ∈ P, Nn (s * (u.x - m.x)) (s * (u.y - m.y))
  top : ∃ m, h.getLast? = some m ∧ ∀ u ∈ P, Nn (s * (m.x - u.x)) (s * (m.y - u.y))

theorem allTri_sublist : ∀ (st : List Vec), AllTri st → ∀ a b c, [c, b, a].Sublist st → 0 < left a b c
  | [], _, a, b, c, h => by simp at h
  | v :: st, hst, a, b, c, h => by
    rcases List.sublist_cons_iff.mp h with h | ⟨r, hr, h⟩
    · exact allTri_sublist st hst.2 a b c h
    · simp only [List.cons.injEq] at hr
      obtain ⟨rfl, rfl⟩ := hr
      have := hst.1.sublist h
      simpa using this

theorem halfHull_half (l : List Vec) (hz : ∀ u ∈ l, u.z = 0) (hs : l.Pairwise Sle)
    (hd : ∃ u ∈ l, ∃ v ∈ l, u ≠ v) : Half 1 l (halfHull l) := by
  cases l with
  | nil => obtain ⟨u, hu, -⟩ := hd; simp at hu
  | cons a l =>
    have hs' := List.pairwise_cons.mp hs
    have h := hull_fold l [a] [a] (by simpa using hz) hs'.2 (by simpa using hs'.1)
      (.inr ⟨stack_single (by simp) (by intro u hu; simp at hu; rw [hu]; right; simp),
        by intro t ht u hu; simp at ht hu; rw [← ht, hu]; right; simp⟩)
    have e : halfHull (a :: l) = (l.foldl (fun st v => v :: popLoop v st) [a]).reverse := by
      simp [halfHull, popLoop]
    rw [e]
    simp only [List.singleton_append] at h
    generalize l.foldl (fun st v => v :: popLoop v st) [a] = st at *
    rcases h with ⟨b, -, -, hb⟩ | ⟨h, hm⟩
    · obtain ⟨u, hu, v, hv, hne⟩ := hd
      exact absurd ((hb u hu).trans (hb v hv).symm) hne
    · refine ⟨?_, ?_, ?_, ?_, ?_, ?_⟩
      · intro v hv; exact h.sub v (List.mem_reverse.mp hv)
      · rw [List.pairwise_reverse]
        simpa [Slt] using h.sorted
      · intro x y z hsub
        have : [z, y, x].Sublist st := by
          have := hsub.reverse; simpa using this
        exact allTri_sublist st h.tri x y z this
      · intro l1 p q l2 e' u hu
        refine h.edge l2.reverse q p l1.reverse ?_ u hu
        have := congrArg List.reverse e'
        simpa using this
      · obtain ⟨m, h1, h2⟩ := h.bot
        exact ⟨m, by simpa using h1, by simpa [Sle] using h2⟩
      · have hne : st ≠ [] := by
          obtain ⟨m, h1, -⟩ := h.bot; rintro rfl; simp at h1
        obtain ⟨t, rest, rfl⟩ := List.exists_cons_of_ne_nil hne
        exact ⟨t, by simp, by simpa [Sle] using hm t rfl⟩

/-- The algorithm commutes with the point reflection. -/
theorem popLoop_neg (v : Vec) : ∀ st : List Vec, popLoop (-v) (st.map (-·)) = (popLoop v st).map (-·)
  | [] => rfl
  | [_] => rfl
  | t :: s :: rest => by
    have e : ((-s - -v).cross (-t - -v)).z = ((s - v).cross (t - v)).z := by
      simp only [Vec.cross, Vec.sub_x, Vec.sub_y, Vec.neg_x, Vec.neg_y]; ring
    simp only [List.map_cons]
    rw [popLoop, popLoop, e]
    have ih := popLoop_neg v (s :: rest)
    simp only [List.map_cons] at ih
    split
    · exact ih
    · simp

theorem halfHull_neg (l : List Vec) : halfHull (l.map (-·)) = (halfHull l).map (-·) := by
  unfold halfHull
  rw [List.map_reverse]
  congr 1
  have : ∀ (l st : List Vec), (l.map (-·)).foldl (fun st v => v :: popLoop v st) (st.map (-·)) =
      (l.foldl (fun st v => v :: popLoop v st) st).map (-·) := by
    intro l
    induction l with
    | nil => intro st; rfl
    | cons v l ih =>
      intro st
      simp only [List.map_cons, List.foldl_cons]
      rw [popLoop_neg, ← ih]
      simp
  exact this l []

theorem left_neg (p q u : Vec) : left (-p) (-q) (-u) = left p q u := by
  simp only [left, Vec.neg_x, Vec.neg_y]; ring

theorem vneg_neg (v : Vec) : - -v = v := by ext <;> simp

theorem map_vneg (l : List Vec) : (l.map (-·)).map (-·) = l := by
  induction l with
  | nil => rfl
  | cons a l ih => simp only [List.map_cons, vneg_neg, ih]

theorem halfHull_half' (l : List Vec) (hz : ∀ u ∈ l, u.z = 0) (hs : l.Pairwise (fun a b => Sle b a))
    (hd : ∃ u ∈ l, ∃ v ∈ l, u ≠ v) : Half (-1) l (halfHull l) := by
  have h := halfHull_half (l.map (-·)) (by
      intro u hu
      obtain ⟨w, hw, rfl⟩ := List.mem_map.mp hu
      simp [hz w hw]) (by
      rw [List.pairwise_map]
      apply hs.imp
      intro a b hab
      unfold Sle at *
      simp only [Vec.neg_x, Vec.neg_y]
      rw [show -b.x - -a.x = a.x - b.x by ring, show -b.y - -a.y = a.y - b.y by ring]
      exact hab) (by
      obtain ⟨u, hu, v, hv, hne⟩ := hd
      refine ⟨-u, List.mem_map_of_mem hu, -v, List.mem_map_of_mem hv, ?_⟩
      intro e; apply hne; rw [← vneg_neg u, e, vneg_neg])
  rw [halfHull_neg] at h
  have hmem : ∀ u ∈ l, -u ∈ l.map (-·) := fun u hu => List.mem_map_of_mem hu
  refine ⟨?_, ?_, ?_, ?_, ?_, ?_⟩
  · intro v hv
    have := h.sub (-v) (List.mem_map_of_mem hv)
    obtain ⟨w, hw, e⟩ := List.mem_map.mp this
    have : w = v := by rw [← vneg_neg w, e, vneg_neg]
    exact this ▸ hw
  · have := h.sorted
    rw [List.pairwise_map] at this
    apply this.imp
    intro a b hab
    simp only [Vec.neg_x, Vec.neg_y] at hab
    rw [show -1 * (b.x - a.x) = 1 * (-b.x - -a.x) by ring, show -1 * (b.y - a.y) = 1 * (-b.y - -a.y) by ring]
    exact hab
  · intro a b c hsub
    have := h.tri (-a) (-b) (-c) (by simpa using hsub.map (-·))
    rwa [left_neg] at this
  · intro l1 p q l2 e u hu
    have := h.edge (l1.map (-·)) (-p) (-q) (l2.map (-·)) (by rw [e]; simp) (-u) (hmem u hu)
    rwa [left_neg] at this
  · obtain ⟨m, h1, h2⟩ := h.bot
    refine ⟨-m, ?_, ?_⟩
    · rw [List.head?_map] at h1
      obtain ⟨w, hw, rfl⟩ := Option.map_eq_some_iff.mp h1
      rw [vneg_neg]; exact hw
    · intro u hu
      have := h2 (-u) (hmem u hu)
      simp only [Vec.neg_x, Vec.neg_y] at this ⊢
      rw [show -1 * (u.x - -m.x) = 1 * (-u.x - m.x) by ring, show -1 * (u.y - -m.y) = 1 * (-u.y - m.y) by ring]
      exact this
  · obtain ⟨m, h1, h2⟩ := h.top
    refine ⟨-m, ?_, ?_⟩
    · rw [List.getLast?_map] at h1
      obtain ⟨w, hw, rfl⟩ := Option.map_eq_some_iff.mp h1
      rw [vneg_neg]; exact hw
    · intro u hu
      have := h2 (-u) (hmem u hu)
      simp only [Vec.neg_x, Vec.neg_y] at this ⊢
      rw [show -1 * (-m.x - u.x) = 1 * (m.x - -u.x) by ring, show -1 * (-m.y - u.y) = 1 * (m.y - -u.y) by ring]
      exact this

/-- An inner vertex of one half lies strictly to the left of each edge of the other half. -/
theorem Half.cross {s : ℝ} {P Q h k : List Vec} (hPQ : ∀ u, u ∈ P ↔ u ∈ Q) (H : Half s P h)
    (K : Half (-s) Q k) {l1 l2 : List Vec} {p q : Vec} (he : h = l1 ++ p :: q :: l2) {k1 k2 : List Vec}
    {r0 r r1 : Vec} (hk : k = k1 ++ r0 :: r :: r1 :: k2) : 0 < left p q r := by
  by_contra hc
  push Not at hc
  have m0 : r0 ∈ P := (hPQ _).mpr (K.sub r0 (by rw [hk]; simp))
  have m1 : r1 ∈ P := (hPQ _).mpr (K.sub r1 (by rw [hk]; simp))
  have e0 := H.edge l1 p q l2 he r0 m0
  have e1 := H.edge l1 p q l2 he r1 m1
  have hpq : Pos (s * (q.x - p.x)) (s * (q.y - p.y)) := by
    have := H.sorted
    rw [he] at this
    exact (List.pairwise_cons.mp (List.pairwise_append.mp this).2.1).1 q (by simp)
  have hK := K.sorted
  rw [hk] at hK
  have hK1 := List.pairwise_cons.mp (List.pairwise_append.mp hK).2.1
  have g0 := hK1.1 r (by simp)
  have g1 := (List.pairwise_cons.mp hK1.2).1 r1 (by simp)
  have ht := K.tri r0 r r1 (by
    rw [hk]
    have : [r0, r, r1].Sublist (r0 :: r :: r1 :: k2) := by simp
    exact this.trans (List.sublist_append_right _ _))
  have hs2 : s ≠ 0 := by rintro rfl; rcases hpq with h | h <;> simp at h
  have hss : 0 < s ^ 2 := by positivity
  have f1 : Nn (s * (r.x - r1.x)) (s * (r.y - r1.y)) := by
    have := g1.nn
    rwa [show -s * (r1.x - r.x) = s * (r.x - r1.x) by ring,
      show -s * (r1.y - r.y) = s * (r.y - r1.y) by ring] at this
  have f0 : Nn (s * (r0.x - r.x)) (s * (r0.y - r.y)) := by
    have := g0.nn
    rwa [show -s * (r.x - r0.x) = s * (r0.x - r.x) by ring,
      show -s * (r.y - r0.y) = s * (r0.y - r.y) by ring] at this
  have i1 : 0 ≤ s * (r.x - r1.x) * (s * (q.y - p.y)) - s * (r.y - r1.y) * (s * (q.x - p.x)) := by
    have : s * (r.x - r1.x) * (s * (q.y - p.y)) - s * (r.y - r1.y) * (s * (q.x - p.x)) =
      s ^ 2 * (left p q r1 - left p q r) := by unfold left; ring
    rw [this]; apply mul_nonneg hss.le; linarith
  have i2 : 0 ≤ s * (q.x - p.x) * (s * (r0.y - r.y)) - s * (q.y - p.y) * (s * (r0.x - r.x)) := by
    have : s * (q.x - p.x) * (s * (r0.y - r.y)) - s * (q.y - p.y) * (s * (r0.x - r.x)) =
      s ^ 2 * (left p q r0 - left p q r) := by unfold left; ring
    rw [this]; apply mul_nonneg hss.le; linarith
  have := slope_trans f1 hpq f0 i1 i2
  have e : s * (r.x - r1.x) * (s * (r0.y - r.y)) - s * (r.y - r1.y) * (s * (r0.x - r.x)) =
    s ^ 2 * (-left r0 r r1) := by unfold left; ring
  rw [e] at this
  have := nonneg_of_mul_nonneg_right this hss
  linarith

end Chrumm.Geo
