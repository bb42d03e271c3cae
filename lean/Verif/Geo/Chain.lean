import Verif.Spec.Mesh
import Mathlib.Tactic.Abel

/-! Chains of directed edges as antisymmetric functionals. -/

namespace Chrumm.Geo
open Spec

variable {P : Type} [DecidableEq P] {A : Type} [AddCommGroup A]

/-- Sum of a function over directed edges. -/
def esum (g : P → P → A) (es : List (P × P)) : A := (es.map fun e => g e.1 e.2).sum

@[simp] theorem esum_nil (g : P → P → A) : esum g [] = 0 := rfl
@[simp] theorem esum_cons (g : P → P → A) (e : P × P) (es) : esum g (e :: es) = g e.1 e.2 + esum g es := by
  simp [esum]
@[simp] theorem esum_append (g : P → P → A) (es fs) : esum g (es ++ fs) = esum g es + esum g fs := by
  simp [esum]

/-- Antisymmetric functions on directed edges. -/
structure Anti (g : P → P → A) : Prop where
  swap : ∀ x y, g x y = -g y x
  self : ∀ x, g x x = 0

theorem esum_flip {g : P → P → A} (hg : Anti g) (es : List (P × P)) :
    esum g (flipEdges es) = -esum g es := by
  induction es with
  | nil => simp [flipEdges]
  | cons e es ih =>
    have : flipEdges (e :: es) = e.swap :: flipEdges es := rfl
    rw [this, esum_cons, esum_cons, ih, Prod.fst_swap, Prod.snd_swap, hg.swap]
    abel

theorem esum_perm {g : P → P → A} {es fs : List (P × P)} (h : es.Perm fs) : esum g es = esum g fs :=
  (h.map _).sum_eq

theorem balance_nil (x y : P) : balance [] x y = 0 := by simp [balance]

theorem balance_cons (e : P × P) (es) (x y : P) :
    balance (e :: es) x y = balance [e] x y + balance es x y := by
  simp only [balance, List.count_cons, List.count_nil]
  push_cast; ring

theorem balance_append (es fs : List (P × P)) (x y : P) :
    balance (es ++ fs) x y = balance es x y + balance fs x y := by
  simp only [balance, List.count_append]; push_cast; ring

theorem balance_flip (es : List (P × P)) (x y : P) : balance (flipEdges es) x y = -balance es x y := by
  have h : ∀ x y, (flipEdges es).count (x, y) = es.count (y, x) := by
    intro x y
    have := List.count_map_of_injective es Prod.swap Prod.swap_injective (y, x)
    simpa [flipEdges] using this
  simp only [balance, h]; ring

theorem balance_perm {es fs : List (P × P)} (h : es.Perm fs) (x y : P) : balance es x y = balance fs x y := by
  simp only [balance, h.count_eq]

theorem esum_zero {g : P → P → A} (hg : Anti g) : ∀ (n : ℕ) (es : List (P × P)), es.length ≤ n →
    (∀ x y, balance es x y = 0) → esum g es = 0
  | 0, es, hn, _ => by
    have : es = [] := List.length_eq_zero_iff.mp (by omega)
    subst this; rfl
  | n + 1, [], _, _ => rfl
  | n + 1, (x, y) :: es, hn, hb => by
    by_cases hxy : x = y
    · subst hxy
      rw [esum_cons, hg.self, zero_add]
      apply esum_zero hg n es (by simpa using hn)
      intro u v
      have := hb u v
      rw [balance_cons] at this
      have h0 : balance [(x, x)] u v = 0 := by
        simp only [balance, List.count_cons, List.count_nil]
        by_cases h1 : x = u <;> by_cases h2 : x = v <;> simp [h1, h2, Prod.ext_iff] <;> grind
      linarith
    · have hc : es.count (y, x) ≥ 1 := by
        have := hb x y
        simp only [balance, List.count_cons] at this
        have h1 : ((x, y) == (x, y)) = true := by simp
        have h2 : ((x, y) == (y, x)) = false := by
          simp only [beq_eq_false_iff_ne, ne_eq, Prod.mk.injEq, not_and]
          intro h; exact absurd h hxy
        simp only [h1, h2] at this
        push_cast at this
        simp at this
        omega
      have hmem : (y, x) ∈ es := List.count_pos_iff.mp hc
      have hp := List.perm_cons_erase hmem
      rw [esum_cons, esum_perm hp, esum_cons]
      dsimp only
      have hlen : (es.erase (y, x)).length ≤ n := by
        have := List.length_erase_of_mem hmem
        simp only [List.length_cons] at hn
        omega
      rw [esum_zero hg n _ hlen, hg.swap x y]
      · abel
      · intro u v
        have := hb u v
        rw [balance_cons, balance_perm hp u v, balance_cons (y, x)] at this
        have h0 : balance [(y, x)] u v = -balance [(x, y)] u v := balance_flip [(x, y)] u v
        linarith

/-- Chains with the same balance have the same sums. -/
theorem esum_congr {g : P → P → A} (hg : Anti g) {es fs : List (P × P)} (h : SameChain es fs) :
    esum g es = esum g fs := by
  have := esum_zero hg (es ++ flipEdges fs).length (es ++ flipEdges fs) le_rfl (by
    intro x y; rw [balance_append, balance_flip, h x y]; ring)
  rw [esum_append, esum_flip hg] at this
  exact eq_of_sub_eq_zero (by rw [sub_eq_add_neg]; exact this)

/-- The counting functional of one directed edge. -/
def probe (x y : P) (u v : P) : ℤ := (if (u, v) = (x, y) then 1 else 0) - (if (u, v) = (y, x) then 1 else 0)

theorem probe_anti (x y : P) : Anti (probe x y) := by
  constructor
  · intro u v
    simp only [probe, Prod.mk.injEq]
    have e1 : (v = x ∧ u = y) ↔ (u = y ∧ v = x) := and_comm
    have e2 : (v = y ∧ u = x) ↔ (u = x ∧ v = y) := and_comm
    simp only [e1, e2]; ring
  · intro u
    simp only [probe, Prod.mk.injEq]
    have e1 : (u = x ∧ u = y) ↔ (u = y ∧ u = x) := and_comm
    simp only [e1, sub_self]

theorem esum_probe (x y : P) (es : List (P × P)) : esum (probe x y) es = balance es x y := by
  induction es with
  | nil => simp [balance]
  | cons e es ih =>
    rw [esum_cons, balance_cons, ih]
    congr 1
    simp only [probe, balance, List.count_cons, List.count_nil, beq_iff_eq]
    push_cast; simp

/-- Chains can be compared with integer functionals. -/
theorem sameChain_iff {es fs : List (P × P)} :
    SameChain es fs ↔ ∀ g : P → P → ℤ, Anti g → esum g es = esum g fs := by
  constructor
  · intro h g hg; exact esum_congr hg h
  · intro h x y
    rw [← esum_probe, ← esum_probe]; exact h _ (probe_anti x y)

theorem SameChain.refl (es : List (P × P)) : SameChain es es := fun _ _ => rfl
theorem SameChain.symm {es fs : List (P × P)} (h : SameChain es fs) : SameChain fs es :=
  fun x y => (h x y).symm
theorem SameChain.trans {es fs ks : List (P × P)} (h : SameChain es fs) (h' : SameChain fs ks) :
    SameChain es ks := fun x y => (h x y).trans (h' x y)
theorem SameChain.append {es fs es' fs' : List (P × P)} (h : SameChain es fs) (h' : SameChain es' fs') :
    SameChain (es ++ es') (fs ++ fs') := fun x y => by
  rw [balance_append, balance_append, h x y, h' x y]

/-- Sum around a triangle. -/
def tsum (g : P → P → A) (t : Tri P) : A := g t.a t.b + g t.b t.c + g t.c t.a

theorem esum_mesh (g : P → P → A) (ts : List (Tri P)) :
    esum g (meshEdges ts) = (ts.map (tsum g)).sum := by
  induction ts with
  | nil => rfl
  | cons t ts ih =>
    have : meshEdges (t :: ts) = sides t ++ meshEdges ts := by simp [meshEdges]
    rw [this, esum_append, ih]
    simp [sides, tsum, add_assoc]

theorem meshEdges_append (ts us : List (Tri P)) : meshEdges (ts ++ us) = meshEdges ts ++ meshEdges us := by
  simp [meshEdges]

theorem watertight_iff {ts : List (Tri P)} : Watertight ts ↔ SameChain (meshEdges ts) [] := by
  constructor
  · intro h x y; rw [balance_nil, balance, h x y, sub_self]
  · intro h x y; have := h x y; rw [balance_nil, balance] at this; omega

end Chrumm.Geo
