import Verif.Props.Ears
import Verif.Spec.Delaunay
import Mathlib.Tactic.Linarith
import Mathlib.Data.Set.Finite.Lattice
import Mathlib.Order.WellFounded
import Mathlib.Algebra.Order.Floor.Semiring

/-! C39, C40, C41: Delaunay flipping. -/

namespace Chrumm.Geo
open Spec

/-- The triangle `t` is `x y c`. -/
abbrev Rot := IsTriangle

def Distinct (t : Tri ℕ) : Prop := t.a ≠ t.b ∧ t.b ≠ t.c ∧ t.c ≠ t.a

theorem Spec.IsTriangle.distinct {t : Tri ℕ} {x y c : ℕ} (h : Rot t x y c) (hd : Distinct t) : x ≠ y ∧ y ≠ c ∧ c ≠ x := by
  rcases h with rfl | rfl | rfl <;> obtain ⟨h1, h2, h3⟩ := hd <;> exact ⟨by tauto, by tauto, by tauto⟩

theorem Spec.IsTriangle.distinct' {t : Tri ℕ} {x y c : ℕ} (h : Rot t x y c) (hd : x ≠ y ∧ y ≠ c ∧ c ≠ x) : Distinct t := by
  rcases h with rfl | rfl | rfl <;> obtain ⟨h1, h2, h3⟩ := hd <;> exact ⟨by tauto, by tauto, by tauto⟩

theorem Spec.IsTriangle.tsum {A : Type} [AddCommGroup A] (g : ℕ → ℕ → A) {t : Tri ℕ} {x y c : ℕ} (h : Rot t x y c) :
    tsum g t = g x y + g y c + g c x := by
  rcases h with rfl | rfl | rfl <;> unfold Geo.tsum <;> dsimp only <;> abel

theorem Spec.IsTriangle.edges {t : Tri ℕ} {x y c : ℕ} (h : Rot t x y c) (e : ℕ × ℕ) :
    e ∈ sides t ↔ e = (x, y) ∨ e = (y, c) ∨ e = (c, x) := by
  rcases h with rfl | rfl | rfl <;> simp [sides] <;> tauto

theorem Rot.of_edge {t : Tri ℕ} {x y : ℕ} (h : (x, y) ∈ sides t) : ∃ c, Rot t x y c := by
  obtain ⟨a, b, c⟩ := t
  simp only [sides, List.mem_cons, Prod.mk.injEq, List.not_mem_nil, or_false] at h
  rcases h with ⟨rfl, rfl⟩ | ⟨rfl, rfl⟩ | ⟨rfl, rfl⟩
  · exact ⟨c, Or.inl rfl⟩
  · exact ⟨a, Or.inr (Or.inl rfl)⟩
  · exact ⟨b, Or.inr (Or.inr rfl)⟩

theorem Spec.IsTriangle.opp {t : Tri ℕ} {x y c c' : ℕ} (h : Rot t x y c) (h' : Rot t x y c') (hd : Distinct t) : c = c' := by
  obtain ⟨h1, h2, h3⟩ := h.distinct hd
  rcases h with rfl | rfl | rfl <;> rcases h' with h | h | h <;>
    simp only [Tri.mk.injEq] at h <;> omega

theorem before_rot {t : Tri ℕ} {x y c : ℕ} (h : Rot t x y c) (hd : Distinct t) : before t x = .ok c := by
  obtain ⟨h1, h2, h3⟩ := h.distinct hd
  rcases h with rfl | rfl | rfl <;> simp [before, *]
  simp [h1.symm]

theorem replace_rot {t : Tri ℕ} {x y c : ℕ} (h : Rot t x y c) (hd : Distinct t) (d : ℕ) :
    ∃ t', replaceCorner t y d = .ok t' ∧ Rot t' x d c := by
  obtain ⟨h1, h2, h3⟩ := h.distinct hd
  rcases h with rfl | rfl | rfl
  · exact ⟨⟨x, d, c⟩, by simp [replaceCorner, h1], Or.inl rfl⟩
  · exact ⟨⟨c, x, d⟩, by simp [replaceCorner, h1, h2.symm], Or.inr (Or.inl rfl)⟩
  · exact ⟨⟨d, c, x⟩, by simp [replaceCorner], Or.inr (Or.inr rfl)⟩

/-- What holds in every round: triangles have different corners, and the table is right. -/
structure Inv (s : FlipState) : Prop where
  dist : ∀ t ∈ s.tris, Distinct t
  coh : ∀ x y k, s.lookup (x, y) = some k → ∃ t c, s.tris[k]? = some t ∧ Rot t x y c

/-- The table after a flip. -/
noncomputable def flipTable (l : ℕ × ℕ → Option ℕ) (a b c d k0 k1 : ℕ) : ℕ × ℕ → Option ℕ :=
  open Classical in
  assign (assign (assign (assign (assign (assign (assign (assign l (a, b) none) (b, a) none)
    (d, c) (some k0)) (c, a) (some k0)) (a, d) (some k0)) (c, d) (some k1)) (d, b) (some k1)) (b, c) (some k1)

/-- A flip. -/
structure Flip (points : List Vec) (s s' : FlipState) (a b : ℕ) : Prop where
  ex : ∃ k0 k1 t0 t1 t0' t1' c d, s.tris[k0]? = some t0 ∧ s.tris[k1]? = some t1 ∧ k0 ≠ k1 ∧
    s.lookup (a, b) = some k0 ∧ s.lookup (b, a) = some k1 ∧
    Rot t0 a b c ∧ Rot t1 b a d ∧ Rot t0' a d c ∧ Rot t1' b c d ∧ (a ≠ b ∧ b ≠ c ∧ c ≠ a ∧ d ≠ a ∧ d ≠ b ∧ c ≠ d) ∧
    1e-6 ≤ incircle (pt points a) (pt points b) (pt points c) (pt points d) ∧
    s'.tris = (s.tris.set k0 t0').set k1 t1' ∧ s'.lookup = flipTable s.lookup a b c d k0 k1 ∧
    s'.remaining = s.remaining ∪ {(c, a), (a, d), (d, b), (b, c)}

/-- The edge does not violate the criterion. -/
def Fine (points : List Vec) (s : FlipState) (a b : ℕ) : Prop :=
  ∀ k0 k1 t0 t1 c d, s.lookup (a, b) = some k0 → s.lookup (b, a) = some k1 → s.tris[k0]? = some t0 →
    s.tris[k1]? = some t1 → Rot t0 a b c → Rot t1 b a d →
    incircle (pt points a) (pt points b) (pt points c) (pt points d) < 1e-6

theorem incircle_self (a b c : Vec) : incircle a b c c = 0 := by
  simp [incircle]

theorem mem_of_getElem? {α : Type} {l : List α} {k : ℕ} {t : α} (h : l[k]? = some t) : t ∈ l :=
  List.mem_of_getElem? h

theorem getD_of {l : List (Tri ℕ)} {k : ℕ} {t : Tri ℕ} (h : l[k]? = some t) (x) : l.getD k x = t := by
  rw [List.getD_eq_getElem?_getD, h]; rfl

theorem body_cases (points : List Vec) (s : FlipState) (h : Inv s) (a b : ℕ) :
    (flipBody points s a b = .ok s ∧ Fine points s a b) ∨
    (∃ s', flipBody points s a b = .ok s' ∧ Flip points s s' a b) := by
  classical
  unfold flipBody
  rcases h0 : s.lookup (a, b) with _ | k0
  · left
    exact ⟨rfl, fun k0 k1 t0 t1 c d e => by rw [h0] at e; cases e⟩
  rcases h1 : s.lookup (b, a) with _ | k1
  · left
    exact ⟨rfl, fun k0 k1 t0 t1 c d _ e => by rw [h1] at e; cases e⟩
  obtain ⟨t0, c, ht0, hr0⟩ := h.coh _ _ _ h0
  obtain ⟨t1, d, ht1, hr1⟩ := h.coh _ _ _ h1
  have d0 := h.dist _ (mem_of_getElem? ht0)
  have d1 := h.dist _ (mem_of_getElem? ht1)
  obtain ⟨n1, n2, n3⟩ := hr0.distinct d0
  obtain ⟨m1, m2, m3⟩ := hr1.distinct d1
  dsimp only
  rw [getD_of ht0, getD_of ht1, before_rot hr0 d0, before_rot hr1 d1]
  dsimp only [bind, Except.bind]
  split_ifs with hin
  · left
    refine ⟨rfl, fun k0' k1' t0' t1' c' d' e0 e1 f0 f1 r0 r1 => ?_⟩
    rw [h0] at e0; rw [h1] at e1; cases e0; cases e1
    rw [ht0] at f0; rw [ht1] at f1; cases f0; cases f1
    rw [← hr0.opp r0 d0, ← hr1.opp r1 d1]
    exact hin
  · right
    have hcd : c ≠ d := by
      rintro rfl
      rw [incircle_self] at hin
      norm_num at hin
    have hk : k0 ≠ k1 := by
      rintro rfl
      rw [ht0] at ht1; cases ht1
      have := (hr1.edges (a, b)).mp ((hr0.edges _).mpr (Or.inl rfl))
      simp only [Prod.mk.injEq] at this
      omega
    obtain ⟨t0', e0, r0⟩ := replace_rot hr0 d0 d
    obtain ⟨t1', e1, r1⟩ := replace_rot hr1 d1 c
    rw [e0]
    dsimp only
    have ht1' : (s.tris.set k0 t0')[k1]? = some t1 := by rw [List.getElem?_set_ne hk, ht1]
    rw [getD_of ht1', e1]
    dsimp only
    have hk1 : delKey s.lookup (a, b) = .ok (assign s.lookup (a, b) none) := by
      unfold delKey; rw [h0]
    have hk2 : delKey (assign s.lookup (a, b) none) (b, a) =
        .ok (assign (assign s.lookup (a, b) none) (b, a) none) := by
      unfold delKey
      have : assign s.lookup (a, b) none (b, a) = some k1 := by
        rw [← h1]; unfold assign
        rw [if_neg]; simp only [Prod.mk.injEq]; omega
      rw [this]
    rw [hk1]
    dsimp only
    rw [hk2]
    refine ⟨_, rfl, ⟨k0, k1, t0, t1, t0', t1', c, d, ht0, ht1, hk, h0, h1, hr0, hr1, r0, r1,
      ⟨n1, n2, n3, m2.symm, m3, hcd⟩, not_lt.mp hin, rfl, rfl, rfl⟩⟩

theorem table_cases (l : ℕ × ℕ → Option ℕ) (a b c d k0 k1 : ℕ) (e : ℕ × ℕ) (k : ℕ)
    (h : flipTable l a b c d k0 k1 e = some k) :
    (k = k1 ∧ (e = (b, c) ∨ e = (d, b) ∨ e = (c, d))) ∨ (k = k0 ∧ (e = (a, d) ∨ e = (c, a) ∨ e = (d, c))) ∨
    (l e = some k ∧ e ≠ (b, c) ∧ e ≠ (d, b) ∧ e ≠ (c, d) ∧ e ≠ (a, d) ∧ e ≠ (c, a) ∧ e ≠ (d, c) ∧ e ≠ (a, b) ∧
      e ≠ (b, a)) := by
  unfold flipTable assign at h
  split_ifs at h <;> simp_all

theorem flip_get {α : Type} (l : List α) (k0 k1 : ℕ) (x0 x1 y0 y1 : α) (h0 : l[k0]? = some y0) (h1 : l[k1]? = some y1)
    (hk : k0 ≠ k1) : ((l.set k0 x0).set k1 x1)[k0]? = some x0 ∧ ((l.set k0 x0).set k1 x1)[k1]? = some x1 ∧
    ∀ k, k ≠ k0 → k ≠ k1 → ((l.set k0 x0).set k1 x1)[k]? = l[k]? := by
  have l0 := (List.getElem?_eq_some_iff.mp h0).1
  have l1 := (List.getElem?_eq_some_iff.mp h1).1
  refine ⟨?_, ?_, ?_⟩
  · rw [List.getElem?_set_ne hk.symm, List.getElem?_set_self l0]
  · rw [List.getElem?_set_self (by simpa using l1)]
  · intro k h h'
    rw [List.getElem?_set_ne h'.symm, List.getElem?_set_ne h.symm]

theorem flip_mem {α : Type} {l : List α} {k0 k1 : ℕ} {x0 x1 t : α} (h : t ∈ (l.set k0 x0).set k1 x1) :
    t ∈ l ∨ t = x0 ∨ t = x1 := by
  rcases List.mem_or_eq_of_mem_set h with h | h
  · rcases List.mem_or_eq_of_mem_set h with h | h <;> tauto
  · tauto

theorem Inv.flip {points : List Vec} {s s' : FlipState} {a b : ℕ} (h : Inv s) (hf : Flip points s s' a b) :
    Inv s' := by
  obtain ⟨k0, k1, t0, t1, t0', t1', c, d, ht0, ht1, hk, h0, h1, hr0, hr1, r0, r1, ⟨n1, n2, n3, n4, n5, n6⟩, hin,
    e1, e2, e3⟩ := hf.ex
  obtain ⟨g0, g1, g2⟩ := flip_get s.tris k0 k1 t0' t1' t0 t1 ht0 ht1 hk
  constructor
  · intro t ht
    rw [e1] at ht
    rcases flip_mem ht with ht | rfl | rfl
    · exact h.dist t ht
    · exact r0.distinct' ⟨by omega, by omega, by omega⟩
    · exact r1.distinct' ⟨by omega, by omega, by omega⟩
  · intro x y k hl
    rw [e2] at hl
    rw [e1]
    rcases table_cases _ _ _ _ _ _ _ _ _ hl with ⟨rfl, he⟩ | ⟨rfl, he⟩ | ⟨hl, p1, p2, p3, p4, p5, p6, p7, p8⟩
    · obtain ⟨z, hz⟩ := Rot.of_edge ((r1.edges (x, y)).mpr (by tauto))
      exact ⟨t1', z, g1, hz⟩
    · obtain ⟨z, hz⟩ := Rot.of_edge ((r0.edges (x, y)).mpr (by tauto))
      exact ⟨t0', z, g0, hz⟩
    · obtain ⟨t, z, ht, hz⟩ := h.coh x y k hl
      have k0' : k ≠ k0 := by
        rintro rfl
        rw [ht0] at ht; cases ht
        have := (hr0.edges (x, y)).mp ((hz.edges _).mpr (Or.inl rfl))
        tauto
      have k1' : k ≠ k1 := by
        rintro rfl
        rw [ht1] at ht; cases ht
        have := (hr1.edges (x, y)).mp ((hz.edges _).mpr (Or.inl rfl))
        tauto
      exact ⟨t, z, by rw [g2 k k0' k1', ht], hz⟩

theorem Inv.erase {s : FlipState} (h : Inv s) (r) : Inv { s with remaining := r } := ⟨h.dist, h.coh⟩

/-! ### The start -/

theorem sides_keys (t : Tri ℕ) (e : ℕ × ℕ) : e ∈ triKeys t ↔ e ∈ sides t := by
  simp only [triKeys, sides, List.mem_cons, List.not_mem_nil, or_false]; tauto

theorem assign_fold (es : List ((ℕ × ℕ) × ℕ)) (l : ℕ × ℕ → Option ℕ) (e : ℕ × ℕ) :
    (∀ k, es.foldl (fun l (x : (ℕ × ℕ) × ℕ) => assign l x.1 (some x.2)) l e = some k → l e = some k ∨ (e, k) ∈ es) ∧
    ((l e ≠ none ∨ ∃ k, (e, k) ∈ es) → es.foldl (fun l (x : (ℕ × ℕ) × ℕ) => assign l x.1 (some x.2)) l e ≠ none) := by
  induction es generalizing l with
  | nil => simp
  | cons x es ih =>
    obtain ⟨i1, i2⟩ := ih (assign l x.1 (some x.2))
    constructor
    · intro k hk
      rw [List.foldl_cons] at hk
      rcases i1 k hk with h | h
      · unfold assign at h
        split_ifs at h with he
        · right; subst he; cases h; exact List.mem_cons_self
        · exact Or.inl h
      · exact Or.inr (.tail _ h)
    · intro h
      rw [List.foldl_cons]
      apply i2
      by_cases he : e = x.1
      · left; simp [assign, he]
      · rcases h with h | ⟨k, h⟩
        · left; simpa [assign, he] using h
        · rcases List.mem_cons.mp h with h | h
          · subst h; exact absurd rfl he
          · exact Or.inr ⟨k, h⟩

theorem init_table (tris : List (Tri ℕ)) (e : ℕ × ℕ) :
    (∀ k, (flipInit tris).lookup e = some k → ∃ t, tris[k]? = some t ∧ e ∈ sides t) ∧
    (e ∈ meshEdges tris → (flipInit tris).lookup e ≠ none) := by
  have hm : ∀ k, (e, k) ∈ (tris.zipIdx.flatMap fun (t, k) => (triKeys t).map fun e => (e, k)) ↔
      ∃ t, tris[k]? = some t ∧ e ∈ sides t := by
    intro k
    simp only [List.mem_flatMap, List.mem_map, Prod.mk.injEq, Prod.exists]
    constructor
    · rintro ⟨t, k', hm, e1, e2, he', rfl, rfl⟩
      exact ⟨t, List.mk_mem_zipIdx_iff_getElem?.mp hm, (sides_keys _ _).mp he'⟩
    · rintro ⟨t, ht, he⟩
      exact ⟨t, k, List.mk_mem_zipIdx_iff_getElem?.mpr ht, e.1, e.2, (sides_keys _ _).mpr he, rfl, rfl⟩
  obtain ⟨h1, h2⟩ := assign_fold (tris.zipIdx.flatMap fun (t, k) => (triKeys t).map fun e => (e, k)) (fun _ => none) e
  constructor
  · intro k hk
    rcases h1 k hk with h | h
    · cases h
    · exact (hm k).mp h
  · intro he
    refine h2 (Or.inr ?_)
    obtain ⟨t, ht, he⟩ := List.mem_flatMap.mp he
    obtain ⟨k, hk, rfl⟩ := List.mem_iff_getElem.mp ht
    exact ⟨k, (hm k).mpr ⟨_, List.getElem?_eq_getElem hk, he⟩⟩

theorem Inv.init {tris : List (Tri ℕ)} (h : ∀ t ∈ tris, Distinct t) : Inv (flipInit tris) := by
  refine ⟨h, fun x y k hk => ?_⟩
  obtain ⟨t, ht, he⟩ := (init_table tris (x, y)).1 k hk
  obtain ⟨c, hc⟩ := Rot.of_edge he
  exact ⟨t, c, ht, hc⟩

/-- What a round does. -/
theorem round_cases (points : List Vec) (s : FlipState) (h : Inv s) (e : ℕ × ℕ) :
    (flipRound points s e = .ok { s with remaining := s.remaining.erase e } ∧ Fine points s e.1 e.2) ∨
    (∃ s', flipRound points s e = .ok s' ∧
      Flip points { s with remaining := s.remaining.erase e } s' e.1 e.2) :=
  body_cases points _ (h.erase _) e.1 e.2

/-- What holds in every reachable state. -/
theorem reach_ind {points : List Vec} {tris : List (Tri ℕ)} (ht : ∀ t ∈ tris, Distinct t) (M : FlipState → Prop)
    (h0 : M (flipInit tris))
    (h1 : ∀ s e, Inv s → e ∈ s.remaining → M s → Fine points s e.1 e.2 → M { s with remaining := s.remaining.erase e })
    (h2 : ∀ s s' e, Inv s → Inv s' → e ∈ s.remaining → M s →
      Flip points { s with remaining := s.remaining.erase e } s' e.1 e.2 → M s')
    (s : FlipState) (hs : Relation.ReflTransGen (FlipStep points) (flipInit tris) s) : Inv s ∧ M s := by
  induction hs with
  | refl => exact ⟨Inv.init ht, h0⟩
  | tail _ hstep ih =>
    obtain ⟨hi, hm⟩ := ih
    obtain ⟨e, he, hr⟩ := hstep
    rcases round_cases points _ hi e with ⟨hr', hf⟩ | ⟨s', hr', hf⟩
    · rw [hr] at hr'; cases hr'
      exact ⟨hi.erase _, h1 _ _ hi he hm hf⟩
    · rw [hr] at hr'; cases hr'
      have := (hi.erase _).flip hf
      exact ⟨this, h2 _ _ _ hi this he hm hf⟩

/-! ### Sums -/

theorem sum_set {α A : Type} [AddCommGroup A] (f : α → A) : ∀ (l : List α) (k : ℕ) (t u : α), l[k]? = some t →
    ((l.set k u).map f).sum = (l.map f).sum - f t + f u
  | [], k, t, u, h => by simp at h
  | x :: l, 0, t, u, h => by simp at h; subst h; simp; abel
  | x :: l, k + 1, t, u, h => by
    simp at h
    have ih := sum_set f l k t u h
    simp only [List.set_cons_succ, List.map_cons, List.sum_cons, ih]; abel

theorem sum_flip {α A : Type} [AddCommGroup A] (f : α → A) {l : List α} {k0 k1 : ℕ} {t0 t1 : α} (u0 u1 : α)
    (h0 : l[k0]? = some t0) (h1 : l[k1]? = some t1) (hk : k0 ≠ k1) :
    (((l.set k0 u0).set k1 u1).map f).sum = (l.map f).sum - f t0 - f t1 + f u0 + f u1 := by
  rw [sum_set f _ k1 t1 u1 (by rw [List.getElem?_set_ne hk, h1]), sum_set f l k0 t0 u0 h0]; abel

/-- The signed area of a triangle of indices, twice. -/
def twice (pos : ℕ → Vec) (t : Tri ℕ) : ℝ := left (pos t.a) (pos t.b) (pos t.c)

theorem Spec.IsTriangle.twice (pos : ℕ → Vec) {t : Tri ℕ} {x y c : ℕ} (h : Rot t x y c) :
    twice pos t = left (pos x) (pos y) (pos c) := by
  rcases h with rfl | rfl | rfl <;> unfold Geo.twice left <;> dsimp only <;> ring

def sq (p : Vec) : ℝ := p.x ^ 2 + p.y ^ 2

/-- The volume below the triangle lifted to a paraboloid, up to a factor. -/
def lift (pos : ℕ → Vec) (t : Tri ℕ) : ℝ := twice pos t * (sq (pos t.a) + sq (pos t.b) + sq (pos t.c))

theorem Spec.IsTriangle.lift (pos : ℕ → Vec) {t : Tri ℕ} {x y c : ℕ} (h : Rot t x y c) :
    lift pos t = left (pos x) (pos y) (pos c) * (sq (pos x) + sq (pos y) + sq (pos c)) := by
  unfold Geo.lift
  rw [h.twice]
  rcases h with rfl | rfl | rfl <;> dsimp only <;> ring

theorem lift_flip (a b c d : Vec) :
    left a d c * (sq a + sq d + sq c) + left b c d * (sq b + sq c + sq d) =
    left a b c * (sq a + sq b + sq c) + left b a d * (sq b + sq a + sq d) - incircle a b c d := by
  unfold left sq incircle
  simp only [Vec.sub_x, Vec.sub_y]
  ring

theorem left_flip (a b c d : Vec) : left a d c + left b c d = left a b c + left b a d := by
  unfold left; ring

/-- The potential. -/
def potential (points : List Vec) (ts : List (Tri ℕ)) : ℝ := (ts.map (lift (pt points))).sum

theorem pt_finite (points : List Vec) : (Set.range (pt points)).Finite := by
  refine ((points.toFinset ∪ {0}).finite_toSet).subset ?_
  rintro _ ⟨i, rfl⟩
  unfold pt
  rw [List.getD_eq_getElem?_getD]
  rcases h : points[i]? with _ | v
  · simp
  · have := List.mem_of_getElem? h
    simp [this]

theorem lift_bound (points : List Vec) : ∃ B : ℝ, ∀ t, -B ≤ lift (pt points) t := by
  have hf : (Set.range (lift (pt points))).Finite := by
    have h1 := pt_finite points
    have h2 := (h1.prod (h1.prod h1)).image fun p : Vec × Vec × Vec =>
      left p.1 p.2.1 p.2.2 * (sq p.1 + sq p.2.1 + sq p.2.2)
    refine h2.subset ?_
    rintro _ ⟨t, rfl⟩
    exact ⟨(pt points t.a, pt points t.b, pt points t.c), ⟨⟨_, rfl⟩, ⟨_, rfl⟩, ⟨_, rfl⟩⟩, rfl⟩
  obtain ⟨B, hB⟩ := hf.bddBelow
  exact ⟨-B, fun t => by rw [neg_neg]; exact hB ⟨t, rfl⟩⟩

theorem potential_bound {points : List Vec} {B : ℝ} (hB : ∀ t, -B ≤ lift (pt points) t) (ts : List (Tri ℕ)) :
    0 ≤ potential points ts + ts.length * B := by
  unfold potential
  induction ts with
  | nil => simp
  | cons t ts ih =>
    have := hB t
    simp only [List.map_cons, List.sum_cons, List.length_cons]
    push_cast
    linarith

theorem Flip.length {points : List Vec} {s s' : FlipState} {a b : ℕ} (hf : Flip points s s' a b) :
    s'.tris.length = s.tris.length := by
  obtain ⟨k0, k1, t0, t1, t0', t1', c, d, ht0, ht1, hk, h0, h1, hr0, hr1, r0, r1, -, hin, e1, e2, e3⟩ := hf.ex
  rw [e1]; simp

theorem Flip.potential {points : List Vec} {s s' : FlipState} {a b : ℕ} (hf : Flip points s s' a b) :
    potential points s'.tris ≤ potential points s.tris - 1e-6 := by
  obtain ⟨k0, k1, t0, t1, t0', t1', c, d, ht0, ht1, hk, h0, h1, hr0, hr1, r0, r1, -, hin, e1, e2, e3⟩ := hf.ex
  unfold Geo.potential
  rw [e1, sum_flip _ _ _ ht0 ht1 hk, hr0.lift, hr1.lift, r0.lift, r1.lift]
  have := lift_flip (pt points a) (pt points b) (pt points c) (pt points d)
  linarith

/-- The measure: potential in steps of 1e-6, then the number of remaining edges. -/
noncomputable def flipMeasure (points : List Vec) (B : ℝ) (s : FlipState) : ℕ ×ₗ ℕ :=
  toLex (⌊(potential points s.tris + s.tris.length * B) * 1e6⌋₊, s.remaining.card)

theorem step_measure {points : List Vec} {B : ℝ} (hB : ∀ t, -B ≤ lift (pt points) t) {s s' : FlipState}
    (h : Inv s) (hs : FlipStep points s s') : Inv s' ∧ flipMeasure points B s' < flipMeasure points B s := by
  obtain ⟨e, he, hr⟩ := hs
  rcases round_cases points _ h e with ⟨hr', hf⟩ | ⟨t, hr', hf⟩
  · rw [hr] at hr'; cases hr'
    refine ⟨h.erase _, ?_⟩
    rw [Prod.Lex.lt_iff]
    exact Or.inr ⟨rfl, Finset.card_lt_card (Finset.erase_ssubset he)⟩
  · rw [hr] at hr'; cases hr'
    refine ⟨(h.erase _).flip hf, ?_⟩
    rw [Prod.Lex.lt_iff]
    left
    show ⌊_⌋₊ < ⌊_⌋₊
    have h1 := hf.potential
    have h2 := hf.length
    have h3 := potential_bound hB s'.tris
    dsimp only at h1 h2
    rw [h2] at h3 ⊢
    have h4 : (Geo.potential points s'.tris + s.tris.length * B) * 1e6 + 1 ≤
        (Geo.potential points s.tris + s.tris.length * B) * 1e6 := by linarith
    have h5 := Nat.floor_le_floor h4
    rw [Nat.floor_add_one (by positivity)] at h5
    omega

/-- **C39** Flipping ends, in whatever order the edges are taken: no execution goes on forever. -/
theorem C39_no_infinite_run (points : List Vec) (tris : List (Tri ℕ))
    (ht : ∀ t ∈ tris, t.a ≠ t.b ∧ t.b ≠ t.c ∧ t.c ≠ t.a) :
    ¬ ∃ run : ℕ → FlipState, run 0 = flipInit tris ∧ ∀ n, FlipStep points (run n) (run (n + 1)) := by
  rintro ⟨run, h0, hrun⟩
  obtain ⟨B, hB⟩ := lift_bound points
  have hinv : ∀ n, Inv (run n) := by
    intro n
    induction n with
    | zero => rw [h0]; exact Inv.init ht
    | succ n ih => exact (step_measure hB ih (hrun n)).1
  have hlt : ∀ n, flipMeasure points B (run (n + 1)) < flipMeasure points B (run n) := fun n =>
    (step_measure hB (hinv n) (hrun n)).2
  exact (wellFounded_iff_isEmpty_descending_chain.mp (wellFounded_lt (α := ℕ ×ₗ ℕ))).false ⟨fun n => flipMeasure points B (run n), hlt⟩

/-- **C39** Each round succeeds, and from every reachable state, a finished state can be reached: together
with termination, every execution finishes. -/
theorem C39_finishes (points : List Vec) (tris : List (Tri ℕ))
    (ht : ∀ t ∈ tris, t.a ≠ t.b ∧ t.b ≠ t.c ∧ t.c ≠ t.a) (s : FlipState)
    (hs : Relation.ReflTransGen (FlipStep points) (flipInit tris) s) :
    (∀ e ∈ s.remaining, ∃ s', flipRound points s e = .ok s') ∧
    ∃ s', Relation.ReflTransGen (FlipStep points) s s' ∧ s'.remaining = ∅ := by
  obtain ⟨B, hB⟩ := lift_bound points
  have hi := (reach_ind ht (fun _ => True) trivial (fun _ _ _ _ _ _ => trivial) (fun _ _ _ _ _ _ _ _ => trivial) s hs).1
  have hok : ∀ s, Inv s → ∀ e, ∃ s', flipRound points s e = .ok s' := by
    intro s hi e
    rcases round_cases points s hi e with ⟨h, -⟩ | ⟨s', h, -⟩
    · exact ⟨_, h⟩
    · exact ⟨_, h⟩
  refine ⟨fun e _ => hok s hi e, ?_⟩
  generalize hm : flipMeasure points B s = m
  clear hs
  induction m using WellFoundedLT.induction generalizing s with
  | ind m ih =>
    rcases Finset.eq_empty_or_nonempty s.remaining with h | ⟨e, he⟩
    · exact ⟨s, .refl, h⟩
    · obtain ⟨s', hs'⟩ := hok s hi e
      have hstep : FlipStep points s s' := ⟨e, he, hs'⟩
      obtain ⟨h1, h2⟩ := step_measure hB hi hstep
      obtain ⟨s'', h3, h4⟩ := ih _ (hm ▸ h2) s' h1 rfl
      exact ⟨s'', .head hstep h3, h4⟩

/-! ### The surface -/

theorem Flip.sum {A : Type} [AddCommGroup A] {g : ℕ → ℕ → A} (hg : Anti g) {points : List Vec} {s s' : FlipState}
    {a b : ℕ} (hf : Flip points s s' a b) :
    (s'.tris.map (Geo.tsum g)).sum = (s.tris.map (Geo.tsum g)).sum := by
  obtain ⟨k0, k1, t0, t1, t0', t1', c, d, ht0, ht1, hk, h0, h1, hr0, hr1, r0, r1, -, hin, e1, e2, e3⟩ := hf.ex
  rw [e1, sum_flip _ _ _ ht0 ht1 hk, hr0.tsum, hr1.tsum, r0.tsum, r1.tsum, hg.swap c d, hg.swap b a]
  abel

theorem Flip.area {points : List Vec} {s s' : FlipState} {a b : ℕ} (hf : Flip points s s' a b) :
    (s'.tris.map (Geo.twice (pt points))).sum = (s.tris.map (Geo.twice (pt points))).sum := by
  obtain ⟨k0, k1, t0, t1, t0', t1', c, d, ht0, ht1, hk, h0, h1, hr0, hr1, r0, r1, -, hin, e1, e2, e3⟩ := hf.ex
  rw [e1, sum_flip _ _ _ ht0 ht1 hk, hr0.twice, hr1.twice, r0.twice, r1.twice]
  have := left_flip (pt points a) (pt points b) (pt points c) (pt points d)
  linarith

/-- The three corners of a triangle. -/
def corners (t : Tri ℕ) : List ℕ := [t.a, t.b, t.c]

theorem Spec.IsTriangle.corners {t : Tri ℕ} {x y c : ℕ} (h : Rot t x y c) (v : ℕ) :
    v ∈ corners t ↔ v = x ∨ v = y ∨ v = c := by
  rcases h with rfl | rfl | rfl <;> simp [Geo.corners] <;> tauto

theorem Flip.corners {points : List Vec} {s s' : FlipState} {a b : ℕ} (hf : Flip points s s' a b) (v : ℕ)
    (hv : v ∈ s'.tris.flatMap Geo.corners) : v ∈ s.tris.flatMap Geo.corners := by
  obtain ⟨k0, k1, t0, t1, t0', t1', c, d, ht0, ht1, hk, h0, h1, hr0, hr1, r0, r1, -, hin, e1, e2, e3⟩ := hf.ex
  rw [e1] at hv
  obtain ⟨t, ht, hv'⟩ := List.mem_flatMap.mp hv
  have m0 : ∀ v, v = a ∨ v = b ∨ v = c → v ∈ s.tris.flatMap Geo.corners := fun v h =>
    List.mem_flatMap.mpr ⟨t0, mem_of_getElem? ht0, (hr0.corners v).mpr h⟩
  have m1 : ∀ v, v = b ∨ v = a ∨ v = d → v ∈ s.tris.flatMap Geo.corners := fun v h =>
    List.mem_flatMap.mpr ⟨t1, mem_of_getElem? ht1, (hr1.corners v).mpr h⟩
  rcases flip_mem ht with ht | rfl | rfl
  · exact List.mem_flatMap.mpr ⟨t, ht, hv'⟩
  · rcases (r0.corners v).mp hv' with h | h | h
    · exact m0 v (by tauto)
    · exact m1 v (by tauto)
    · exact m0 v (by tauto)
  · rcases (r1.corners v).mp hv' with h | h | h
    · exact m0 v (by tauto)
    · exact m0 v (by tauto)
    · exact m1 v (by tauto)

/-- **C40** Flipping keeps the number of triangles, uses no other corners, and keeps the boundary and the
total signed area. All triangles still have three different corners. -/
theorem C40_surface (points : List Vec) (tris out : List (Tri ℕ))
    (ht : ∀ t ∈ tris, t.a ≠ t.b ∧ t.b ≠ t.c ∧ t.c ≠ t.a) (h : FlipRun points tris out) :
    out.length = tris.length ∧ (∀ t ∈ out, t.a ≠ t.b ∧ t.b ≠ t.c ∧ t.c ≠ t.a) ∧
    (∀ t ∈ out, ∀ v ∈ [t.a, t.b, t.c], ∃ u ∈ tris, v ∈ [u.a, u.b, u.c]) ∧
    SameChain (meshEdges out) (meshEdges tris) ∧
    (out.map fun t => left (pt points t.a) (pt points t.b) (pt points t.c)).sum =
      (tris.map fun t => left (pt points t.a) (pt points t.b) (pt points t.c)).sum := by
  obtain ⟨s, hs, -, rfl⟩ := h
  obtain ⟨hi, h1, h2, h3, h4⟩ := reach_ind ht (fun s => s.tris.length = tris.length ∧
      (∀ v ∈ s.tris.flatMap corners, v ∈ tris.flatMap corners) ∧
      (∀ g : ℕ → ℕ → ℤ, Anti g → (s.tris.map (Geo.tsum g)).sum = (tris.map (Geo.tsum g)).sum) ∧
      (s.tris.map (twice (pt points))).sum = (tris.map (twice (pt points))).sum)
    ⟨rfl, fun _ h => h, fun _ _ => rfl, rfl⟩ (fun _ _ _ _ h _ => h)
    (fun s s' e _ _ _ h hf => ⟨hf.length.trans h.1, fun v hv => h.2.1 v (hf.corners v hv),
      fun g hg => (hf.sum hg).trans (h.2.2.1 g hg), hf.area.trans h.2.2.2⟩) s hs
  refine ⟨h1, hi.dist, fun t ht v hv => ?_, ?_, h4⟩
  · exact List.mem_flatMap.mp (h2 v (List.mem_flatMap.mpr ⟨t, ht, hv⟩))
  · rw [sameChain_iff]
    intro g hg
    rw [esum_mesh, esum_mesh, h3 g hg]

/-- A flip of two counter-clockwise triangles makes counter-clockwise triangles. -/
theorem flip_ccw {a b c d : Vec} (h0 : 0 < left a b c) (h1 : 0 < left b a d) (hin : 0 < incircle a b c d) :
    0 < left a d c ∧ 0 < left b c d := by
  have key : ∀ (α β γ ax ay bx by' cx cy : ℝ), 0 < α + β + γ → γ < 0 →
      α * ax + β * bx + γ * cx = 0 → α * ay + β * by' + γ * cy = 0 →
      0 < α * (ax ^ 2 + ay ^ 2) + β * (bx ^ 2 + by' ^ 2) + γ * (cx ^ 2 + cy ^ 2) → 0 < β := by
    intro α β γ ax ay bx by' cx cy hs hγ hx hy hdet
    by_contra hβ
    have hβ' : 0 ≤ -β := by linarith
    have hα : 0 < α := by linarith
    have e1 : (α * ax) ^ 2 + (α * ay) ^ 2 = (-β * bx + -γ * cx) ^ 2 + (-β * by' + -γ * cy) ^ 2 := by
      rw [show α * ax = -β * bx + -γ * cx by linarith, show α * ay = -β * by' + -γ * cy by linarith]
    have e2 : (-β * bx + -γ * cx) ^ 2 + (-β * by' + -γ * cy) ^ 2 ≤
        (-β + -γ) * (-β * (bx ^ 2 + by' ^ 2) + -γ * (cx ^ 2 + cy ^ 2)) := by
      nlinarith [mul_nonneg (mul_nonneg hβ' (by linarith : (0:ℝ) ≤ -γ)) (sq_nonneg (bx - cx)),
        mul_nonneg (mul_nonneg hβ' (by linarith : (0:ℝ) ≤ -γ)) (sq_nonneg (by' - cy))]
    have hS : 0 ≤ -β * (bx ^ 2 + by' ^ 2) + -γ * (cx ^ 2 + cy ^ 2) := by
      have h1 : 0 ≤ -β * (bx ^ 2 + by' ^ 2) := mul_nonneg hβ' (by positivity)
      have h2 : 0 ≤ -γ * (cx ^ 2 + cy ^ 2) := mul_nonneg (by linarith) (by positivity)
      linarith
    have e3 : (-β + -γ) * (-β * (bx ^ 2 + by' ^ 2) + -γ * (cx ^ 2 + cy ^ 2)) ≤
        α * (-β * (bx ^ 2 + by' ^ 2) + -γ * (cx ^ 2 + cy ^ 2)) := mul_le_mul_of_nonneg_right (by linarith) hS
    have e4 : α * (-β * (bx ^ 2 + by' ^ 2) + -γ * (cx ^ 2 + cy ^ 2)) < α * (α * (ax ^ 2 + ay ^ 2)) :=
      mul_lt_mul_of_pos_left (by linarith) hα
    nlinarith
  have e : incircle a b c d = left b c d * ((a.x - d.x) ^ 2 + (a.y - d.y) ^ 2) +
      left a d c * ((b.x - d.x) ^ 2 + (b.y - d.y) ^ 2) + -left b a d * ((c.x - d.x) ^ 2 + (c.y - d.y) ^ 2) := by
    unfold incircle left; simp only [Vec.sub_x, Vec.sub_y]; ring
  have es : left b c d + left a d c + -left b a d = left a b c := by unfold left; ring
  have ex : left b c d * (a.x - d.x) + left a d c * (b.x - d.x) + -left b a d * (c.x - d.x) = 0 := by
    unfold left; ring
  have ey : left b c d * (a.y - d.y) + left a d c * (b.y - d.y) + -left b a d * (c.y - d.y) = 0 := by
    unfold left; ring
  rw [e] at hin
  constructor
  · exact key _ _ _ _ _ _ _ _ _ (by linarith) (by linarith) ex ey hin
  · exact key (left a d c) (left b c d) (-left b a d) (b.x - d.x) (b.y - d.y) (a.x - d.x) (a.y - d.y)
      (c.x - d.x) (c.y - d.y) (by linarith) (by linarith)
      (by linarith [ex]) (by linarith [ey]) (by linarith [hin])

theorem Flip.ccw {points : List Vec} {s s' : FlipState} {a b : ℕ} (hf : Flip points s s' a b)
    (h : ∀ t ∈ s.tris, 0 < Geo.twice (pt points) t) : ∀ t ∈ s'.tris, 0 < Geo.twice (pt points) t := by
  obtain ⟨k0, k1, t0, t1, t0', t1', c, d, ht0, ht1, hk, h0, h1, hr0, hr1, r0, r1, -, hin, e1, e2, e3⟩ := hf.ex
  have p0 := h _ (mem_of_getElem? ht0)
  have p1 := h _ (mem_of_getElem? ht1)
  rw [hr0.twice] at p0
  rw [hr1.twice] at p1
  obtain ⟨q0, q1⟩ := flip_ccw p0 p1 (lt_of_lt_of_le (by norm_num) hin)
  intro t ht
  rw [e1] at ht
  rcases flip_mem ht with ht | rfl | rfl
  · exact h t ht
  · rw [r0.twice]; exact q0
  · rw [r1.twice]; exact q1

theorem reach_ccw {points : List Vec} {tris : List (Tri ℕ)} (ht : ∀ t ∈ tris, Distinct t)
    (hc : ∀ t ∈ tris, 0 < twice (pt points) t) (s : FlipState)
    (hs : Relation.ReflTransGen (FlipStep points) (flipInit tris) s) : ∀ t ∈ s.tris, 0 < twice (pt points) t :=
  (reach_ind ht (fun s => ∀ t ∈ s.tris, 0 < twice (pt points) t) hc (fun _ _ _ _ h _ => h)
    (fun _ _ _ _ _ _ h hf => hf.ccw h) s hs).2

theorem ccw_distinct {pos : ℕ → Vec} {t : Tri ℕ} (h : 0 < left (pos t.a) (pos t.b) (pos t.c)) :
    t.a ≠ t.b ∧ t.b ≠ t.c ∧ t.c ≠ t.a := by
  refine ⟨?_, ?_, ?_⟩ <;> intro e <;> rw [e] at h <;> unfold left at h <;> ring_nf at h <;>
    exact lt_irrefl _ h

/-- **C40** Counter-clockwise triangles stay counter-clockwise. -/
theorem C40_ccw (points : List Vec) (tris out : List (Tri ℕ))
    (hc : ∀ t ∈ tris, 0 < left (pt points t.a) (pt points t.b) (pt points t.c)) (h : FlipRun points tris out) :
    ∀ t ∈ out, 0 < left (pt points t.a) (pt points t.b) (pt points t.c) := by
  obtain ⟨s, hs, -, rfl⟩ := h
  exact reach_ccw (fun t ht => ccw_distinct (hc t ht)) hc s hs

/-! ### The criterion -/

theorem incircle_swap (a b c d : Vec) : incircle b a d c = incircle a b c d := by
  unfold incircle; simp only [Vec.sub_x, Vec.sub_y]; ring

theorem incircle_flip (a b c d : Vec) : incircle d c a b = -incircle a b c d := by
  unfold incircle; simp only [Vec.sub_x, Vec.sub_y]; ring

theorem incircle_circle {a b c d o : Vec} (h1 : distSq2D o a = distSq2D o b) (h2 : distSq2D o a = distSq2D o c) :
    incircle a b c d = left a b c * (distSq2D o a - distSq2D o d) := by
  have : incircle a b c d = left b c d * distSq2D o a + left a d c * distSq2D o b + -left b a d * distSq2D o c -
      left a b c * distSq2D o d := by
    unfold incircle distSq2D left; simp only [Vec.sub_x, Vec.sub_y]; ring
  rw [this, ← h1, ← h2]
  unfold left; ring

theorem Fine.symm {points : List Vec} {s : FlipState} {a b : ℕ} (h : Fine points s a b) : Fine points s b a := by
  intro k0 k1 t0 t1 c d l0 l1 g0 g1 r0 r1
  rw [incircle_swap]
  exact h k1 k0 t1 t0 d c l1 l0 g1 g0 r1 r0

/-- Edges that are not fine will be visited. -/
def Visited (points : List Vec) (s : FlipState) : Prop :=
  ∀ x y, (x, y) ∉ s.remaining → (y, x) ∉ s.remaining → Fine points s x y

theorem visited_init (points : List Vec) (tris : List (Tri ℕ)) : Visited points (flipInit tris) := by
  intro x y h _ k0 k1 t0 t1 c d l0 _ _ _ _ _
  exfalso
  apply h
  obtain ⟨t, ht, he⟩ := (init_table tris (x, y)).1 k0 l0
  simp only [flipInit, List.mem_toFinset, List.mem_flatMap]
  exact ⟨t, mem_of_getElem? ht, (sides_keys _ _).mpr he⟩

theorem visited_skip {points : List Vec} {s : FlipState} {e : ℕ × ℕ} (h : Visited points s)
    (hf : Fine points s e.1 e.2) : Visited points { s with remaining := s.remaining.erase e } := by
  intro x y h1 h2
  simp only [Finset.mem_erase, not_and_or, not_not] at h1 h2
  rcases h1 with rfl | h1
  · exact hf
  · rcases h2 with rfl | h2
    · exact hf.symm
    · exact h x y h1 h2

theorem visited_flip {points : List Vec} {s s' : FlipState} {e : ℕ × ℕ} (hi : Inv s) (hi' : Inv s')
    (h : Visited points s) (hf : Flip points { s with remaining := s.remaining.erase e } s' e.1 e.2) :
    Visited points s' := by
  obtain ⟨a, b⟩ := e
  obtain ⟨k0, k1, t0, t1, t0', t1', c, d, ht0, ht1, hk, h0, h1, hr0, hr1, r0, r1, ⟨n1, n2, n3, n4, n5, n6⟩, hin,
    e1, e2, e3⟩ := hf.ex
  dsimp only at *
  obtain ⟨g0, g1, g2⟩ := flip_get s.tris k0 k1 t0' t1' t0 t1 ht0 ht1 hk
  -- the new edge
  have hnew : Fine points s' d c := by
    intro j0 j1 u0 u1 c' d' l0 l1 q0 q1 s0 s1
    have l0' : flipTable s.lookup a b c d k0 k1 (d, c) = some k0 := by
      simp [flipTable, assign, n1, n2, n3, n4, n5, n6, n1.symm, n2.symm, n3.symm, n4.symm, n5.symm, n6.symm]
    have l1' : flipTable s.lookup a b c d k0 k1 (c, d) = some k1 := by
      simp [flipTable, assign, n1, n2, n3, n4, n5, n6, n1.symm, n2.symm, n3.symm, n4.symm, n5.symm, n6.symm]
    rw [e2, l0'] at l0
    rw [e2, l1'] at l1
    cases l0; cases l1
    rw [e1, g0] at q0
    rw [e1, g1] at q1
    cases q0; cases q1
    have w0 : Rot t0' d c a := by rcases r0 with h | h | h <;> simp [h, Rot, IsTriangle]
    have w1 : Rot t1' c d b := by rcases r1 with h | h | h <;> simp [h, Rot, IsTriangle]
    have hd0 := hi'.dist t0' (mem_of_getElem? (by rw [e1]; exact g0))
    have hd1 := hi'.dist t1' (mem_of_getElem? (by rw [e1]; exact g1))
    rw [← w0.opp s0 hd0, ← w1.opp s1 hd1, incircle_flip]
    linarith
  intro x y hx hy
  rw [e3] at hx hy
  simp only [Finset.mem_union, Finset.mem_erase, Finset.mem_insert, Finset.mem_singleton, not_or, not_and] at hx hy
  by_cases hdc : (x, y) = (d, c)
  · cases hdc; exact hnew
  by_cases hcd : (x, y) = (c, d)
  · cases hcd; exact hnew.symm
  -- the others: nothing changed
  obtain ⟨hx1, hx2, hx3, hx4, hx5⟩ := hx
  obtain ⟨hy1, hy2, hy3, hy4, hy5⟩ := hy
  intro j0 j1 u0 u1 c' d' l0 l1 q0 q1 s0 s1
  rw [e2] at l0 l1
  have swap : ∀ p q : ℕ, (x, y) = (q, p) → (y, x) = (p, q) := by
    intro p q h; cases h; rfl
  rcases table_cases _ _ _ _ _ _ _ _ _ l0 with ⟨rfl, he⟩ | ⟨rfl, he⟩ | ⟨l0', -, -, -, -, -, -, p7, p8⟩
  · tauto
  · tauto
  rcases table_cases _ _ _ _ _ _ _ _ _ l1 with ⟨rfl, he⟩ | ⟨rfl, he⟩ | ⟨l1', -, -, -, -, -, -, p7', p8'⟩
  · rcases he with h | h | h
    · tauto
    · tauto
    · cases h; exact absurd rfl hdc
  · rcases he with h | h | h
    · tauto
    · tauto
    · cases h; exact absurd rfl hcd
  have old : ∀ x y j u, s.lookup (x, y) = some j → ((x, y) ≠ (c, a) ∧ (x, y) ≠ (a, d) ∧ (x, y) ≠ (d, b) ∧ (x, y) ≠ (b, c)) →
      (x, y) ≠ (a, b) → (x, y) ≠ (b, a) → s'.tris[j]? = some u → s.tris[j]? = some u := by
    intro x y j u hl hne hab hba hu
    obtain ⟨t, z, ht, hz⟩ := hi.coh x y j hl
    have hz' := (hz.edges (x, y)).mpr (Or.inl rfl)
    have k0' : j ≠ k0 := by
      rintro rfl
      rw [ht0] at ht; cases ht
      have := (hr0.edges (x, y)).mp hz'
      tauto
    have k1' : j ≠ k1 := by
      rintro rfl
      rw [ht1] at ht; cases ht
      have := (hr1.edges (x, y)).mp hz'
      tauto
    rw [e1, g2 j k0' k1'] at hu
    exact hu
  have hfine : Fine points s x y := by
    apply h x y
    · intro hm
      exact hx1 p7 hm
    · intro hm
      exact hy1 p7' hm
  exact hfine j0 j1 u0 u1 c' d' l0' l1' (old x y j0 u0 l0' ⟨hx2, hx3, hx4, hx5⟩ p7 p8 q0)
    (old y x j1 u1 l1' ⟨hy2, hy3, hy4, hy5⟩ p7' p8' q1) s0 s1

/-- **C41** At the end, the two triangles that the edge table gives for an edge and its reverse satisfy the
Delaunay criterion, whatever triangles it started with, and in whatever order the edges were taken. -/
theorem C41_table (points : List Vec) (tris : List (Tri ℕ))
    (ht : ∀ t ∈ tris, t.a ≠ t.b ∧ t.b ≠ t.c ∧ t.c ≠ t.a) (s : FlipState)
    (hs : Relation.ReflTransGen (FlipStep points) (flipInit tris) s) (hend : s.remaining = ∅)
    (a b c d k0 k1 : ℕ) (t u : Tri ℕ) (h0 : s.lookup (a, b) = some k0) (h1 : s.lookup (b, a) = some k1)
    (g0 : s.tris[k0]? = some t) (g1 : s.tris[k1]? = some u) (i0 : IsTriangle t a b c) (i1 : IsTriangle u b a d) :
    OutsideCircle (pt points a) (pt points b) (pt points c) (pt points d) := by
  have hv := (reach_ind ht (Visited points) (visited_init points tris) (fun s e _ _ h hf => visited_skip h hf)
    (fun s s' e hi hi' _ h hf => visited_flip hi hi' h hf) s hs).2
  intro o ho1 ho2
  rw [← incircle_circle ho1 ho2]
  exact hv a b (by simp [hend]) (by simp [hend]) k0 k1 t u c d h0 h1 g0 g1 i0 i1

end Chrumm.Geo
