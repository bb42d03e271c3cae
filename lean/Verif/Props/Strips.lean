import Verif.Props.Mesh
import Verif.Props.Inside

/-! Tools for the meshes of parts: sums along strips, good quads. -/

namespace Chrumm.Geo
open Spec Classical

section sums
variable {A : Type} [AddCommGroup A] {g : Vec → Vec → A}

theorem esum_path_cons2 {P : Type} (g : P → P → A) (a b : P) (l : List P) :
    esum g (pathPairs (a :: b :: l)) = g a b + esum g (pathPairs (b :: l)) := by
  change esum g ((a, b) :: pathPairs (b :: l)) = _
  rw [esum_cons]

theorem esum_path_one {P : Type} (g : P → P → A) (a : P) : esum g (pathPairs [a]) = 0 := rfl
theorem esum_path_nil {P : Type} (g : P → P → A) : esum g (pathPairs ([] : List P)) = 0 := rfl

theorem esum_path_snoc {P : Type} (g : P → P → A) : ∀ (a : P) (l : List P) (b : P) (hl : a :: l ≠ []),
    esum g (pathPairs (a :: l ++ [b])) = esum g (pathPairs (a :: l)) + g ((a :: l).getLast hl) b
  | a, [], b, _ => by
    rw [List.singleton_append, esum_path_cons2, esum_path_one, esum_path_one]
    simp
  | a, c :: l, b, _ => by
    have ih := esum_path_snoc g c l b (by simp)
    change esum g (pathPairs (a :: c :: (l ++ [b]))) = _
    rw [esum_path_cons2, esum_path_cons2]
    change g a c + esum g (pathPairs (c :: l ++ [b])) = _
    rw [ih, List.getLast_cons_cons, add_assoc]

/-- A closed edge is an open path and the segment back to its start. -/
theorem esum_cyc {P : Type} (g : P → P → A) (e : List P) (he : e ≠ []) :
    esum g (cycPairs e) = esum g (pathPairs e) + g (e.getLast he) (e.head he) := by
  cases e with
  | nil => exact absurd rfl he
  | cons a l =>
    rw [cycPairs_cons, esum_path_snoc g a l a (by simp)]
    rfl

/-- A path backwards. -/
theorem esum_path_reverse {P : Type} {g : P → P → A} (hg : Anti g) : ∀ (e : List P),
    esum g (pathPairs e.reverse) = -esum g (pathPairs e)
  | [] => by simp [pathPairs]
  | [a] => by simp [pathPairs]
  | a :: b :: l => by
    have ih := esum_path_reverse hg (b :: l)
    have hr : (b :: l).reverse ≠ [] := by simp
    obtain ⟨c, m, hm⟩ := List.exists_cons_of_ne_nil hr
    have hl : (c :: m).getLast (by simp) = b := by
      rw [List.getLast_congr (h₃ := hm.symm) (by simp) (by simp), List.getLast_reverse]
      rfl
    rw [List.reverse_cons, hm, esum_path_snoc g c m a (by simp), hl, esum_path_cons2, hg.swap b a]
    rw [hm] at ih
    rw [ih]
    abel

theorem esum_cyc_reverse {P : Type} {g : P → P → A} (hg : Anti g) (e : List P) :
    esum g (cycPairs e.reverse) = -esum g (cycPairs e) := by
  by_cases he : e = []
  · subst he; simp [cycPairs]
  · rw [esum_cyc g e he, esum_cyc g e.reverse (by simpa), esum_path_reverse hg, List.getLast_reverse,
      List.head_reverse, hg.swap (e.head he)]
    abel

/-- A path of two paths. -/
theorem esum_path_append {P : Type} (g : P → P → A) : ∀ (e f : List P) (he : e ≠ []) (hf : f ≠ []),
    esum g (pathPairs (e ++ f)) = esum g (pathPairs e) + g (e.getLast he) (f.head hf) + esum g (pathPairs f)
  | [], f, he, _ => absurd rfl he
  | [a], f, _, hf => by
    obtain ⟨b, l, rfl⟩ := List.exists_cons_of_ne_nil hf
    rw [List.singleton_append, esum_path_cons2, esum_path_one, zero_add]; rfl
  | a :: c :: l, f, _, hf => by
    have ih := esum_path_append g (c :: l) f (by simp) hf
    change esum g (pathPairs (a :: c :: (l ++ f))) = _
    rw [esum_path_cons2, esum_path_cons2]
    change g a c + esum g (pathPairs (c :: l ++ f)) = _
    rw [ih, List.getLast_cons_cons]
    abel

/-- Moving the points of a path. -/
theorem pathPairs_map {P Q : Type} (f : P → Q) (e : List P) : pathPairs (e.map f) = (pathPairs e).map (Prod.map f f) := by
  unfold pathPairs
  rw [← List.map_tail, List.zip_map]

theorem cyc_map {P Q : Type} (f : P → Q) (e : List P) : cycPairs (e.map f) = (cycPairs e).map (Prod.map f f) :=
  cycPairs_map f e

theorem meshEdges_map {P Q : Type} (f : P → Q) (ts : List (Tri P)) :
    meshEdges (ts.map fun t => t.map f) = (meshEdges ts).map (Prod.map f f) := by
  induction ts with
  | nil => rfl
  | cons t ts ih =>
    have e1 : meshEdges (t :: ts) = sides t ++ meshEdges ts := by simp [meshEdges]
    have e2 : meshEdges ((t :: ts).map fun t => t.map f) = sides (t.map f) ++ meshEdges (ts.map fun t => t.map f) := by
      simp [meshEdges]
    rw [e1, e2, ih, List.map_append]
    rfl

theorem esum_map {P Q : Type} (f : P → Q) (g : Q → Q → A) (es : List (P × P)) :
    esum g (es.map (Prod.map f f)) = esum (fun x y => g (f x) (f y)) es := by
  simp [esum, Function.comp_def]

theorem anti_map {P Q : Type} {g : Q → Q → A} (hg : Anti g) (f : P → Q) : Anti fun x y => g (f x) (f y) :=
  ⟨fun x y => hg.swap _ _, fun x => hg.self _⟩

/-- Moving all points keeps equal chains equal. -/
theorem sameChain_map {P Q : Type} [DecidableEq P] [DecidableEq Q] {es fs : List (P × P)} (h : SameChain es fs)
    (f : P → Q) : SameChain (es.map (Prod.map f f)) (fs.map (Prod.map f f)) := by
  rw [sameChain_iff]
  intro g hg
  rw [esum_map, esum_map]
  exact esum_congr (anti_map hg f) h

/-- Sum of an open strip. -/
theorem open_strip_sum {self other : List Vec} {ts : List (Tri Vec)} (hs : self ≠ []) (ho : other ≠ [])
    (h : meshPairwise self other false = .ok ts)
    (hq : ∀ i, GoodQuad (corner false self i) (corner false self (i + 1)) (corner false other (i + 1))
      (corner false other i)) (hg : Anti g) :
    esum g (meshEdges ts) = esum g (pathPairs self) + g (self.getLast hs) (other.getLast ho) -
      esum g (pathPairs other) - g (self.head hs) (other.head ho) := by
  rw [esum_congr hg (C32_open_strip self other ts hs ho h hq), esum_append, esum_append, esum_append, esum_flip hg]
  simp only [esum_cons, esum_nil, hg.swap (other.head ho)]
  abel

/-- Sum of a closed strip. -/
theorem closed_strip_sum {self other : List Vec} {ts : List (Tri Vec)} (hs : self ≠ []) (ho : other ≠ [])
    (h : meshPairwise self other true = .ok ts)
    (hq : ∀ i, GoodQuad (corner true self i) (corner true self (i + 1)) (corner true other (i + 1))
      (corner true other i)) (hg : Anti g) :
    esum g (meshEdges ts) = esum g (cycPairs self) - esum g (cycPairs other) := by
  rw [esum_congr hg (C32_closed_strip self other ts hs ho h hq), esum_append, esum_flip hg]
  abel

end sums

/-! ### Collapsing coinciding points -/

/-- The points that differ from their successor, where the last one is followed by `z`. -/
noncomputable def keepNe (z : Vec) : List Vec → List Vec
  | [] => []
  | [x] => if x = z then [] else [x]
  | x :: y :: l => if x = y then keepNe z (y :: l) else x :: keepNe z (y :: l)

theorem keepNe_head (z : Vec) : ∀ l : List Vec, (keepNe z l ++ [z]).head (by simp) = (l ++ [z]).head (by simp)
  | [] => rfl
  | [x] => by
    unfold keepNe
    split_ifs with h
    · simp [h]
    · simp
  | x :: y :: l => by
    have ih := keepNe_head z (y :: l)
    unfold keepNe
    split_ifs with h
    · rw [ih]; simp [h]
    · simp

theorem esum_keepNe {A : Type} [AddCommGroup A] {g : Vec → Vec → A} (hg : Anti g) (z : Vec) : ∀ l : List Vec,
    esum g (pathPairs (keepNe z l ++ [z])) = esum g (pathPairs (l ++ [z]))
  | [] => rfl
  | [x] => by
    unfold keepNe
    split_ifs with h
    · subst h
      simp only [List.nil_append, List.singleton_append]
      rw [esum_path_cons2, esum_path_one, hg.self, zero_add]
    · rfl
  | x :: y :: l => by
    have ih := esum_keepNe hg z (y :: l)
    unfold keepNe
    have e2 : esum g (pathPairs (x :: y :: l ++ [z])) = g x y + esum g (pathPairs (y :: l ++ [z])) :=
      esum_path_cons2 g x y (l ++ [z])
    split_ifs with h
    · rw [ih, e2, h, hg.self, zero_add]
    · have hh := keepNe_head z (y :: l)
      obtain ⟨w, m, hm⟩ := List.exists_cons_of_ne_nil (l := keepNe z (y :: l) ++ [z]) (by simp)
      have hw : w = y := by
        have : (keepNe z (y :: l) ++ [z]).head (by simp) = w := by simp [hm]
        rw [← this, hh]; rfl
      rw [List.cons_append, hm, esum_path_cons2, ← hm, ih, e2, hw]

theorem collapsed_eq_keepNe {e : List Vec} {d : ℝ} (hd : 0 < d)
    (h : ∀ s ∈ cycPairs e, s.1 = s.2 ∨ d ≤ Real.sqrt (distSq s.1 s.2)) (he : e ≠ []) :
    collapsed e d = keepNe (e.head he) e := by
  rw [C35_keeps]
  have key : ∀ (z : Vec) (l : List Vec), (∀ s ∈ pathPairs (l ++ [z]), s.1 = s.2 ∨ d ≤ Real.sqrt (distSq s.1 s.2)) →
      ((pathPairs (l ++ [z])).filter fun s => decide (d ≤ Real.sqrt (distSq s.1 s.2))).map Prod.fst = keepNe z l := by
    intro z l
    have hself : ∀ x : Vec, ¬ d ≤ Real.sqrt (distSq x x) := by
      intro x
      have : distSq x x = 0 := by simp [distSq]
      rw [this, Real.sqrt_zero]; linarith
    induction l with
    | nil => intro _; rfl
    | cons x l ih =>
      intro hl
      cases l with
      | nil =>
        have := hl (x, z) (by simp [pathPairs])
        have e1 : pathPairs ([x] ++ [z]) = [(x, z)] := rfl
        rw [e1]
        unfold keepNe
        split_ifs with hx
        · subst hx; simp [hself]
        · rcases this with h1 | h1
          · exact absurd h1 hx
          · simp only [] at h1
            simp [h1]
      | cons y l =>
        have e1 : pathPairs (x :: y :: l ++ [z]) = (x, y) :: pathPairs (y :: l ++ [z]) := rfl
        rw [e1] at hl ⊢
        have ih := ih fun s hs => hl s (List.mem_cons_of_mem _ hs)
        have := hl (x, y) (by simp)
        unfold keepNe
        rw [List.filter_cons]
        split_ifs with h1 hx hx
        · subst hx; simp [hself] at h1
        · rw [List.map_cons, ih]
        · exact ih
        · rcases this with h2 | h2
          · exact absurd h2 hx
          · simp at h1 h2; linarith
  cases e with
  | nil => exact absurd rfl he
  | cons a l =>
    rw [cycPairs_cons] at h ⊢
    exact key a (a :: l) h

/-- Collapsing coinciding points does not change a closed chain. -/
theorem collapsed_sum {A : Type} [AddCommGroup A] {g : Vec → Vec → A} (hg : Anti g) {e : List Vec} {d : ℝ} (hd : 0 < d)
    (h : ∀ s ∈ cycPairs e, s.1 = s.2 ∨ d ≤ Real.sqrt (distSq s.1 s.2)) :
    esum g (cycPairs (collapsed e d)) = esum g (cycPairs e) := by
  by_cases he : e = []
  · subst he; rfl
  · rw [collapsed_eq_keepNe hd h he]
    cases e with
    | nil => exact absurd rfl he
    | cons a l =>
      have h1 := esum_keepNe hg a (a :: l)
      have h2 := keepNe_head a (a :: l)
      rw [cycPairs_cons]
      change _ = esum g (pathPairs (a :: l ++ [a]))
      rw [← h1, List.head_cons]
      rcases hk : keepNe a (a :: l) with _ | ⟨b, m⟩
      · rfl
      · have hb : b = a := by simpa [hk] using h2
        rw [cycPairs_cons, hb]

/-! ### Good quads -/

/-- A quad whose first two corners coincide is a triangle. -/
theorem goodQuad_ab {a b c d : Vec} (h : a = b) (hn : NoSliver c d a) : GoodQuad a b c d := by
  subst h
  refine Or.inr ⟨Or.inr (Or.inl rfl), hn, Or.inr (Or.inl rfl), ?_, ?_⟩
  · rcases hn with h | h | h | h
    · left
      have : (Tri.mk d a c).area = (Tri.mk c d a).area := by
        unfold Tri.area
        have : ((a - d).cross (c - d)) = ((d - c).cross (a - c)) := by
          ext <;> simp only [Vec.cross, Vec.sub_x, Vec.sub_y, Vec.sub_z] <;> ring
        exact congrArg (fun v : Vec => v.magnitude / 2) this
      rw [this]; exact h
    · exact Or.inr (Or.inr (Or.inr h))
    · exact Or.inr (Or.inl h)
    · exact Or.inr (Or.inr (Or.inl h))
  · rintro (⟨h1, h2, h3, h4⟩ | ⟨h1, h2, h3, h4⟩)
    · exact h2 rfl
    · exact h2 rfl

/-- A quad whose last two corners coincide is a triangle. -/
theorem goodQuad_cd {a b c d : Vec} (h : c = d) (hn : NoSliver a b c) : GoodQuad a b c d := by
  subst h
  refine Or.inr ⟨hn, Or.inr (Or.inl rfl), hn, Or.inr (Or.inr (Or.inr rfl)), ?_⟩
  rintro (⟨h1, h2, h3, h4⟩ | ⟨h1, h2, h3, h4⟩)
  · exact h3 h1.symm
  · exact h3 h1.symm

/-- A quad whose two segments coincide. -/
theorem goodQuad_same {a b c d : Vec} (h : a = d) (h' : b = c) : GoodQuad a b c d := by
  subst h; subst h'
  refine Or.inr ⟨Or.inr (Or.inr (Or.inl rfl)), Or.inr (Or.inr (Or.inl rfl)), Or.inr (Or.inr (Or.inr rfl)),
    Or.inr (Or.inr (Or.inl rfl)), ?_⟩
  rintro (⟨h1, h2, h3, h4⟩ | ⟨h1, h2, h3, h4⟩)
  · exact h2 h1.symm
  · exact h2 h1.symm

/-- A quad whose first and last corner coincide is a triangle. -/
theorem goodQuad_da {a b c d : Vec} (h : a = d) (hn : NoSliver a b c) : GoodQuad a b c d := by
  subst h
  refine Or.inr ⟨hn, Or.inr (Or.inr (Or.inl rfl)), Or.inr (Or.inr (Or.inr rfl)), hn, ?_⟩
  rintro (⟨h1, h2, h3, h4⟩ | ⟨h1, h2, h3, h4⟩)
  · exact h2 h1.symm
  · exact h3 rfl

/-- A quad whose second and third corner coincide is a triangle. -/
theorem goodQuad_bc {a b c d : Vec} (h : b = c) (hn : NoSliver a b d) : GoodQuad a b c d := by
  subst h
  refine Or.inr ⟨Or.inr (Or.inr (Or.inl rfl)), ?_, hn, Or.inr (Or.inr (Or.inl rfl)), ?_⟩
  · rcases hn with h | h | h | h
    · left
      have : (Tri.mk b d a).area = (Tri.mk a b d).area := by
        unfold Tri.area
        have : ((d - b).cross (a - b)) = ((b - a).cross (d - a)) := by
          ext <;> simp only [Vec.cross, Vec.sub_x, Vec.sub_y, Vec.sub_z] <;> ring
        exact congrArg (fun v : Vec => v.magnitude / 2) this
      rw [this]; exact h
    · exact Or.inr (Or.inr (Or.inr h))
    · exact Or.inr (Or.inl h)
    · exact Or.inr (Or.inr (Or.inl h))
  · rintro (⟨h1, h2, h3, h4⟩ | ⟨h1, h2, h3, h4⟩)
    · exact h3 rfl
    · exact h2 h1.symm

/-- All corners but two coincide. -/
theorem goodQuad_still {a b c d : Vec} (h : a = b) (h' : c = d) : GoodQuad a b c d :=
  goodQuad_ab h (Or.inr (Or.inl h'))

/-- A bound for the area. -/
theorem area_of_sq {a b c : Vec} {k : ℝ} (hk : 2 * 1e-6 ≤ k) (h : k ^ 2 ≤ ((b - a).cross (c - a)).magSquared) :
    1e-6 ≤ (Tri.mk a b c).area := by
  have h1 : k ≤ ((b - a).cross (c - a)).magnitude := by
    have : ((b - a).cross (c - a)).magnitude = Real.sqrt ((b - a).cross (c - a)).magSquared := rfl
    rw [this]
    exact Real.le_sqrt_of_sq_le h
  change 1e-6 ≤ ((b - a).cross (c - a)).magnitude / 2
  linarith

/-- All four triangles of a quad have area. -/
theorem goodQuad_four {a b c d : Vec} (h1 : 1e-6 ≤ (Tri.mk a b c).area) (h2 : 1e-6 ≤ (Tri.mk c d a).area)
    (h3 : 1e-6 ≤ (Tri.mk a b d).area) : GoodQuad a b c d := Or.inl (Or.inl ⟨h1, h2, Or.inl h3⟩)

/-! ### Corners of ranges -/

theorem corner_range_open (f : ℕ → Vec) (m i : ℕ) (hm : 0 < m) :
    corner false ((List.range m).map f) i = f (min i (m - 1)) := by
  unfold corner walk
  simp only [Bool.false_eq_true, if_false, List.length_map, List.length_range]
  have : min i (m - 1) < m := by omega
  rw [List.getD_eq_getElem?_getD, List.getElem?_map, List.getElem?_range this]
  rfl

theorem corner_range_closed (f : ℕ → Vec) (m i : ℕ) (hm : 0 < m) (hf : f m = f 0) :
    corner true ((List.range m).map f) i = f (min i m) := by
  unfold corner walk
  simp only [if_true]
  have e : (List.range m).map f ++ ((List.range m).map f).take 1 = (List.range (m + 1)).map f := by
    rw [List.range_succ, List.map_append]
    congr 1
    obtain ⟨k, rfl⟩ := Nat.exists_eq_succ_of_ne_zero hm.ne'
    rw [List.range_succ_eq_map]
    simp [hf]
  rw [e]
  simp only [List.length_map, List.length_range, Nat.add_sub_cancel]
  have : min i m < m + 1 := by omega
  rw [List.getD_eq_getElem?_getD, List.getElem?_map, List.getElem?_range this]
  rfl

theorem corner_single (k : Bool) (p : Vec) (i : ℕ) : corner k [p] i = p := by
  unfold corner walk
  cases k
  · simp
  · simp only [if_true]
    rcases i with _ | i
    · simp
    · simp

end Chrumm.Geo
