import Verif.Props.Inside
import Verif.Geo.Face

/-! C36: merging holes into a polygon. -/

namespace Chrumm.Geo
open Spec Classical

/-! ### Paths -/

theorem pathPairs_split {α : Type} (p : α) : ∀ (a l : List α),
    pathPairs (a ++ p :: l) = pathPairs (a ++ [p]) ++ pathPairs (p :: l)
  | [], l => rfl
  | [x], l => rfl
  | x :: y :: a, l => by
    have : ∀ r, pathPairs (x :: y :: a ++ r) = (x, y) :: pathPairs (y :: a ++ r) := fun _ => rfl
    rw [this, this, pathPairs_split p (y :: a) l]; rfl

theorem cycPairs_perm_split {α : Type} (p : α) (a b : List α) :
    (cycPairs (a ++ p :: b)).Perm (pathPairs (p :: b ++ a ++ [p])) := by
  have h : (p :: b ++ a) = (a ++ p :: b).rotate a.length := by
    rw [List.rotate_append_length_eq]
  have h2 : pathPairs (p :: b ++ a ++ [p]) = cycPairs (p :: (b ++ a)) := by
    rw [cycPairs_cons]; simp
  rw [h2, ← List.cons_append, h, cycPairs_rotate]
  exact (List.rotate_perm _ _).symm

/-- Going around a loop in between. -/
theorem esum_loop {P A : Type} [AddCommGroup A] (g : P → P → A) (v : P) (l x r : List P) :
    esum g (cycPairs (l ++ v :: (x ++ v :: r))) =
      esum g (cycPairs (l ++ v :: r)) + esum g (pathPairs (v :: x ++ [v])) := by
  rw [esum_perm (cycPairs_perm_split v l _), esum_perm (cycPairs_perm_split v l r)]
  have : v :: (x ++ v :: r) ++ l ++ [v] = (v :: x) ++ v :: (r ++ l ++ [v]) := by simp
  rw [this, pathPairs_split, esum_append, add_comm]
  simp

/-! ### The ray -/

/-- The points are seen from above. -/
def Flat (points : List Vec) : Prop := ∀ i, (pt points i).z = 0

/-- What is known about a hit. -/
def HitOK (a : Vec) (n : ℕ) (hit : Option (Vec × Vec × ℕ)) : Prop :=
  ∀ b c vis, hit = some (b, c, vis) → vis < n ∧ a.x < b.x ∧ a.x < c.x ∧ b.z = 0 ∧ c.z = 0

theorem rayStep_ok {points : List Vec} {poly : List ℕ} {a : Vec} {hit : Option (Vec × Vec × ℕ)} {i : ℕ}
    (hf : Flat points) (hi : i < poly.length) (h : HitOK a poly.length hit) :
    HitOK a poly.length (rayStep points poly a hit i) := by
  unfold rayStep
  dsimp only
  have hj : (i + 1) % poly.length < poly.length := Nat.mod_lt _ (by omega)
  set p := pt points (poly.getD i 0) with hp
  set q := pt points (poly.getD ((i + 1) % poly.length) 0) with hq
  have hpz : p.z = 0 := hf _
  have hqz : q.z = 0 := hf _
  split_ifs with h1 h2 h3 h4 h5 h6 h7
  · intro b c vis e; cases e; exact ⟨hi, h2.1, h2.1, hpz, hpz⟩
  · intro b c vis e; cases e; exact ⟨hj, h2.2, h2.2, hqz, hqz⟩
  · exact h
  · exact h
  all_goals first | exact h | skip
  all_goals
    have hd : 0 < q.y - p.y := by
      rcases lt_or_eq_of_le (h5.1.trans h5.2) with hlt | heq
      · linarith
      · exact absurd ⟨by linarith [h5.1, h5.2], by linarith [h5.1, h5.2]⟩ h1
    have ht0 : 0 ≤ (a.y - p.y) / (q.y - p.y) := div_nonneg (by linarith [h5.1]) hd.le
    have ht1 : (a.y - p.y) / (q.y - p.y) ≤ 1 := (div_le_one hd).mpr (by linarith [h5.2])
    have hx : p.x - (p.y - a.y) * (q.x - p.x) / (q.y - p.y) =
      p.x + (a.y - p.y) / (q.y - p.y) * (q.x - p.x) := by field_simp; ring
    have h6' := h6.1
    rw [hx] at h6'
    intro b c vis e; cases e
    refine ⟨by assumption, by rw [hx]; exact h6', ?_, rfl, by assumption⟩
  · nlinarith
  · nlinarith [not_lt.mp h7]

/-- The polygon's side at position `i`. -/
theorem rayStep_none {points : List Vec} {poly : List ℕ} {a : Vec} {hit : Option (Vec × Vec × ℕ)} {i : ℕ} :
    rayStep points poly a hit i = none ↔ hit = none ∧
      ¬ Hits a (pt points (poly.getD i 0)) (pt points (poly.getD ((i + 1) % poly.length) 0)) := by
  unfold rayStep Hits
  dsimp only
  set p := pt points (poly.getD i 0) with hp
  set q := pt points (poly.getD ((i + 1) % poly.length) 0) with hq
  have key : hit = none → ∀ x, beforeHit x hit := by rintro rfl x; trivial
  by_cases h1 : p.y = a.y ∧ a.y = q.y
  · rw [if_pos h1]
    have hn : ¬ p.y < q.y := by rw [h1.1, h1.2]; exact lt_irrefl _
    simp only [hn, false_and, false_or]
    by_cases h2 : a.x < p.x ∧ a.x < q.x
    · have h2' : p.y = a.y ∧ q.y = a.y ∧ a.x < p.x ∧ a.x < q.x := ⟨h1.1, h1.2.symm, h2⟩
      rw [if_pos h2]
      simp only [h2', and_self, not_true, and_false, iff_false]
      split_ifs with h3 h4
      · nofun
      · nofun
      · rintro rfl; exact h4 trivial
    · rw [if_neg h2]
      have h2' : ¬ (p.y = a.y ∧ q.y = a.y ∧ a.x < p.x ∧ a.x < q.x) := fun h => h2 h.2.2
      simp only [h2', not_false_eq_true, and_true]
  · rw [if_neg h1]
    have hr : ¬ (p.y = a.y ∧ q.y = a.y ∧ a.x < p.x ∧ a.x < q.x) := fun h => h1 ⟨h.1, h.2.1.symm⟩
    simp only [hr, or_false]
    by_cases h2 : p.y ≤ a.y ∧ a.y ≤ q.y
    · rw [if_pos h2]
      have hd : 0 < q.y - p.y := by
        rcases lt_or_eq_of_le (h2.1.trans h2.2) with hlt | heq
        · linarith
        · exact absurd ⟨by linarith [h2.1, h2.2], by linarith [h2.1, h2.2]⟩ h1
      have ht0 : 0 ≤ (a.y - p.y) / (q.y - p.y) := div_nonneg (by linarith [h2.1]) hd.le
      have ht1 : (a.y - p.y) / (q.y - p.y) ≤ 1 := (div_le_one hd).mpr (by linarith [h2.2])
      have hx : p.x - (p.y - a.y) * (q.x - p.x) / (q.y - p.y) =
        p.x + (a.y - p.y) / (q.y - p.y) * (q.x - p.x) := by field_simp; ring
      have hex : (p.y < q.y ∧ ∃ t : ℝ, 0 ≤ t ∧ t ≤ 1 ∧ (between2D p q t).y = a.y ∧ a.x < (between2D p q t).x)
          ↔ a.x < p.x - (p.y - a.y) * (q.x - p.x) / (q.y - p.y) := by
        rw [hx]
        constructor
        · rintro ⟨-, t, -, -, e1, e2⟩
          have : t = (a.y - p.y) / (q.y - p.y) := by
            rw [eq_div_iff hd.ne']; simp only [between2D] at e1; linarith
          rw [← this]; exact e2
        · intro h
          refine ⟨by linarith, _, ht0, ht1, ?_, h⟩
          simp only [between2D]; field_simp; ring
      rw [hex]
      split_ifs with h3 h4
      · simp [h3.1]
      · simp [h3.1]
      · constructor
        · intro h; exact ⟨h, fun h5 => h3 ⟨h5, key h _⟩⟩
        · exact fun h => h.1
    · rw [if_neg h2]
      have : ¬ (p.y < q.y ∧ ∃ t : ℝ, 0 ≤ t ∧ t ≤ 1 ∧ (between2D p q t).y = a.y ∧ a.x < (between2D p q t).x) := by
        rintro ⟨hd, t, t0, t1, e1, -⟩
        simp only [between2D] at e1
        exact h2 ⟨by nlinarith, by nlinarith⟩
      simp [this]

theorem rayHit_ok {points : List Vec} {poly : List ℕ} {a : Vec} (hf : Flat points) :
    HitOK a poly.length (rayHit points poly a) := by
  unfold rayHit
  have : ∀ (l : List ℕ), (∀ i ∈ l, i < poly.length) → ∀ hit, HitOK a poly.length hit →
      HitOK a poly.length (l.foldl (rayStep points poly a) hit) := by
    intro l
    induction l with
    | nil => intro _ hit h; exact h
    | cons i l ih =>
      intro hl hit h
      exact ih (fun j hj => hl j (by simp [hj])) _ (rayStep_ok hf (hl i (by simp)) h)
  exact this _ (fun i hi => List.mem_range.mp hi) _ (by intro b c vis e; cases e)

theorem rayHit_none {points : List Vec} {poly : List ℕ} {a : Vec} :
    rayHit points poly a = none ↔ ∀ s ∈ cycPairs poly, ¬ Hits a (pt points s.1) (pt points s.2) := by
  unfold rayHit
  have : ∀ (l : List ℕ) hit, l.foldl (rayStep points poly a) hit = none ↔ hit = none ∧ ∀ i ∈ l,
      ¬ Hits a (pt points (poly.getD i 0)) (pt points (poly.getD ((i + 1) % poly.length) 0)) := by
    intro l
    induction l with
    | nil => simp
    | cons i l ih =>
      intro hit
      rw [List.foldl_cons, ih, rayStep_none]
      simp only [List.mem_cons, forall_eq_or_imp, and_assoc]
  rw [this]
  simp only [true_and, List.mem_range]
  constructor
  · intro h s hs
    unfold cycPairs at hs
    obtain ⟨i, hi, rfl⟩ := List.mem_iff_getElem.mp hs
    have hi' : i < poly.length := by simpa using hi
    have hm : (i + 1) % poly.length < poly.length := Nat.mod_lt _ (by omega)
    have := h i hi'
    simpa [List.getElem_zip, List.getElem_rotate, List.getD_eq_getElem?_getD, hi', hm] using this
  · intro h i hi
    have hm : (i + 1) % poly.length < poly.length := Nat.mod_lt _ (by omega)
    have := h (poly[i], poly[(i + 1) % poly.length]) (by
      unfold cycPairs
      rw [List.mem_iff_getElem]
      exact ⟨i, by simpa using hi, by simp [List.getElem_rotate]⟩)
    simpa [List.getD_eq_getElem?_getD, hi, hm] using this

theorem visStep_lt {points : List Vec} {poly : List ℕ} {a b c u v w : Vec} {s : Option ℝ × ℕ} {i : ℕ}
    (hi : i < poly.length) (hs : s.2 < poly.length) :
    (visStep points poly a b c u v w s i).2 < poly.length := by
  unfold visStep
  dsimp only
  split_ifs
  · split
    · exact hi
    · split_ifs
      · exact hi
      · exact hs
  · exact hs
  · exact hs

theorem visFold_lt {points : List Vec} {poly : List ℕ} {a b c u v w : Vec} : ∀ (l : List ℕ) (s : Option ℝ × ℕ),
    (∀ i ∈ l, i < poly.length) → s.2 < poly.length →
    (l.foldl (visStep points poly a b c u v w) s).2 < poly.length
  | [], _, _, hs => hs
  | i :: l, s, hl, hs =>
    visFold_lt l _ (fun j hj => hl j (by simp [hj])) (visStep_lt (hl i (by simp)) hs)

/-- The search for a visible corner: total, except for the missing hit. -/
theorem findVisible_total {points : List Vec} (poly : List ℕ) (h0 : ℕ) (hf : Flat points) :
    (findVisible points poly h0 = .error .typeError ∧
      ∀ s ∈ cycPairs poly, ¬ Hits (pt points h0) (pt points s.1) (pt points s.2)) ∨
    (∃ vis < poly.length, findVisible points poly h0 = .ok vis) ∧
      ∃ s ∈ cycPairs poly, Hits (pt points h0) (pt points s.1) (pt points s.2) := by
  unfold findVisible
  dsimp only
  rcases hr : rayHit points poly (pt points h0) with _ | ⟨b, c, vis⟩
  · exact .inl ⟨rfl, rayHit_none.mp hr⟩
  · right
    have hex : ∃ s ∈ cycPairs poly, Hits (pt points h0) (pt points s.1) (pt points s.2) := by
      by_contra hn
      push Not at hn
      rw [rayHit_none.mpr hn] at hr; cases hr
    refine ⟨?_, hex⟩
    obtain ⟨hv, hb, hc, bz, cz⟩ := rayHit_ok hf b c vis hr
    dsimp only
    by_cases hne : b ≠ c
    · rw [if_pos hne]
      have ok : ∀ u v : Vec, (u.x ≠ v.x ∨ u.y ≠ v.y) → ∃ d, (u - v).normalized2D = .ok d := by
        intro u v h
        unfold Vec.normalized2D
        rw [if_neg]
        · exact ⟨_, rfl⟩
        · unfold Vec.magnitude2D
          rw [Real.sqrt_eq_zero (by nlinarith [sq_nonneg (u - v).x, sq_nonneg (u - v).y])]
          simp only [Vec.sub_x, Vec.sub_y]
          intro e
          have e1 : (u.x - v.x) = 0 := by nlinarith [sq_nonneg (u.x - v.x), sq_nonneg (u.y - v.y)]
          have e2 : (u.y - v.y) = 0 := by nlinarith [sq_nonneg (u.x - v.x), sq_nonneg (u.y - v.y)]
          rcases h with h | h
          · exact h (by linarith)
          · exact h (by linarith)
      have hbc : b.x ≠ c.x ∨ b.y ≠ c.y := by
        by_contra hn
        push Not at hn
        exact hne (Vec.ext hn.1 hn.2 (by rw [bz, cz]))
      have main : ∀ b c : Vec, (pt points h0).x < b.x → (pt points h0).x < c.x → (b.x ≠ c.x ∨ b.y ≠ c.y) →
          ∃ v < poly.length, (do
            let aDir ← (b - pt points h0).normalized2D
            let bDir ← (c - b).normalized2D
            let cDir ← (pt points h0 - c).normalized2D
            pure ((List.range poly.length).foldl
              (visStep points poly (pt points h0) b c aDir bDir cDir) (none, vis)).2 : Py ℕ) = .ok v := by
        intro b c hb hc hbc
        obtain ⟨u, hu⟩ := ok b (pt points h0) (.inl hb.ne')
        obtain ⟨v, hv'⟩ := ok c b (by rcases hbc with h | h; exacts [.inl h.symm, .inr h.symm])
        obtain ⟨w, hw⟩ := ok (pt points h0) c (.inl hc.ne)
        rw [hu, hv', hw]
        exact ⟨_, visFold_lt _ _ (fun i hi => List.mem_range.mp hi) hv, rfl⟩
      by_cases hs : c.y < b.y
      · rw [if_pos hs]; exact main c b hc hb (by rcases hbc with h | h; exacts [.inl h.symm, .inr h.symm])
      · rw [if_neg hs]; exact main b c hb hc hbc
    · rw [if_neg hne]; exact ⟨vis, hv, rfl⟩

/-! ### Merging -/

theorem merge_shape (points : List Vec) (poly hole out : List ℕ) (hf : Flat points) (hh : hole ≠ [])
    (h : mergeHole points poly hole = .ok out) :
    ∃ l v r, poly = l ++ v :: r ∧ out = l ++ v :: (hole ++ [hole.head hh] ++ v :: r) := by
  unfold mergeHole at h
  rcases findVisible_total (points := points) poly (hole.headD 0) hf with ⟨he, -⟩ | ⟨⟨vis, hv, hok⟩, -⟩
  · rw [he] at h; cases h
  · rw [hok] at h
    simp only [bind, Except.bind, pure, Except.pure, Except.ok.injEq] at h
    have hg : poly.getD vis 0 = poly[vis] := by simp [List.getD_eq_getElem?_getD, hv]
    have hd : hole.headD 0 = hole.head hh := by
      cases hole with
      | nil => exact absurd rfl hh
      | cons => rfl
    have hp : poly = poly.take vis ++ poly[vis] :: poly.drop (vis + 1) := by
      rw [List.cons_getElem_drop_succ, List.take_append_drop]
    refine ⟨poly.take vis, poly[vis], poly.drop (vis + 1), hp, ?_⟩
    rw [← h, hg, hd]
    have hl : (poly.take vis).length = vis := by simp; omega
    have e1 : pyInsert poly vis poly[vis] = (poly.take vis ++ [poly[vis]]) ++ poly[vis] :: poly.drop (vis + 1) := by
      unfold pyInsert
      rw [List.cons_getElem_drop_succ, List.append_assoc]; rfl
    have hl2 : (poly.take vis ++ [poly[vis]]).length = vis + 1 := by simp; omega
    have e2 : pyInsert (pyInsert poly vis poly[vis]) (vis + 1) (hole.head hh) =
        (poly.take vis ++ [poly[vis]]) ++ hole.head hh :: poly[vis] :: poly.drop (vis + 1) := by
      rw [e1, pyInsert, List.take_left' hl2, List.drop_left' hl2]
    rw [e2, List.take_left' hl2, List.drop_left' hl2]
    simp only [List.append_assoc, List.cons_append, List.nil_append]

theorem merge_chain {A : Type} [AddCommGroup A] {g : ℕ → ℕ → A} (hg : Anti g) (points : List Vec)
    (poly hole out : List ℕ) (hf : Flat points) (hh : hole ≠ []) (h : mergeHole points poly hole = .ok out) :
    esum g (cycPairs out) = esum g (cycPairs poly) + esum g (cycPairs hole) := by
  obtain ⟨l, v, r, rfl, rfl⟩ := merge_shape points poly hole out hf hh h
  rw [esum_loop]
  congr 1
  cases hole with
  | nil => exact absurd rfl hh
  | cons x t =>
    have : v :: (x :: t ++ [(x :: t).head hh]) ++ [v] = [v] ++ x :: (t ++ [x] ++ [v]) := by simp
    rw [this, pathPairs_split, esum_append]
    have : x :: (t ++ [x] ++ [v]) = (x :: t) ++ x :: [v] := by simp
    rw [this, pathPairs_split x (x :: t) [v], esum_append, cycPairs_cons]
    have e1 : esum g (pathPairs ([v] ++ [x])) = g v x := by simp [pathPairs]
    have e2 : esum g (pathPairs (x :: [v])) = g x v := by simp [pathPairs]
    rw [e1, e2, hg.swap v x]; abel

theorem flat_of {points : List Vec} (h : ∀ p ∈ points, p.z = 0) : Flat points := by
  intro i
  unfold pt
  rw [List.getD_eq_getElem?_getD]
  rcases hi : points[i]? with _ | p
  · rfl
  · exact h p (List.mem_of_getElem? hi)

theorem orderHole_rotate (points : List Vec) (hole : List ℕ) : ∃ k, orderHole points hole = hole.rotate k := by
  unfold orderHole
  dsimp only
  generalize argmax _ _ = k
  rcases le_total k hole.length with h | h
  · exact ⟨k, (List.rotate_eq_drop_append_take h).symm⟩
  · refine ⟨0, ?_⟩
    rw [List.drop_eq_nil_of_le h, List.take_of_length_le h]; simp

theorem ordered_perm (points : List Vec) (holes : List (List ℕ)) :
    (sortHoles points (holes.map (orderHole points))).Perm (holes.map (orderHole points)) :=
  List.mergeSort_perm _ _

/-- Induction over the merged holes. -/
theorem foldlM_ind {α β : Type} {f : α → β → Py α} (I : α → List β → Prop)
    (hstep : ∀ a b l a', I a (b :: l) → f a b = .ok a' → I a' l) :
    ∀ (l : List β) (a out : α), I a l → l.foldlM f a = .ok out → I out []
  | [], a, out, hI, h => by
    simp only [List.foldlM_nil, pure, Except.pure, Except.ok.injEq] at h
    rw [← h]; exact hI
  | b :: l, a, out, hI, h => by
    rw [List.foldlM_cons] at h
    rcases hb : f a b with e | a'
    · rw [hb] at h; cases h
    · rw [hb] at h
      exact foldlM_ind I hstep l a' out (hstep a b l a' hI hb) h

theorem ordered_ne {points : List Vec} {holes : List (List ℕ)} (hh : ∀ h ∈ holes, h ≠ []) :
    ∀ h ∈ sortHoles points (holes.map (orderHole points)), h ≠ [] := by
  intro h hm
  obtain ⟨g, hg, rfl⟩ := List.mem_map.mp ((ordered_perm points holes).mem_iff.mp hm)
  obtain ⟨k, hk⟩ := orderHole_rotate points g
  rw [hk]
  simpa using hh g hg

/-- **C36** The boundary of the merged polygon is that of the outline and all holes: the two connections
to each hole cancel out. -/
theorem C36_boundary (points : List Vec) (poly : List ℕ) (holes : List (List ℕ)) (out : List ℕ)
    (hz : ∀ p ∈ points, p.z = 0) (hh : ∀ h ∈ holes, h ≠ []) (h : mergeHoles points poly holes = .ok out) :
    SameChain (cycPairs out) (cycPairs poly ++ holes.flatMap cycPairs) := by
  have hf := flat_of hz
  rw [sameChain_iff]
  intro g hg
  have key := foldlM_ind (f := mergeHole points)
    (fun a l => (∀ h ∈ l, h ≠ []) ∧ esum g (cycPairs a) + (l.map fun h => esum g (cycPairs h)).sum =
      esum g (cycPairs poly) + (holes.map fun h => esum g (cycPairs h)).sum) (by
      rintro a b l a' ⟨hne, hs⟩ hm
      refine ⟨fun h hm => hne h (by simp [hm]), ?_⟩
      rw [merge_chain hg points a b a' hf (hne b (by simp)) hm, ← hs, List.map_cons, List.sum_cons]
      ring) _ _ _ ⟨ordered_ne hh, ?_⟩ h
  · have := key.2
    simp only [List.map_nil, List.sum_nil, add_zero] at this
    rw [this, esum_append]
    congr 1
    clear * -
    induction holes with
    | nil => rfl
    | cons a l ih => rw [List.map_cons, List.sum_cons, List.flatMap_cons, esum_append, ih]
  · congr 1
    rw [((ordered_perm points holes).map _).sum_eq, List.map_map]
    congr 1
    apply List.map_congr_left
    intro a _
    obtain ⟨k, hk⟩ := orderHole_rotate points a
    simp only [Function.comp, hk, cycPairs_rotate]
    exact esum_perm (List.rotate_perm _ _)

/-- **C36** The merged polygon has two more corners per hole; its corners are exactly those of the outline
and of the holes; and the outline keeps its order. -/
theorem C36_corners (points : List Vec) (poly : List ℕ) (holes : List (List ℕ)) (out : List ℕ)
    (hz : ∀ p ∈ points, p.z = 0) (hh : ∀ h ∈ holes, h ≠ []) (h : mergeHoles points poly holes = .ok out) :
    out.length = poly.length + (holes.map fun h => h.length + 2).sum ∧
    (∀ x, x ∈ out ↔ x ∈ poly ∨ ∃ h ∈ holes, x ∈ h) ∧ poly.Sublist out := by
  have hf := flat_of hz
  have hmem : ∀ x, (∃ h ∈ sortHoles points (holes.map (orderHole points)), x ∈ h) ↔ ∃ h ∈ holes, x ∈ h := by
    intro x
    constructor
    · rintro ⟨g, hg, hx⟩
      obtain ⟨g', hg', rfl⟩ := List.mem_map.mp ((ordered_perm points holes).mem_iff.mp hg)
      obtain ⟨k, hk⟩ := orderHole_rotate points g'
      rw [hk, List.mem_rotate] at hx
      exact ⟨g', hg', hx⟩
    · rintro ⟨g, hg, hx⟩
      refine ⟨orderHole points g, (ordered_perm points holes).mem_iff.mpr (List.mem_map_of_mem hg), ?_⟩
      obtain ⟨k, hk⟩ := orderHole_rotate points g
      rw [hk, List.mem_rotate]; exact hx
  have hlen : ((sortHoles points (holes.map (orderHole points))).map fun h => h.length + 2).sum =
      (holes.map fun h => h.length + 2).sum := by
    rw [((ordered_perm points holes).map _).sum_eq, List.map_map]
    congr 1
    apply List.map_congr_left
    intro a _
    obtain ⟨k, hk⟩ := orderHole_rotate points a
    simp [hk]
  have key := foldlM_ind (f := mergeHole points)
    (fun a l => (∀ h ∈ l, h ≠ []) ∧
      a.length + (l.map fun h => h.length + 2).sum = poly.length + (holes.map fun h => h.length + 2).sum ∧
      (∀ x, (x ∈ a ∨ ∃ h ∈ l, x ∈ h) ↔ x ∈ poly ∨ ∃ h ∈ holes, x ∈ h) ∧ poly.Sublist a) (by
      rintro a b l a' ⟨hne, h1, h2, h3⟩ hm
      have hb := hne b (by simp)
      obtain ⟨p, v, r, rfl, rfl⟩ := merge_shape points a b a' hf hb hm
      refine ⟨fun h hm => hne h (by simp [hm]), ?_, ?_, ?_⟩
      · rw [← h1]
        simp only [List.length_append, List.length_cons, List.map_cons, List.sum_cons, List.length_nil]
        omega
      · intro x
        rw [← h2]
        have := List.head_mem hb
        simp only [List.mem_append, List.mem_cons, List.not_mem_nil, or_false]
        constructor
        · rintro ((h | h | (h | h) | h | h) | ⟨g, hg, hx⟩)
          · tauto
          · tauto
          · exact .inr ⟨b, .inl rfl, h⟩
          · exact .inr ⟨b, .inl rfl, h ▸ this⟩
          · tauto
          · tauto
          · exact .inr ⟨g, .inr hg, hx⟩
        · rintro ((h | h | h) | ⟨g, rfl | hg, hx⟩)
          · tauto
          · tauto
          · tauto
          · tauto
          · exact .inr ⟨g, hg, hx⟩
      · refine h3.trans ?_
        refine List.Sublist.append (List.Sublist.refl _) (List.Sublist.cons_cons _ ?_)
        exact (List.sublist_cons_self v r).trans (List.sublist_append_right _ _))
    _ _ _ ⟨ordered_ne hh, by rw [hlen], fun x => by rw [hmem], List.Sublist.refl _⟩ h
  obtain ⟨-, h1, h2, h3⟩ := key
  refine ⟨by simpa using h1, fun x => ?_, h3⟩
  rw [← h2]; simp

theorem argmax_spec (key : ℕ → Vec) (n : ℕ) (hn : 0 < n) :
    argmax key n < n ∧ ∀ i < n, ¬ key (argmax key n) < key i := by
  obtain ⟨hirr, htr, htot, hasym⟩ := C19_strict_total_order
  have key' : ∀ (l : List ℕ) (b : ℕ),
      (l.foldl (fun best i => if key best < key i then i else best) b ∈ b :: l) ∧
      ∀ i ∈ b :: l, ¬ key (l.foldl (fun best i => if key best < key i then i else best) b) < key i := by
    intro l
    induction l with
    | nil => intro b; simp [hirr]
    | cons x l ih =>
      intro b
      rw [List.foldl_cons]
      by_cases hx : key b < key x
      · rw [if_pos hx]
        obtain ⟨h1, h2⟩ := ih x
        refine ⟨List.mem_cons_of_mem _ h1, ?_⟩
        intro i hi
        rw [List.mem_cons] at hi
        rcases hi with rfl | hi
        · intro h; exact h2 x (by simp) (htr _ _ _ h hx)
        · exact h2 i hi
      · rw [if_neg hx]
        obtain ⟨h1, h2⟩ := ih b
        refine ⟨by simp only [List.mem_cons] at h1 ⊢; tauto, ?_⟩
        intro i hi
        simp only [List.mem_cons] at hi
        rcases hi with rfl | rfl | hi
        · exact h2 i (by simp)
        · intro h
          have hb := h2 b (by simp)
          by_cases e : key b = key i
          · rw [e] at hb; exact hb h
          · rcases (htot _ _).mp e with h' | h'
            · exact hx h'
            · exact hb (htr _ _ _ h h')
        · exact h2 i (by simp [hi])
  obtain ⟨h1, h2⟩ := key' (List.range n) 0
  constructor
  · have : argmax key n ∈ 0 :: List.range n := h1
    rw [List.mem_cons, List.mem_range] at this
    rcases this with h | h
    · rw [h]; exact hn
    · exact h
  · intro i hi
    exact h2 i (by simp [hi])

theorem orderHole_head (points : List Vec) (hole : List ℕ) (hh : hole ≠ []) :
    (orderHole points hole).headD 0 ∈ hole ∧
    ∀ j ∈ hole, ¬ pt points ((orderHole points hole).headD 0) < pt points j := by
  obtain ⟨h1, h2⟩ := argmax_spec (fun i => pt points (hole.getD i 0)) hole.length
    (List.length_pos_iff.mpr hh)
  have e : (orderHole points hole).headD 0 =
      hole.getD (argmax (fun i => pt points (hole.getD i 0)) hole.length) 0 := by
    unfold orderHole
    dsimp only
    generalize argmax (fun i => pt points (hole.getD i 0)) hole.length = k at h1
    rw [List.drop_eq_getElem_cons h1]
    simp [List.getD_eq_getElem?_getD, h1]
  rw [e]
  generalize argmax (fun i => pt points (hole.getD i 0)) hole.length = k at h1 h2
  constructor
  · simp [List.getD_eq_getElem?_getD, h1]
  · intro j hj
    obtain ⟨i, hi, rfl⟩ := List.mem_iff_getElem.mp hj
    have := h2 i hi
    simpa [List.getD_eq_getElem?_getD, hi] using this

/-- **C36** Merging can only fail with a TypeError. -/
theorem C36_raises (points : List Vec) (poly : List ℕ) (holes : List (List ℕ)) (e : Exn)
    (hz : ∀ p ∈ points, p.z = 0) (h : mergeHoles points poly holes = .error e) : e = .typeError := by
  have hf := flat_of hz
  unfold mergeHoles at h
  generalize sortHoles points (holes.map (orderHole points)) = l at h
  induction l generalizing poly with
  | nil => cases h
  | cons b l ih =>
    rw [List.foldlM_cons] at h
    rcases hb : mergeHole points poly b with e' | a'
    · rw [hb] at h
      cases h
      unfold mergeHole at hb
      rcases findVisible_total (points := points) poly (b.headD 0) hf with ⟨he, -⟩ | ⟨⟨vis, hv, hok⟩, -⟩
      · rw [he] at hb; cases hb; rfl
      · rw [hok] at hb; cases hb
    · rw [hb] at h; exact ih a' h

/-- **C36** A hole is merged unless no side of the polygon can be hit from the hole's rightmost corner
`m` by going straight to the right. -/
theorem C36_raises_iff (points : List Vec) (poly hole : List ℕ) (m : ℕ) (hz : ∀ p ∈ points, p.z = 0)
    (hm : m ∈ hole) (hmax : ∀ j ∈ hole, ¬ pt points m < pt points j) :
    (∃ e, mergeHoles points poly [hole] = .error e) ↔
      ∀ s ∈ cycPairs poly, ¬ Hits (pt points m) (pt points s.1) (pt points s.2) := by
  have hf := flat_of hz
  have hh : hole ≠ [] := List.ne_nil_of_mem hm
  obtain ⟨h1, h2⟩ := orderHole_head points hole hh
  have hp : pt points ((orderHole points hole).headD 0) = pt points m := by
    by_contra hne
    rcases (C19_strict_total_order.2.2.1 _ _).mp hne with h | h
    · exact h2 m hm h
    · exact hmax _ h1 h
  have hs : sortHoles points ([hole].map (orderHole points)) = [orderHole points hole] := by
    simp [sortHoles]
  unfold mergeHoles
  rw [hs, ← hp]
  simp only [List.foldlM_cons, List.foldlM_nil, mergeHole]
  rcases findVisible_total (points := points) poly ((orderHole points hole).headD 0) hf with
    ⟨he, hn⟩ | ⟨⟨vis, hv, hok⟩, s, hs, hx⟩
  · rw [he]; exact ⟨fun _ => hn, fun _ => ⟨_, rfl⟩⟩
  · rw [hok]
    constructor
    · rintro ⟨e, he⟩; cases he
    · intro h; exact absurd hx (h s hs)

/-- A square with a triangular hole. -/
example : ∃ out, mergeHoles [⟨0, 0, 0⟩, ⟨9, 0, 0⟩, ⟨9, 9, 0⟩, ⟨0, 9, 0⟩, ⟨3, 3, 0⟩, ⟨3, 4, 0⟩, ⟨5, 4, 0⟩]
    [0, 1, 2, 3] [[4, 5, 6]] = .ok out ∧ out.length = 9 := by
  have hz : ∀ p ∈ ([⟨0, 0, 0⟩, ⟨9, 0, 0⟩, ⟨9, 9, 0⟩, ⟨0, 9, 0⟩, ⟨3, 3, 0⟩, ⟨3, 4, 0⟩, ⟨5, 4, 0⟩] : List Vec),
      p.z = 0 := by simp
  rcases h : mergeHoles [⟨0, 0, 0⟩, ⟨9, 0, 0⟩, ⟨9, 9, 0⟩, ⟨0, 9, 0⟩, ⟨3, 3, 0⟩, ⟨3, 4, 0⟩, ⟨5, 4, 0⟩]
    [0, 1, 2, 3] [[4, 5, 6]] with e | out
  · have := (C36_raises_iff _ [0, 1, 2, 3] [4, 5, 6] 6 hz (by simp) (by
      intro j hj
      simp only [List.mem_cons, List.not_mem_nil, or_false] at hj
      rcases hj with rfl | rfl | rfl <;> rw [Vec.lt_iff] <;> norm_num [pt])).mp ⟨e, h⟩ (1, 2) (by simp [cycPairs])
    exact absurd (.inl ⟨by norm_num [pt], 4 / 9, by norm_num, by norm_num, by norm_num [pt, between2D],
      by norm_num [pt, between2D]⟩) this
  · exact ⟨out, rfl, by rw [(C36_corners _ _ _ _ hz (by simp) h).1]; rfl⟩

end Chrumm.Geo
