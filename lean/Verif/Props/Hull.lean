import Verif.Geo.Hull
import Verif.Props.Vector

/-! C31: the convex hull. -/

namespace Chrumm.Geo
open Spec Classical

private theorem xy_lt {a b : Vec} (ha : a.z = 0) (hb : b.z = 0) : ¬ (b < a) ↔ Sle a b := by
  show ¬ Vec.lt b a ↔ _
  unfold Vec.lt Sle Nn
  by_cases h : b.x = a.x
  · rw [if_neg (not_not.mpr h)]
    by_cases h' : b.y = a.y
    · rw [if_neg (not_not.mpr h'), ha, hb]
      simp [h, h']
    · rw [if_pos h', h]
      simp
  · rw [if_pos h]
    constructor
    · intro h'; left; have := lt_of_le_of_ne (not_lt.mp h') (Ne.symm h); linarith
    · rintro (h' | h')
      · linarith
      · exact absurd (by linarith [h'.1]) h

private theorem sle_iff (a b : Vec) (ha : a.z = 0) (hb : b.z = 0) :
    decide (¬ b < a) = true ↔ Sle a b := by rw [decide_eq_true_iff, xy_lt ha hb]

private theorem pySorted_perm (vs : List Vec) : (pySorted vs).Perm vs := List.mergeSort_perm _ _

private theorem vlt_iff (a b : Vec) : a < b ↔
    a.x < b.x ∨ (a.x = b.x ∧ (a.y < b.y ∨ (a.y = b.y ∧ a.z < b.z))) := by
  show Vec.lt a b ↔ _
  unfold Vec.lt
  by_cases h : a.x = b.x
  · by_cases h' : a.y = b.y
    · simp [h, h']
    · simp [h, h']
  · simp [h]

private theorem pySorted_pairwise (vs : List Vec) : (pySorted vs).Pairwise fun a b => ¬ b < a := by
  have := List.pairwise_mergeSort (le := fun a b : Vec => decide (¬ b < a)) (by
    intro a b c h1 h2
    simp only [decide_eq_true_iff, vlt_iff] at *
    push Not at *
    refine ⟨le_trans h1.1 h2.1, ?_⟩
    intro e
    have e1 : a.x = b.x := le_antisymm h1.1 (by linarith [h2.1])
    have e2 : b.x = c.x := by linarith
    have q1 := h1.2 e1.symm
    have q2 := h2.2 e2.symm
    refine ⟨le_trans q1.1 q2.1, ?_⟩
    intro e
    have e1 : b.y = a.y := le_antisymm (by linarith [q2.1]) q1.1
    have e2 : c.y = b.y := by linarith
    exact le_trans (q1.2 e1) (q2.2 e2)) (by
    intro a b
    simp only [Bool.or_eq_true, decide_eq_true_iff, vlt_iff]
    by_contra hc
    push Not at hc
    obtain ⟨h1, h2⟩ := hc
    rcases h1 with h1 | ⟨e1, h1⟩ <;> rcases h2 with h2 | ⟨e2, h2⟩
    · linarith
    · linarith
    · linarith
    · rcases h1 with h1 | ⟨e1, h1⟩ <;> rcases h2 with h2 | ⟨e2, h2⟩ <;> linarith) vs
  unfold pySorted
  apply this.imp
  intro a b h
  simpa using h

private theorem pathPairs_append {α : Type} (l m : List α) (b : α) :
    pathPairs (l ++ b :: m) = pathPairs (l ++ [b]) ++ pathPairs (b :: m) := by
  induction l with
  | nil => simp [pathPairs]
  | cons a l ih =>
    cases l with
    | nil => simp [pathPairs]
    | cons c l =>
      simp only [pathPairs, List.cons_append, List.tail_cons, List.zip_cons_cons] at ih ⊢
      rw [ih]

theorem cycPairs_cons {α : Type} (x : α) (t : List α) : cycPairs (x :: t) = pathPairs (x :: t ++ [x]) := by
  unfold cycPairs pathPairs
  have : (x :: t).rotate 1 = t ++ [x] := by simp
  rw [this]
  simp only [List.cons_append, List.tail_cons]
  have h : ∀ (a b : List α), a.length = b.length → ∀ y, (a ++ [y]).zip b = a.zip b := by
    intro a
    induction a with
    | nil => intro b hab y; cases b <;> simp at hab ⊢
    | cons c a ih =>
      intro b hab y
      cases b with
      | nil => simp at hab
      | cons d b => simp only [List.cons_append, List.zip_cons_cons]; rw [ih b (by simpa using hab)]
  have := h (x :: t) (t ++ [x]) (by simp) x
  simpa using this.symm

private theorem hull_core (vs : List Vec) (hd : ∃ u ∈ vs, ∃ v ∈ vs, u.xy ≠ v.xy) :
    (2 ≤ (fromConvexHull2D vs).length ∧ (fromConvexHull2D vs).Nodup ∧
    (∀ v ∈ fromConvexHull2D vs, ∃ u ∈ vs, v = u.xy) ∧
    ∀ e ∈ cycPairs (fromConvexHull2D vs),
      (∀ u ∈ vs, 0 ≤ left e.1 e.2 u) ∧
      ∀ r ∈ fromConvexHull2D vs, r ≠ e.1 → r ≠ e.2 → 0 < left e.1 e.2 r) ∧
    ∃ a ∈ fromConvexHull2D vs, ∃ b ∈ fromConvexHull2D vs, ∀ u ∈ vs, Sle a u ∧ Sle u b := by
  -- the two halves
  have hz : ∀ u ∈ pySorted (vs.map Vec.xy), u.z = 0 := by
    intro u hu
    obtain ⟨w, -, rfl⟩ := List.mem_map.mp ((pySorted_perm _).mem_iff.mp hu)
    rfl
  have hsort : (pySorted (vs.map Vec.xy)).Pairwise Sle := by
    apply (pySorted_pairwise (vs.map Vec.xy)).imp_of_mem
    intro a b ha hb h
    exact (xy_lt (hz a ha) (hz b hb)).mp h
  have hdist : ∃ u ∈ pySorted (vs.map Vec.xy), ∃ v ∈ pySorted (vs.map Vec.xy), u ≠ v := by
    obtain ⟨u, hu, v, hv, hne⟩ := hd
    exact ⟨u.xy, (pySorted_perm _).mem_iff.mpr (List.mem_map_of_mem hu), v.xy,
      (pySorted_perm _).mem_iff.mpr (List.mem_map_of_mem hv), hne⟩
  have hmemP : ∀ u ∈ vs, u.xy ∈ pySorted (vs.map Vec.xy) := fun u hu =>
    (pySorted_perm _).mem_iff.mpr (List.mem_map_of_mem hu)
  have hsubP : ∀ v ∈ pySorted (vs.map Vec.xy), ∃ u ∈ vs, v = u.xy := by
    intro v hv
    obtain ⟨u, hu, e⟩ := List.mem_map.mp ((pySorted_perm _).mem_iff.mp hv)
    exact ⟨u, hu, e.symm⟩
  have hleft : ∀ p q u : Vec, left p q u.xy = left p q u := by intro p q u; rfl
  unfold fromConvexHull2D
  dsimp only
  generalize pySorted (vs.map Vec.xy) = S at *
  have A := halfHull_half S hz hsort hdist
  have B := halfHull_half' S.reverse (fun u hu => hz u (List.mem_reverse.mp hu))
    (by rw [List.pairwise_reverse]; exact hsort)
    (by obtain ⟨u, hu, v, hv, hne⟩ := hdist
        exact ⟨u, List.mem_reverse.mpr hu, v, List.mem_reverse.mpr hv, hne⟩)
  have hPQ : ∀ u, u ∈ S ↔ u ∈ S.reverse := fun u => List.mem_reverse.symm
  generalize halfHull S = h at *
  generalize halfHull S.reverse = k at *
  obtain ⟨a, ha1, ha2⟩ := A.bot
  obtain ⟨b, hb1, hb2⟩ := A.top
  obtain ⟨b', hb1', hb2'⟩ := B.bot
  obtain ⟨a', ha1', ha2'⟩ := B.top
  have zS : ∀ u ∈ S.reverse, u.z = 0 := fun u hu => hz u (List.mem_reverse.mp hu)
  have ham : a ∈ S := A.sub a (List.mem_of_mem_head? ha1)
  have hbm : b ∈ S := A.sub b (List.mem_of_mem_getLast? hb1)
  have hb'm : b' ∈ S := List.mem_reverse.mp (B.sub b' (List.mem_of_mem_head? hb1'))
  have ha'm : a' ∈ S := List.mem_reverse.mp (B.sub a' (List.mem_of_mem_getLast? ha1'))
  have eb : b' = b := by
    refine vec_eq (Sle.antisymm ?_ ?_) (hz b' hb'm) (hz b hbm)
    · have := hb2 b' hb'm; simpa [Sle] using this
    · have := hb2' b (List.mem_reverse.mpr hbm)
      unfold Sle; rwa [show -1 * (b.x - b'.x) = b'.x - b.x by ring,
        show -1 * (b.y - b'.y) = b'.y - b.y by ring] at this
  have ea : a' = a := by
    refine vec_eq (Sle.antisymm ?_ ?_) (hz a' ha'm) (hz a ham)
    · have := ha2' a (List.mem_reverse.mpr ham)
      unfold Sle; rwa [show -1 * (a'.x - a.x) = a.x - a'.x by ring,
        show -1 * (a'.y - a.y) = a.y - a'.y by ring] at this
    · have := ha2 a' ha'm; simpa [Sle] using this
  subst eb ea
  have hab : a' ≠ b' := by
    rintro rfl
    obtain ⟨u, hu, v, hv, hne⟩ := hdist
    apply hne
    have e : ∀ w ∈ S, w = a' := by
      intro w hw
      refine vec_eq (Sle.antisymm ?_ ?_) (hz w hw) (hz a' ham)
      · have := hb2 w hw; simpa [Sle] using this
      · have := ha2 w hw; simpa [Sle] using this
    rw [e u hu, e v hv]
  -- shapes
  obtain ⟨h', rfl⟩ : ∃ h', h = a' :: h' ++ [b'] := by
    obtain ⟨t, rfl⟩ : ∃ t, h = a' :: t := by
      cases h with
      | nil => simp at ha1
      | cons x t => simp at ha1; exact ⟨t, by rw [ha1]⟩
    cases t using List.reverseRecOn with
    | nil => simp at hb1; exact absurd hb1 hab
    | append_singleton t x =>
      have : x = b' := by
        have e : (a' :: (t ++ [x])).getLast? = some x := by
          rw [← List.cons_append]; exact List.getLast?_concat
        rw [e] at hb1; exact Option.some.inj hb1
      exact ⟨t, by rw [this]; rfl⟩
  obtain ⟨k', rfl⟩ : ∃ k', k = b' :: k' ++ [a'] := by
    obtain ⟨t, rfl⟩ : ∃ t, k = b' :: t := by
      cases k with
      | nil => simp at hb1'
      | cons x t => simp at hb1'; exact ⟨t, by rw [hb1']⟩
    cases t using List.reverseRecOn with
    | nil => simp at ha1'; exact absurd ha1'.symm hab
    | append_singleton t x =>
      have : x = a' := by
        have e : (b' :: (t ++ [x])).getLast? = some x := by
          rw [← List.cons_append]; exact List.getLast?_concat
        rw [e] at ha1'; exact Option.some.inj ha1'
      exact ⟨t, by rw [this]; rfl⟩
  rw [List.dropLast_concat, List.dropLast_concat]
  -- strict sortedness gives distinct corners
  have ndA : (a' :: h' ++ [b']).Nodup := A.sorted.imp (by
    intro x y hxy e; subst e; rcases hxy with h | h <;> simp at h)
  have ndB : (b' :: k' ++ [a']).Nodup := B.sorted.imp (by
    intro x y hxy e; subst e; rcases hxy with h | h <;> simp at h)
  -- inner corners have two neighbours
  have split : ∀ (x y : Vec) (m : List Vec) (r : Vec), r ∈ m →
      ∃ k1 r0 r1 k2, x :: m ++ [y] = k1 ++ r0 :: r :: r1 :: k2 := by
    intro x y m r hr
    obtain ⟨s, t, rfl⟩ := List.append_of_mem hr
    obtain ⟨s', r0, e1⟩ : ∃ s' r0, x :: s = s' ++ [r0] := ⟨(x :: s).dropLast, (x :: s).getLast (by simp),
      (List.dropLast_append_getLast (by simp)).symm⟩
    obtain ⟨r1, t', e2⟩ : ∃ r1 t', t ++ [y] = r1 :: t' := by
      cases t with
      | nil => exact ⟨y, [], rfl⟩
      | cons c t => exact ⟨c, t ++ [y], rfl⟩
    refine ⟨s', r0, r1, t', ?_⟩
    calc x :: (s ++ r :: t) ++ [y] = (x :: s) ++ r :: (t ++ [y]) := by simp
      _ = _ := by rw [e1, e2]; simp
  have crossA : ∀ p q, (p, q) ∈ pathPairs (a' :: h' ++ [b']) → ∀ r ∈ k', 0 < left p q r := by
    intro p q hpq r hr
    obtain ⟨l1, l2, e1⟩ := mem_pathPairs.mp hpq
    obtain ⟨k1, r0, r1, k2, e2⟩ := split b' a' k' r hr
    exact A.cross hPQ B e1 e2
  have crossB : ∀ p q, (p, q) ∈ pathPairs (b' :: k' ++ [a']) → ∀ r ∈ h', 0 < left p q r := by
    intro p q hpq r hr
    obtain ⟨l1, l2, e1⟩ := mem_pathPairs.mp hpq
    obtain ⟨k1, r0, r1, k2, e2⟩ := split a' b' h' r hr
    have A' : Half (- -1) S (a' :: h' ++ [b']) := by rw [neg_neg]; exact A
    exact B.cross (fun u => (hPQ u).symm) A' e1 e2
  -- strict convexity within one half
  have own : ∀ {s : ℝ} {Q g : List Vec}, Half s Q g → ∀ p q, (p, q) ∈ pathPairs g → ∀ r ∈ g, r ≠ p →
      r ≠ q → 0 < left p q r := by
    intro s Q g G p q hpq r hr h1 h2
    obtain ⟨l1, l2, e⟩ := mem_pathPairs.mp hpq
    rw [e] at hr
    rcases List.mem_append.mp hr with hr | hr
    · have : [r, p, q].Sublist g := by
        rw [e]
        have s1 : [r].Sublist l1 := List.singleton_sublist.mpr hr
        have s2 : [p, q].Sublist (p :: q :: l2) := by simp
        exact s1.append s2
      have := G.tri r p q this
      rw [left_rot] at this; exact this
    · simp only [List.mem_cons] at hr
      rcases hr with hr | hr | hr
      · exact absurd hr h1
      · exact absurd hr h2
      · apply G.tri p q r
        rw [e]
        have : [p, q, r].Sublist (p :: q :: l2) := by
          simpa using List.singleton_sublist.mpr hr
        exact this.trans (List.sublist_append_right _ _)
  have hcyc : cycPairs (a' :: h' ++ (b' :: k')) =
      pathPairs (a' :: h' ++ [b']) ++ pathPairs (b' :: k' ++ [a']) := by
    rw [List.cons_append, cycPairs_cons]
    have := pathPairs_append (a' :: h') (k' ++ [a']) b'
    simp only [List.cons_append, List.append_assoc] at this ⊢
    exact this
  have hmemAB : ∀ r ∈ a' :: h' ++ (b' :: k'),
      (r ∈ a' :: h' ++ [b'] ∨ r ∈ k') ∧ (r ∈ b' :: k' ++ [a'] ∨ r ∈ h') := by
    intro r hr; simp only [List.cons_append, List.mem_cons, List.mem_append, List.not_mem_nil, or_false] at hr ⊢
    tauto
  refine ⟨⟨by simp; omega, ?_, ?_, ?_⟩, a', by simp, b', by simp, ?_⟩
  · rw [List.nodup_append]
    refine ⟨ndA.sublist (List.sublist_append_left _ _), ndB.sublist (List.sublist_append_left _ _), ?_⟩
    intro x hx y hy exy
    subst exy
    have nb : x ≠ b' := by
      rintro rfl
      have := (List.nodup_append.mp ndA).2.2 x hx x (by simp)
      exact this rfl
    have na : x ≠ a' := by
      rintro rfl
      have := (List.nodup_append.mp ndB).2.2 x hy x (by simp)
      exact this rfl
    have hxh : x ∈ h' := (List.mem_cons.mp hx).resolve_left na
    have hxk : x ∈ k' := (List.mem_cons.mp hy).resolve_left nb
    obtain ⟨k1, r0, r1, k2, e⟩ := split a' b' h' x hxh
    have := crossA x r1 (mem_pathPairs.mpr ⟨k1 ++ [r0], k2, by rw [e]; simp⟩) x hxk
    rw [left_self1] at this
    exact lt_irrefl _ this
  · intro v hv
    rcases (hmemAB v hv).1 with h | h
    · exact hsubP v (A.sub v h)
    · exact hsubP v (List.mem_reverse.mp (B.sub v (by simp [h])))
  · intro e he
    rw [hcyc] at he
    obtain ⟨p, q⟩ := e
    rcases List.mem_append.mp he with he | he
    · refine ⟨?_, ?_⟩
      · intro u hu
        obtain ⟨l1, l2, e1⟩ := mem_pathPairs.mp he
        have := A.edge l1 p q l2 e1 u.xy (hmemP u hu)
        rwa [hleft] at this
      · intro r hr h1 h2
        rcases (hmemAB r hr).1 with h | h
        · exact own A p q he r h h1 h2
        · exact crossA p q he r h
    · refine ⟨?_, ?_⟩
      · intro u hu
        obtain ⟨l1, l2, e1⟩ := mem_pathPairs.mp he
        have := B.edge l1 p q l2 e1 u.xy (List.mem_reverse.mpr (hmemP u hu))
        rwa [hleft] at this
      · intro r hr h1 h2
        rcases (hmemAB r hr).2 with h | h
        · exact own B p q he r h h1 h2
        · exact crossB p q he r h

  · intro u hu
    refine ⟨?_, ?_⟩
    · have := ha2 u.xy (hmemP u hu); simpa [Sle, Vec.xy] using this
    · have := hb2 u.xy (hmemP u hu); simpa [Sle, Vec.xy] using this

/-- **C31** Unless all points coincide (seen from above), the hull
* consists of at least two different corners, all of them given points,
* has all given points on or to the left of each of its edges (it is traversed counter-clockwise and
  contains them all),
* has each corner strictly to the left of every edge that does not end there (it is strictly convex). -/
theorem C31_convex_hull (vs : List Vec) (hd : ∃ u ∈ vs, ∃ v ∈ vs, u.xy ≠ v.xy) :
    2 ≤ (fromConvexHull2D vs).length ∧ (fromConvexHull2D vs).Nodup ∧
    (∀ v ∈ fromConvexHull2D vs, ∃ u ∈ vs, v = u.xy) ∧
    ∀ e ∈ cycPairs (fromConvexHull2D vs),
      (∀ u ∈ vs, 0 ≤ left e.1 e.2 u) ∧
      ∀ r ∈ fromConvexHull2D vs, r ≠ e.1 → r ≠ e.2 → 0 < left e.1 e.2 r := (hull_core vs hd).1

/-- **C31** If all points are on a line, the hull is the segment that contains them all. -/
theorem C31_flat_hull (vs : List Vec) (hd : ∃ u ∈ vs, ∃ v ∈ vs, u.xy ≠ v.xy) (a b : Vec)
    (h : fromConvexHull2D vs = [a, b]) (u : Vec) (hu : u ∈ vs) :
    ∃ t, 0 ≤ t ∧ t ≤ 1 ∧ u.xy = between2D a b t := by
  obtain ⟨⟨-, hnd, hsub, hleft⟩, a', ha', b', hb', hext⟩ := hull_core vs hd
  rw [h] at hnd hsub hleft ha' hb'
  have hne : a ≠ b := by simpa using hnd
  have h1 := (hleft (a, b) (by simp [cycPairs])).1 u hu
  have h2 := (hleft (b, a) (by simp [cycPairs])).1 u hu
  have hz : ∀ v ∈ [a, b], v.z = 0 := by
    intro v hv; obtain ⟨w, -, rfl⟩ := hsub v hv; rfl
  have hza := hz a (by simp)
  have hzb := hz b (by simp)
  -- the extreme points are a and b, in some order
  have huse : ∀ p q : Vec, p.z = 0 → q.z = 0 → p ≠ q → Sle p u → Sle u q → Sle p q → left p q u = 0 →
      ∃ t, 0 ≤ t ∧ t ≤ 1 ∧ u.xy = between2D p q t := by
    intro p q hp hq hpq l1 l2 l3 hl
    have hlt : Slt p q := l3.lt_of_ne hp hq hpq
    unfold Sle Nn Slt Pos left at *
    rcases hlt with hlt | ⟨e, hlt⟩
    · refine ⟨(u.x - p.x) / (q.x - p.x), ?_, ?_, ?_⟩
      · apply div_nonneg _ hlt.le
        rcases l1 with l | l <;> linarith [l]
      · rw [div_le_one hlt]
        rcases l2 with l | l <;> linarith [l]
      · have hc : (u.x - p.x) / (q.x - p.x) * (q.x - p.x) = u.x - p.x := by field_simp
        have hne' := hlt.ne'
        ext
        · simp only [Vec.xy, between2D]; linarith
        · simp only [Vec.xy, between2D]
          field_simp; linarith
        · rfl
    · have hpx : q.x = p.x := by linarith
      have hux : u.x = p.x := by
        rcases l1 with l1 | l1 <;> rcases l2 with l2 | l2 <;> linarith [l1, l2]
      refine ⟨(u.y - p.y) / (q.y - p.y), ?_, ?_, ?_⟩
      · apply div_nonneg _ hlt.le
        rcases l1 with l | l
        · linarith
        · exact l.2
      · rw [div_le_one hlt]
        rcases l2 with l | l
        · linarith
        · linarith [l.2]
      · have hc : (u.y - p.y) / (q.y - p.y) * (q.y - p.y) = u.y - p.y := by field_simp
        ext
        · simp only [Vec.xy, between2D, hpx, hux]; ring
        · simp only [Vec.xy, between2D]; linarith
        · rfl
  have hl0 : left a b u = 0 := by
    dsimp only at h1 h2
    have := left_swap a b u; linarith
  have hl0' : left b a u = 0 := by rw [left_swap, hl0, neg_zero]
  obtain ⟨g1, g2⟩ := hext u hu
  have hab : Sle a' b' := g1.trans g2
  simp only [List.mem_cons, List.not_mem_nil, or_false] at ha' hb'
  have hmem : ∀ v ∈ [a, b], Sle a' v ∧ Sle v b' := by
    intro v hv; obtain ⟨w, hw, rfl⟩ := hsub v hv; exact hext w hw
  have hcol : a' ≠ b' := by
    rintro rfl
    apply hne
    have e1 := vec_eq (Sle.antisymm (hmem a (by simp)).1 (hmem a (by simp)).2) (by rcases ha' with h | h <;> rw [h] <;> assumption) hza
    have e2 := vec_eq (Sle.antisymm (hmem b (by simp)).1 (hmem b (by simp)).2) (by rcases ha' with h | h <;> rw [h] <;> assumption) hzb
    rw [← e1, ← e2]
  rcases ha' with rfl | rfl <;> rcases hb' with rfl | rfl
  · exact absurd rfl hcol
  · exact huse a' b' hza hzb hcol g1 g2 hab hl0
  · obtain ⟨t, t0, t1, e⟩ := huse a' b' hzb hza hcol g1 g2 hab hl0'
    refine ⟨1 - t, by linarith, by linarith, ?_⟩
    rw [e]; unfold between2D; ext <;> dsimp only <;> ring
  · exact absurd rfl hcol

/-- **C31** Without two different points there is no proper hull: no corner for at most one point,
else the same corner twice. -/
theorem C31_coincident (vs : List Vec) (p : Vec) (h : ∀ u ∈ vs, u.xy = p) :
    fromConvexHull2D vs = if vs.length ≤ 1 then [] else [p, p] := by
  have hS : pySorted (vs.map Vec.xy) = List.replicate vs.length p := by
    apply List.eq_replicate_iff.mpr
    refine ⟨by rw [(pySorted_perm _).length_eq]; simp, ?_⟩
    intro b hb
    obtain ⟨u, hu, rfl⟩ := List.mem_map.mp ((pySorted_perm _).mem_iff.mp hb)
    exact h u hu
  have hpp : popLoop p [p, p] = [p] := by
    have e : ((p - p).cross (p - p)).z ≤ 0 := by
      apply le_of_eq
      simp only [Vec.cross, Vec.sub_x, Vec.sub_y]; ring
    rw [popLoop, if_pos e]; rfl
  have hf : ∀ n, (List.replicate n p).foldl (fun st v => v :: popLoop v st) [p, p] = [p, p] := by
    intro n
    induction n with
    | zero => rfl
    | succ n ih => rw [List.replicate_succ, List.foldl_cons, hpp, ih]
  have hh : ∀ n, halfHull (List.replicate n p) = if n = 0 then [] else if n = 1 then [p] else [p, p] := by
    intro n
    match n with
    | 0 => rfl
    | 1 => rfl
    | n + 2 =>
      unfold halfHull
      rw [List.replicate_succ, List.replicate_succ, List.foldl_cons, List.foldl_cons]
      have : p :: popLoop p (p :: popLoop p []) = [p, p] := rfl
      rw [this, hf]
      simp
  unfold fromConvexHull2D
  dsimp only
  rw [hS, List.reverse_replicate, hh]
  generalize vs.length = n
  match n with
  | 0 => rfl
  | 1 => rfl
  | n + 2 => simp

/-- The hypothesis holds for a square with an inner point. -/
example : ∃ u ∈ [(⟨0,0,1⟩ : Vec), ⟨2,0,0⟩, ⟨2,2,0⟩, ⟨0,2,0⟩, ⟨1,1,5⟩],
    ∃ v ∈ [(⟨0,0,1⟩ : Vec), ⟨2,0,0⟩, ⟨2,2,0⟩, ⟨0,2,0⟩, ⟨1,1,5⟩], u.xy ≠ v.xy :=
  ⟨⟨0,0,1⟩, by simp, ⟨2,0,0⟩, by simp, by simp [Vec.xy]⟩

end Chrumm.Geo
