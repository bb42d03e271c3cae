import Verif.Spec.Offset
import Verif.Props.FloorShape

/-! Offset outlines without special cases (C101). -/

namespace Chrumm.Part
open Geo Geo.Spec Spec

theorem on_between {a b v : Vec} (h : left a b v = 0) (hz : v.z = 0) (hn : b.x - a.x ≠ 0 ∨ b.y - a.y ≠ 0) : ∃ t, v = between2D a b t := by
  unfold left at h
  rcases hn with hn | hn
  · refine ⟨(v.x - a.x) / (b.x - a.x), ?_⟩
    unfold between2D
    ext
    · simp only; field_simp; ring
    · simp only
      field_simp
      linarith
    · exact hz
  · refine ⟨(v.y - a.y) / (b.y - a.y), ?_⟩
    unfold between2D
    ext
    · simp only
      field_simp
      linarith
    · simp only; field_simp; ring
    · exact hz

/-- Two sides are connected at their corner. -/
theorem connect_corner {s0 s1 : Segment} {q : Vec} (hz : q.z = 0) (h0 : left s0.a s0.b q = 0) (h1 : left s1.a s1.b q = 0)
    (hc : (s0.b = q ∧ s1.a = q) ∨ 1 / 1000000 ≤ |(s0.b.x - s0.a.x) * (s1.b.y - s1.a.y) - (s0.b.y - s0.a.y) * (s1.b.x - s1.a.x)|) :
    ∃ r, s0.intersect2D s1 2 = .ok r ∧ connectMiddle s0 s1 r = .ok q := by
  by_cases hd : 1 / 1000000 ≤ |(s0.b.x - s0.a.x) * (s1.b.y - s1.a.y) - (s0.b.y - s0.a.y) * (s1.b.x - s1.a.x)|
  · refine ⟨some q, (C29_intersection s0 s1 2 q).mpr ⟨by norm_num, by norm_num at hd ⊢; exact hd, ?_⟩, rfl⟩
    have hne : (s0.b.x - s0.a.x) * (s1.b.y - s1.a.y) - (s0.b.y - s0.a.y) * (s1.b.x - s1.a.x) ≠ 0 := by
      intro h; rw [h] at hd; norm_num at hd
    obtain ⟨t, ht⟩ := on_between h0 hz (by
      by_contra hn
      rw [not_or, not_not, not_not] at hn
      rw [hn.1, hn.2] at hne
      simp at hne)
    obtain ⟨u, hu⟩ := on_between h1 hz (by
      by_contra hn
      rw [not_or, not_not, not_not] at hn
      rw [hn.1, hn.2] at hne
      simp at hne)
    exact ⟨t, u, ht, hu, by norm_num, by norm_num⟩
  · obtain ⟨e0, e1⟩ := hc.resolve_right hd
    cases hr : s0.intersect2D s1 2 with
    | error e =>
      exfalso
      unfold Segment.intersect2D at hr
      dsimp only at hr
      split_ifs at hr <;> first | cases hr | skip
      rename_i h
      exact h (by norm_num)
    | ok r =>
      refine ⟨r, rfl, ?_⟩
      cases r with
      | some x =>
        have := ((C29_intersection s0 s1 2 x).mp hr).2.1
        norm_num at this hd
        exact absurd this (not_le.mpr hd)
      | none =>
        unfold connectMiddle Vec.div
        rw [if_neg (by norm_num), e0, e1]
        refine congrArg Except.ok ?_
        ext <;> simp

/-- The sides after `k` steps of connecting them. -/
def connected (n : ℕ) (q s m : ℕ → Vec) (k : ℕ) : List Segment :=
  (List.range n).map fun j => ⟨if j < k then q j else s j, if j + 1 < k ∨ (j + 1 = n ∧ 0 < k) then q (j + 1) else m j⟩

theorem connected_getD {n : ℕ} {q s m : ℕ → Vec} {k j : ℕ} (h : j < n) : (connected n q s m k).getD j ⟨0, 0⟩ =
    ⟨if j < k then q j else s j, if j + 1 < k ∨ (j + 1 = n ∧ 0 < k) then q (j + 1) else m j⟩ := by
  unfold connected
  rw [List.getD_eq_getElem?_getD, List.getElem?_map, List.getElem?_range h]
  rfl

theorem connected_step {n : ℕ} (hn : 2 ≤ n) {q s m : ℕ → Vec} (pq : ∀ i, q (i + n) = q i) (ps : ∀ i, s (i + n) = s i) (pm : ∀ i, m (i + n) = m i)
    (hz : ∀ i, (q i).z = 0)
    (hc : ∀ i, ∀ a ∈ [q i, s i], ∀ b ∈ [q (i + 2), m (i + 1)], left a (m i) (q (i + 1)) = 0 ∧ left (s (i + 1)) b (q (i + 1)) = 0 ∧
      ((m i = q (i + 1) ∧ s (i + 1) = q (i + 1)) ∨
        1 / 1000000 ≤ |((m i).x - a.x) * (b.y - (s (i + 1)).y) - ((m i).y - a.y) * (b.x - (s (i + 1)).x)|)) {k : ℕ} (hk : k < n) :
    connectStep (connected n q s m k) k = .ok (connected n q s m (k + 1)) := by
  have hlen : (connected n q s m k).length = n := by simp [connected]
  unfold connectStep
  rw [hlen]
  dsimp only
  rcases Nat.eq_zero_or_pos k with rfl | k0
  · have e0 : (0 + n - 1) % n = n - 1 := by rw [Nat.zero_add, Nat.mod_eq_of_lt (by omega)]
    rw [e0, connected_getD (by omega), connected_getD hk]
    simp only [lt_irrefl, not_lt_zero, if_false, and_false, or_false]
    have c := hc (n - 1) (s (n - 1)) (by simp) (m (n - 1 + 1)) (by simp)
    rw [show n - 1 + 1 = 0 + n by omega, pq, ps, pm] at c
    obtain ⟨c1, c2, c3⟩ := c
    obtain ⟨r, r1, r2⟩ := connect_corner (s0 := ⟨s (n - 1), m (n - 1)⟩) (s1 := ⟨s 0, m 0⟩) (hz 0) c1 c2 c3
    rw [r1, value_bind, r2, value_bind]
    congr 1
    apply List.ext_getElem
    · simp [connected]
    · intro j h1 h2
      have hj : j < n := by simpa [connected] using h2
      rw [List.getElem_modify, List.getElem_modify]
      simp only [connected, List.getElem_map, List.getElem_range]
      by_cases a1 : j = 0
      · subst a1
        have : ¬ (n - 1 = 0) := by omega
        simp [this]
        omega
      · by_cases a2 : n - 1 = j
        · subst a2
          have : n - 1 + 1 = n := by omega
          have h0 : q n = q 0 := by have := pq 0; rwa [Nat.zero_add] at this
          rw [if_neg (by omega), if_pos rfl]
          simp [this, h0]
          omega
        · rw [if_neg (by omega), if_neg a2]
          have t1 : ¬ (j < 0 + 1) := by omega
          have t2 : ¬ (j + 1 = n) := by omega
          simp [t2, a1]
  · have e0 : (k + n - 1) % n = k - 1 := by
      rw [show k + n - 1 = k - 1 + n by omega, Nat.add_mod_right, Nat.mod_eq_of_lt (by omega)]
    rw [e0, connected_getD (by omega), connected_getD hk]
    have t1 : ¬ (k - 1 + 1 < k ∨ (k - 1 + 1 = n ∧ 0 < k)) := by omega
    rw [if_neg t1, if_neg (lt_irrefl k), if_pos (by omega : k - 1 < k)]
    have c := hc (k - 1) (q (k - 1)) (by simp) (if k + 1 < k ∨ (k + 1 = n ∧ 0 < k) then q (k + 1) else m k) (by
      rw [show k - 1 + 2 = k + 1 by omega, show k - 1 + 1 = k by omega]
      split_ifs <;> simp)
    rw [show k - 1 + 1 = k by omega] at c
    obtain ⟨c1, c2, c3⟩ := c
    obtain ⟨r, r1, r2⟩ := connect_corner (s0 := ⟨q (k - 1), m (k - 1)⟩)
      (s1 := ⟨s k, if k + 1 < k ∨ (k + 1 = n ∧ 0 < k) then q (k + 1) else m k⟩) (hz k) c1 c2 c3
    rw [r1, value_bind, r2, value_bind]
    congr 1
    apply List.ext_getElem
    · simp [connected]
    · intro j h1 h2
      have hj : j < n := by simpa [connected] using h2
      rw [List.getElem_modify, List.getElem_modify]
      simp only [connected, List.getElem_map, List.getElem_range]
      by_cases a1 : k = j
      · subst a1
        rw [if_pos rfl, if_neg (by omega : ¬ k - 1 = k)]
        have u1 : ¬ (k + 1 < k) := by omega
        simp [u1, k0]
      · by_cases a2 : k - 1 = j
        · have : k = j + 1 := by omega
          subst this
          rw [if_neg a1, if_pos a2]
          simp
        · rw [if_neg a1, if_neg a2]
          have u1 : j < k ↔ j < k + 1 := by omega
          have u2 : (j + 1 < k ∨ (j + 1 = n ∧ 0 < k)) ↔ (j + 1 < k + 1 ∨ (j + 1 = n ∧ 0 < k + 1)) := by omega
          simp only [u1, u2]

theorem connect_clean {n : ℕ} (hn : 2 ≤ n) {q s m : ℕ → Vec} (pq : ∀ i, q (i + n) = q i) (ps : ∀ i, s (i + n) = s i) (pm : ∀ i, m (i + n) = m i)
    (hz : ∀ i, (q i).z = 0)
    (hc : ∀ i, ∀ a ∈ [q i, s i], ∀ b ∈ [q (i + 2), m (i + 1)], left a (m i) (q (i + 1)) = 0 ∧ left (s (i + 1)) b (q (i + 1)) = 0 ∧
      ((m i = q (i + 1) ∧ s (i + 1) = q (i + 1)) ∨
        1 / 1000000 ≤ |((m i).x - a.x) * (b.y - (s (i + 1)).y) - ((m i).y - a.y) * (b.x - (s (i + 1)).x)|)) :
    connect ((List.range n).map fun j => ⟨s j, m j⟩) = .ok ((List.range n).map fun j => ⟨q j, q (j + 1)⟩) := by
  have st : ∀ k ≤ n, (List.range k).foldlM connectStep (connected n q s m 0) = .ok (connected n q s m k) := by
    intro k
    induction k with
    | zero => intro _; rfl
    | succ k ih =>
      intro hk
      rw [List.range_succ, List.foldlM_append, ih (by omega), value_bind, List.foldlM_cons, connected_step hn pq ps pm hz hc (by omega), value_bind]
      rfl
  have e0 : (List.range n).map (fun j => (⟨s j, m j⟩ : Segment)) = connected n q s m 0 := by
    unfold connected
    simp
  have e1 : (List.range n).map (fun j => (⟨q j, q (j + 1)⟩ : Segment)) = connected n q s m n := by
    unfold connected
    apply List.map_congr_left
    intro j hj
    have := List.mem_range.mp hj
    rw [if_pos this, if_pos (by omega)]
  unfold connect
  rw [e0, e1, show (connected n q s m 0).length = n by simp [connected]]
  exact st n le_rfl

theorem rotateAt_range {α : Type} {n : ℕ} {f : ℕ → α} (pf : ∀ i, f (i + n) = f i) {t : ℕ} (ht : t ≤ n) :
    rotateAt ((List.range n).map f) t = (List.range n).map fun j => f (j + t) := by
  unfold rotateAt
  apply List.ext_getElem
  · simp; omega
  · intro j h1 h2
    have hj : j < n := by simpa using h2
    simp only [List.getElem_map, List.getElem_range]
    by_cases h : j < n - t
    · rw [List.getElem_append_left (by simpa using h)]
      simp [Nat.add_comm]
    · rw [List.getElem_append_right (by simpa using not_lt.mp h)]
      simp only [List.length_drop, List.length_map, List.length_range, List.getElem_take, List.getElem_map, List.getElem_range]
      rw [← pf (j - (n - t))]
      congr 1
      omega

theorem nearestCut_none {s : Segment} {cs : List Segment} (h : ∀ c ∈ cs, s.intersect2D c = .ok none) (k : ℕ) : nearestCut s k cs none = .ok none := by
  induction cs generalizing k with
  | nil => rfl
  | cons c cs ih =>
    unfold nearestCut
    rw [h c (by simp), value_bind]
    exact ih (fun c hc => h c (by simp [hc])) _

theorem cutLoops_clean {f : Bool} {l : List Segment}
    (h : ∀ i j (hi : i < l.length) (hj : j < l.length), i + 2 ≤ j → (f = true → ¬ (i = 0 ∧ j = l.length - 1)) → l[i].intersect2D l[j] = .ok none) :
    cutLoops f l = .ok l := by
  induction l generalizing f with
  | nil => unfold cutLoops; rfl
  | cons s tail ih =>
    rw [cutLoops]
    have hn : ∀ c ∈ (if f = true then tail.dropLast else tail).drop 1, s.intersect2D c = .ok none := by
      intro c hc
      obtain ⟨j, hj, rfl⟩ := List.mem_iff_getElem.mp hc
      cases f with
      | true =>
        simp only [if_true, List.length_drop, List.length_dropLast] at hj
        simp only [if_true, List.getElem_drop, List.getElem_dropLast]
        have := h 0 (1 + j + 1) (by simp) (by simp only [List.length_cons]; omega) (by omega) (by simp only [List.length_cons]; omega)
        simpa using this
      | false =>
        simp only [Bool.false_eq_true, if_false, List.length_drop] at hj
        simp only [Bool.false_eq_true, if_false, List.getElem_drop]
        have := h 0 (1 + j + 1) (by simp) (by simp only [List.length_cons]; omega) (by omega) (by simp)
        simpa using this
    have hr : cutLoops false tail = .ok tail := ih fun i j hi hj hij _ => by
      have := h (i + 1) (j + 1) (by simpa using hi) (by simpa using hj) (by omega) (by simp)
      simpa using this
    rw [nearestCut_none hn, value_bind, hr, value_bind]
    rfl

theorem moved_collinear {a b u v w : Vec} {d : ℝ} (hab : 0 < dist2D a b) (hu : OnMoved a b d u) (hv : OnMoved a b d v) (hw : OnMoved a b d w) : left u v w = 0 := by
  unfold OnMoved left at *
  have hx : (b.x - a.x) * ((v.x - u.x) * (w.y - u.y) - (v.y - u.y) * (w.x - u.x)) = 0 := by
    linear_combination (v.x - u.x) * (hw - hu) - (w.x - u.x) * (hv - hu)
  have hy : (b.y - a.y) * ((v.x - u.x) * (w.y - u.y) - (v.y - u.y) * (w.x - u.x)) = 0 := by
    linear_combination (v.y - u.y) * (hw - hu) - (w.y - u.y) * (hv - hu)
  by_contra hne
  have e1 := (mul_eq_zero.mp hx).resolve_right hne
  have e2 := (mul_eq_zero.mp hy).resolve_right hne
  unfold dist2D distSq2D at hab
  rw [show (a.x - b.x) ^ 2 + (a.y - b.y) ^ 2 = 0 by rw [show a.x - b.x = 0 by linarith, show a.y - b.y = 0 by linarith]; norm_num, Real.sqrt_zero] at hab
  exact lt_irrefl _ hab

theorem dist2D_sq (a b : Vec) : dist2D a b ^ 2 = (b.x - a.x) ^ 2 + (b.y - a.y) ^ 2 := by
  unfold dist2D distSq2D
  rw [Real.sq_sqrt (by positivity)]
  ring

theorem rightward_moved {a b : Vec} {d : ℝ} (hab : 0 < dist2D a b) : OnMoved a b d (a.xy + rightward a b d) ∧ OnMoved a b d (b.xy + rightward a b d) := by
  have h2 := dist2D_sq a b
  have hne := hab.ne'
  unfold OnMoved left rightward
  simp only [Vec.add_x, Vec.add_y, Vec.xy]
  constructor
  · field_simp
    linear_combination d * h2
  · field_simp
    linear_combination d * h2

theorem offset2D_eq {a b : Vec} {d : ℝ} (hab : 0 < dist2D a b) : (⟨a, b⟩ : Segment).offset2D d = .ok ⟨a.xy + rightward a b d, b.xy + rightward a b d⟩ := by
  unfold Segment.offset2D Vec.normalized2D
  have hm : (a - b).ortho2D.magnitude2D = dist2D a b := by
    unfold Vec.magnitude2D Vec.ortho2D dist2D distSq2D
    congr 1
    simp only [Vec.sub_x, Vec.sub_y]
    ring
  dsimp only
  rw [hm, if_neg hab.ne', value_bind]
  have : (⟨(a - b).ortho2D.x / dist2D a b, (a - b).ortho2D.y / dist2D a b, 0⟩ : Vec) * d = rightward a b d := by
    unfold rightward Vec.ortho2D
    ext
    · simp only [Vec.mul_x, Vec.sub_y]; ring
    · simp only [Vec.mul_y, Vec.sub_x]; ring
    · simp
  rw [this]
  rfl

theorem mapM_range {α β : Type} {l : List α} {g : α → Py β} {f : α → β} (h : ∀ x ∈ l, g x = .ok (f x)) : l.mapM g = .ok (l.map f) := by
  induction l with
  | nil => rfl
  | cons x l ih =>
    rw [List.mapM_cons, h x (by simp), value_bind, ih fun y hy => h y (by simp [hy]), value_bind]
    rfl

theorem cyc_period (l : List Vec) (i : ℕ) : cyc l (i + l.length) = cyc l i := by
  unfold cyc
  rw [Nat.add_mod_right]

theorem offsetSides_eq {e : List Vec} {d : ℝ} {closed : Bool} (h0 : 3 ≤ e.length) (hs : ∀ i, 0 < dist2D (cyc e i) (cyc e (i + 1))) :
    offsetSides e d closed = .ok ((List.range e.length).map fun j => ⟨movedStart e d closed j, movedEnd e d closed j⟩) := by
  have hseg : toSegments e true = (List.range e.length).map fun j => ⟨cyc e j, cyc e (j + 1)⟩ := by
    unfold toSegments
    rw [show e.length + true.toNat - 1 = e.length by simp]
    apply List.map_congr_left
    intro j hj
    unfold cyc
    rw [Nat.mod_eq_of_lt (List.mem_range.mp hj)]
  have hall : (toSegments e true).mapM (fun s => s.offset2D d) =
      .ok ((List.range e.length).map fun j => ⟨(cyc e j).xy + rightward (cyc e j) (cyc e (j + 1)) d, (cyc e (j + 1)).xy + rightward (cyc e j) (cyc e (j + 1)) d⟩) := by
    rw [hseg, List.mapM_map]
    exact mapM_range fun j _ => offset2D_eq (hs j)
  unfold offsetSides
  dsimp only
  rw [hall, value_bind]
  cases closed with
  | true =>
    refine congrArg Except.ok (List.map_congr_left ?_)
    intro j hj
    simp [movedStart, movedEnd, sideOffset]
  | false =>
    obtain ⟨n, hn⟩ : ∃ n, e.length = n + 1 := ⟨e.length - 1, by omega⟩
    have hl : pyIndex (toSegments e true) (-1) = .ok ⟨cyc e n, cyc e (n + 1)⟩ := by
      rw [pyIndex_last, hseg, hn, List.range_succ]
      simp
    dsimp only
    rw [hl, value_bind, offset2D_eq (hs n), value_bind]
    refine congrArg Except.ok ?_
    rw [hn, List.range_succ, List.map_append, List.map_append, List.map_singleton, List.map_singleton, List.dropLast_concat]
    congr 1
    · apply List.map_congr_left
      intro j hj
      have := List.mem_range.mp hj
      have h1 : sideOffset e d false j = d := by
        unfold sideOffset
        rw [if_neg]
        rw [hn, Nat.mod_eq_of_lt (by omega)]
        omega
      simp only [movedStart, movedEnd, h1]
    · have h1 : sideOffset e d false n = 0 := by
        unfold sideOffset
        rw [if_pos]
        rw [hn, Nat.mod_eq_of_lt (by omega)]
        exact ⟨rfl, rfl⟩
      simp only [movedStart, movedEnd, h1]

theorem cyc_mem {l : List Vec} (h : 0 < l.length) (i : ℕ) : cyc l i ∈ l := by
  unfold cyc
  have := Nat.mod_lt i h
  rw [List.getD_eq_getElem?_getD, List.getElem?_eq_getElem this]
  exact List.getElem_mem this

theorem movedStart_period (e : List Vec) (d : ℝ) (c : Bool) (i : ℕ) : movedStart e d c (i + e.length) = movedStart e d c i := by
  unfold movedStart sideOffset
  rw [show i + e.length + 1 = i + 1 + e.length by ring, cyc_period, cyc_period, Nat.add_mod_right]

theorem movedEnd_period (e : List Vec) (d : ℝ) (c : Bool) (i : ℕ) : movedEnd e d c (i + e.length) = movedEnd e d c i := by
  unfold movedEnd sideOffset
  rw [show i + e.length + 1 = i + 1 + e.length by ring, cyc_period, cyc_period, Nat.add_mod_right]

theorem intersect_none {s o : Segment} (h : ∀ t u, 0 ≤ t → t ≤ 1 → 0 ≤ u → u ≤ 1 → between2D s.a s.b t ≠ between2D o.a o.b u) : s.intersect2D o = .ok none := by
  cases hr : s.intersect2D o with
  | error e =>
    exfalso
    unfold Segment.intersect2D at hr
    dsimp only at hr
    split_ifs at hr <;> first | cases hr | skip
    rename_i h
    exact h (by norm_num)
  | ok r =>
    cases r with
    | none => rfl
    | some x =>
      exfalso
      obtain ⟨_, _, t, u, h1, h2, h3, h4⟩ := (C29_intersection s o 0 x).mp hr
      exact h t u (h3 (by simp)).1 (h3 (by simp)).2 (h4 rfl).1 (h4 rfl).2 (h1.symm.trans h2)

set_option maxHeartbeats 1000000 in
/-- C101: an offset outline without special cases is generated exactly: its corners are the corners of the moved sides, in the same order,
and it begins at the corner that is nearest to the beginning of the original outline. -/
theorem C101_offset {e q : List Vec} {d : ℝ} {closed : Bool} (h : CleanOffset e d closed q) (hd : 1 / 1000000 ≤ |d|) :
    ∃ r, naiveOffset2D e d closed = .ok r ∧ q.IsRotated r ∧ ∀ f ∈ r.head?, ∀ p ∈ q, distSq f (e.headD 0) ≤ distSq p (e.headD 0) := by
  have n3 := h.size
  have hsame := h.same
  have pq : ∀ i, cyc q (i + e.length) = cyc q i := fun i => by rw [← hsame, cyc_period]
  have hz : ∀ i, (cyc q i).z = 0 := fun i => h.ground _ (cyc_mem (by omega) i)
  unfold naiveOffset2D
  rw [if_neg (not_lt.mpr hd)]
  dsimp only
  have c1 := connect_clean (n := e.length) (by omega) pq (movedStart_period e d closed) (movedEnd_period e d closed) hz (by
    intro i a ha b hb
    have s0 := rightward_moved (d := sideOffset e d closed i) (h.sides i)
    have s1 := rightward_moved (d := sideOffset e d closed (i + 1)) (h.sides (i + 1))
    have o0 := h.on i
    have o1 := h.on (i + 1)
    refine ⟨?_, ?_, ?_⟩
    · simp only [List.mem_cons, List.not_mem_nil, or_false] at ha
      rcases ha with rfl | rfl
      · exact moved_collinear (h.sides i) o0.1 s0.2 o0.2
      · exact moved_collinear (h.sides i) s0.1 s0.2 o0.2
    · simp only [List.mem_cons, List.not_mem_nil, or_false] at hb
      rcases hb with rfl | rfl
      · exact moved_collinear (h.sides (i + 1)) s1.1 o1.2 o1.1
      · exact moved_collinear (h.sides (i + 1)) s1.1 s1.2 o1.1
    · exact (h.corner i).imp id fun c => c a ha b hb)
  rw [offsetSides_eq n3 h.sides, value_bind, c1, value_bind]
  obtain ⟨t, ht, htl⟩ : ∃ t, offsetStart (toSegments e true) ((List.range e.length).map fun j => (⟨cyc q j, cyc q (j + 1)⟩ : Segment)) d = t ∧ t ≤ e.length := by
    refine ⟨_, rfl, ?_⟩
    unfold offsetStart
    cases hf : ((List.range e.length).map fun j => (⟨cyc q j, cyc q (j + 1)⟩ : Segment)).findIdx? fun s => !isTooClose (toSegments e true) d s with
    | none => simp
    | some k =>
      have := (List.findIdx?_eq_some_iff_getElem.mp hf).1
      simp at this ⊢
      omega
  rw [ht, rotateAt_range (f := fun j => (⟨cyc q j, cyc q (j + 1)⟩ : Segment)) (fun i => by
    rw [pq, show i + e.length + 1 = i + 1 + e.length by ring, pq]) htl]
  rw [cutLoops_clean, value_bind]
  · rw [List.filter_eq_self.mpr]
    · have c2 := connect_clean (n := e.length) (by omega) (q := fun j => cyc q (j + t)) (s := fun j => cyc q (j + t)) (m := fun j => cyc q (j + t + 1))
        (fun i => by rw [show i + e.length + t = i + t + e.length by ring, pq]) (fun i => by rw [show i + e.length + t = i + t + e.length by ring, pq])
        (fun i => by rw [show i + e.length + t + 1 = i + t + 1 + e.length by ring, pq]) (fun i => hz _) (by
          intro i a _ b _
          have e1 : i + 1 + t = i + t + 1 := by ring
          simp only [e1]
          refine ⟨?_, ?_, Or.inl ⟨trivial, trivial⟩⟩
          · unfold left; ring
          · unfold left; ring)
      rw [c2, value_bind]
      unfold nearestIndex
      rw [List.map_map]
      obtain ⟨m, hm⟩ := pyMin_of (l := (List.range e.length).map ((fun s : Segment => (s.a - e.headD 0).magSquared) ∘ fun j => ⟨cyc q (j + t), cyc q (j + 1 + t)⟩)) (by
        intro hh; have := congrArg List.length hh; rw [List.length_map, List.length_range, List.length_nil] at this; omega)
      obtain ⟨hm1, hm2⟩ := pyMin_ok hm
      rw [hm, value_bind, pure_bind]
      have hu := List.idxOf_lt_length_iff.mpr hm1
      have hv := List.getElem_idxOf hu
      simp only [List.length_map, List.length_range] at hu
      refine ⟨_, rfl, ?_⟩
      simp only [List.getElem_map, List.getElem_range, Function.comp] at hv
      generalize List.idxOf m _ = u at *
      rw [rotateAt_range (f := fun j => (⟨cyc q (j + t), cyc q (j + 1 + t)⟩ : Segment)) (fun i => by
        rw [show i + e.length + t = i + t + e.length by ring, show i + e.length + 1 + t = i + 1 + t + e.length by ring, pq, pq]) hu.le, List.map_map]
      constructor
      · refine ⟨u + t, ?_⟩
        apply List.ext_getElem
        · simp [hsame]
        · intro j h1 h2
          rw [List.getElem_rotate]
          simp only [List.getElem_map, List.getElem_range, Function.comp]
          unfold cyc
          rw [List.getD_eq_getElem?_getD, List.getElem?_eq_getElem (Nat.mod_lt _ (by omega))]
          simp only [Option.getD_some]
          congr 1
          rw [← Nat.add_assoc]
      · intro f hf p hp
        have hf' : f = cyc q (u + t) := by
          rw [List.head?_map, List.head?_range, if_neg (by omega)] at hf
          simp only [Option.map_some, Option.mem_some_iff, Function.comp] at hf
          rw [← hf, Nat.zero_add]
        obtain ⟨i, hi, rfl⟩ := List.mem_iff_getElem.mp hp
        have hcy : q[i] = cyc q ((i + (e.length - t)) % e.length + t) := by
          unfold cyc
          rw [hsame, Nat.add_mod, Nat.mod_mod, ← Nat.add_mod, show i + (e.length - t) + t = i + e.length by omega, Nat.add_mod_right,
            Nat.mod_eq_of_lt (by omega), List.getD_eq_getElem?_getD, List.getElem?_eq_getElem hi]
          rfl
        have := hm2 ((cyc q ((i + (e.length - t)) % e.length + t) - e.headD 0).magSquared) (by
          rw [List.mem_map]
          exact ⟨(i + (e.length - t)) % e.length, List.mem_range.mpr (Nat.mod_lt _ (by omega)), rfl⟩)
        rw [hf', hcy]
        rw [← hv] at this
        unfold distSq
        simpa [Vec.magSquared, pow_two] using this
    · intro s hs
      obtain ⟨j, hj, rfl⟩ := List.mem_map.mp hs
      have := h.long (j + t)
      have e1 : j + 1 + t = j + t + 1 := by ring
      simp only [ge_iff_le, decide_eq_true_eq]
      refine this.trans_eq ?_
      unfold segMagnitude2D Vec.magnitude2D dist2D distSq2D
      simp only [Vec.sub_x, Vec.sub_y, e1, pow_two]
  · intro i j hi hj hij hf
    simp only [List.length_map, List.length_range] at hi hj hf
    simp only [List.getElem_map, List.getElem_range]
    refine intersect_none fun a b a0 a1 b0 b1 => ?_
    have e1 : i + 1 + t = i + t + 1 := by ring
    have e2 : j + 1 + t = j + t + 1 := by ring
    simp only [e1, e2]
    have hm : ∀ x y, x < e.length → y < e.length → (x + t) % e.length = (y + t) % e.length → x = y := by
      intro x y hx hy hxy
      have : x % e.length = y % e.length := Nat.ModEq.add_right_cancel' t hxy
      rwa [Nat.mod_eq_of_lt hx, Nat.mod_eq_of_lt hy] at this
    refine h.apart _ _ _ _ ?_ ?_ ?_ a0 a1 b0 b1
    · intro hh
      have := hm i j hi hj hh
      omega
    · intro hh
      rw [← e1] at hh
      have := hm (i + 1) j (by omega) hj hh
      omega
    · intro hh
      by_cases hl : j + 1 < e.length
      · rw [← e2] at hh
        have := hm i (j + 1) hi hl hh
        omega
      · have hj1 : j + 1 = e.length := by omega
        rw [← e2, hj1, Nat.add_comm e.length t, Nat.add_mod_right] at hh
        have := hm i 0 hi (by omega) (by rw [Nat.zero_add]; exact hh)
        exact hf trivial ⟨this, by omega⟩

theorem setEnds_middle {l r : List Vec} {a b : Vec} (h : setEnds l a b = .ok r) : r.tail.dropLast = l.tail.dropLast ∧ r.length = l.length := by
  unfold setEnds at h
  split_ifs at h with he
  obtain rfl := Except.ok.inj h
  refine ⟨?_, by simp⟩
  apply List.ext_getElem
  · simp
  · intro i h1 h2
    simp only [List.length_dropLast, List.length_tail] at h2
    simp only [List.getElem_dropLast, List.getElem_tail]
    rw [List.getElem_set_ne (by omega), List.getElem_set_ne (by omega)]

theorem joint_middle {cfg : KeyboardCfg} {side : Side} {body : Body} {p : Profile} {ob : Option BracketCfg} {j : FloorJoint}
    (h : floorJoint cfg side body p ob = .ok j) :
    j.profile.p0 = p.p0 ∧ j.profile.p1 = p.p1 ∧ j.profile.p2 = p.p2 ∧
      (j.profile.p3.tail.dropLast = p.p3.tail.dropLast ∧ j.profile.p3.length = p.p3.length) ∧ 
      (j.profile.p4.tail.dropLast = p.p4.tail.dropLast ∧ j.profile.p4.length = p.p4.length) ∧ 
      (j.profile.p5.tail.dropLast = p.p5.tail.dropLast ∧ j.profile.p5.length = p.p5.length) ∧ 
      (j.profile.p6.tail.dropLast = p.p6.tail.dropLast ∧ j.profile.p6.length = p.p6.length) ∧
      (ob = none → j.profile = p ∧ j.innerEdge = []) := by
  cases ob with
  | none =>
    unfold floorJoint at h
    obtain ⟨⟨_, _⟩, -, h⟩ := bind_ok h
    obtain rfl := Except.ok.inj h
    exact ⟨rfl, rfl, rfl, ⟨rfl, rfl⟩, ⟨rfl, rfl⟩, ⟨rfl, rfl⟩, ⟨rfl, rfl⟩, fun _ => ⟨rfl, rfl⟩⟩
  | some bc =>
    unfold floorJoint at h
    dsimp only at h
    obtain ⟨a0, i1, h⟩ := bind_ok h
    obtain ⟨a1, i2, h⟩ := bind_ok h
    obtain ⟨c0, i3, h⟩ := bind_ok h
    obtain ⟨d0, i4, h⟩ := bind_ok h
    obtain ⟨e0, i5, h⟩ := bind_ok h
    obtain ⟨f, hf, h⟩ := bind_ok h
    obtain ⟨c1, i6, h⟩ := bind_ok h
    obtain ⟨d1, i7, h⟩ := bind_ok h
    obtain ⟨e1, i8, h⟩ := bind_ok h
    obtain ⟨b, hb, h⟩ := bind_ok h
    obtain ⟨_, -, h⟩ := bind_ok h
    obtain ⟨f1, j1, h⟩ := bind_ok h
    obtain ⟨b1, l1, h⟩ := bind_ok h
    obtain ⟨p6, m1, h⟩ := bind_ok h
    obtain ⟨f2, j2, h⟩ := bind_ok h
    obtain ⟨b2, l2, h⟩ := bind_ok h
    obtain ⟨p5, m2, h⟩ := bind_ok h
    obtain ⟨f3, j3, h⟩ := bind_ok h
    obtain ⟨b3, l3, h⟩ := bind_ok h
    obtain ⟨p4, m3, h⟩ := bind_ok h
    obtain ⟨f4, j4, h⟩ := bind_ok h
    obtain ⟨b4, l4, h⟩ := bind_ok h
    obtain ⟨p3, m4, h⟩ := bind_ok h
    obtain ⟨_, -, h⟩ := bind_ok h
    obtain ⟨_, -, h⟩ := bind_ok h
    obtain rfl := Except.ok.inj h
    exact ⟨rfl, rfl, rfl, setEnds_middle m4, setEnds_middle m3, setEnds_middle m2, setEnds_middle m1, fun hh => by cases hh⟩

theorem offset_unique {e q r : List Vec} {d : ℝ} (h : CleanOffset e d false q) (hd : 1 / 1000000 ≤ |d|) (hr : naiveOffset2D e d = .ok r) : q.IsRotated r := by
  obtain ⟨r', h1, h2, _⟩ := C101_offset h hd
  rw [hr] at h1
  exact Except.ok.inj h1 ▸ h2

set_option maxHeartbeats 1000000 in
/-- C101: the floor has the outline of the body, and a lip whose outer side follows the inside of the wall at the distance of the margin, whose inner
side is thinner by its thickness, and ends in a chamfer; the ends of the lip may be moved to make place for the brackets. -/
theorem C101_lip {cfg : KeyboardCfg} {fp : FullPlan} {body : Body} {floor : Floor} (hf : Floor.make cfg fp body = .ok floor) {qo qi qc : List Vec}
    (ho : CleanOffset body.outlineI (-cfg.floor.lipMargin) false qo) (hi : CleanOffset body.outlineI (-(cfg.floor.lipMargin + cfg.floor.lipThickness)) false qi)
    (hc : CleanOffset body.outlineI (-(cfg.floor.lipMargin + cfg.floor.lipThickness + cfg.floor.innerChamfer)) false qc)
    (m0 : 1 / 1000000 ≤ cfg.floor.lipMargin) (t0 : 0 ≤ cfg.floor.lipThickness) (c0 : 0 ≤ cfg.floor.innerChamfer) :
    let ground := -cfg.floor.outerHeight + cfg.floor.innerHeight
    ∃ o i c, qo.IsRotated o ∧ qi.IsRotated i ∧ qc.IsRotated c ∧
      strip (body.outlineO.map (· - ⟨0, 0, cfg.floor.outerHeight⟩)) body.outlineO ∈ floor.pieces ∧
      (∃ holes, floor.faces[2]? = some (face (body.outlineO ++ o.reverse) holes)) ∧
      ∃ top inner low bottom taper holes, SameMiddle top (o.map (· + ⟨0, 0, cfg.floor.lipHeight⟩)) ∧ SameMiddle inner (i.map (· + ⟨0, 0, cfg.floor.lipHeight⟩)) ∧
        SameMiddle low (i.map (· + ⟨0, 0, ground + cfg.floor.innerChamfer⟩)) ∧ SameMiddle bottom (c.map (· + ⟨0, 0, ground⟩)) ∧
        (cfg.bracket = none → top = o.map (· + ⟨0, 0, cfg.floor.lipHeight⟩) ∧ inner = i.map (· + ⟨0, 0, cfg.floor.lipHeight⟩) ∧
          low = i.map (· + ⟨0, 0, ground + cfg.floor.innerChamfer⟩) ∧ bottom = c.map (· + ⟨0, 0, ground⟩) ∧ taper = []) ∧
        floor.faces[3]? = some (neat (top ++ inner.reverse)) ∧ strip inner low ∈ floor.pieces ∧ strip low bottom ∈ floor.pieces ∧
        floor.faces[4]? = some (face (taper ++ bottom) holes) := by
  unfold Floor.make at hf
  dsimp only at hf
  obtain ⟨sk, s1, hf⟩ := bind_ok hf
  obtain ⟨j, s2, hf⟩ := bind_ok hf
  obtain ⟨⟨hexI, hexO⟩, -, hf⟩ := bind_ok hf
  obtain ⟨bu, -, hf⟩ := bind_ok hf
  obtain ⟨bos, -, hf⟩ := bind_ok hf
  obtain ⟨q2, -, hf⟩ := bind_ok hf
  obtain ⟨q3, -, hf⟩ := bind_ok hf
  obtain rfl := Except.ok.inj hf
  unfold floorProfile at s1
  dsimp only at s1
  obtain ⟨li, k1, s1⟩ := bind_ok s1
  obtain ⟨lo, k2, s1⟩ := bind_ok s1
  obtain ⟨ch, k3, s1⟩ := bind_ok s1
  obtain rfl := Except.ok.inj s1
  obtain ⟨e0, e1, e2, e3, e4, e5, e6, e7⟩ := joint_middle s2
  dsimp only at e0 e1 e2 e3 e4 e5 e6 e7 ⊢
  rw [show -cfg.floor.lipMargin - cfg.floor.lipThickness = -(cfg.floor.lipMargin + cfg.floor.lipThickness) by ring] at k1
  rw [show -cfg.floor.lipMargin - cfg.floor.lipThickness - cfg.floor.innerChamfer = -(cfg.floor.lipMargin + cfg.floor.lipThickness + cfg.floor.innerChamfer) by ring] at k3
  refine ⟨lo, li, ch, offset_unique ho ?_ k2, offset_unique hi ?_ k1, offset_unique hc ?_ k3, ?_, ⟨bos.map Boss.clearanceHole, ?_⟩,
    j.profile.p3, j.profile.p4, j.profile.p5, j.profile.p6, j.innerEdge, hexI.map List.reverse, e3, e4, e5, e6, ?_, rfl, by simp, by simp, rfl⟩
  · rw [abs_neg]
    exact m0.trans (le_abs_self _)
  · rw [abs_neg]
    exact le_trans (by linarith) (le_abs_self _)
  · rw [abs_neg]
    exact le_trans (by linarith) (le_abs_self _)
  · rw [e0, e1]
    have : edgeTranslated body.outlineO ⟨0, 0, -cfg.floor.outerHeight⟩ = body.outlineO.map (· - ⟨0, 0, cfg.floor.outerHeight⟩) := by
      unfold edgeTranslated
      apply List.map_congr_left
      intro v _
      ext <;> simp <;> ring
    rw [this]
    simp
  · unfold floorFaceList
    dsimp only
    rw [e1, e2]
    rfl
  · intro hn
    obtain ⟨g1, g2⟩ := e7 hn
    rw [g1]
    exact ⟨rfl, rfl, rfl, rfl, g2⟩

/-- A square, and the result of moving three of its sides inwards. -/
noncomputable def exSquare : List Vec := [⟨0, 0, 0⟩, ⟨10, 0, 0⟩, ⟨10, 10, 0⟩, ⟨0, 10, 0⟩]
noncomputable def exMoved : List Vec := [⟨0, 1, 0⟩, ⟨9, 1, 0⟩, ⟨9, 9, 0⟩, ⟨0, 9, 0⟩]

theorem exSquare_clean : CleanOffset exSquare (-1) false exMoved := by
  have r : ∀ i : ℕ, (i % 4 = 0 ∧ (i + 1) % 4 = 1 ∧ (i + 1 + 1) % 4 = 2) ∨ (i % 4 = 1 ∧ (i + 1) % 4 = 2 ∧ (i + 1 + 1) % 4 = 3) ∨
      (i % 4 = 2 ∧ (i + 1) % 4 = 3 ∧ (i + 1 + 1) % 4 = 0) ∨ (i % 4 = 3 ∧ (i + 1) % 4 = 0 ∧ (i + 1 + 1) % 4 = 1) := fun i => by omega
  have s100 : Real.sqrt 100 = 10 := by rw [show (100 : ℝ) = 10 ^ 2 by norm_num]; exact Real.sqrt_sq (by norm_num)
  have l1 : exSquare.length = 4 := rfl
  have l2 : exMoved.length = 4 := rfl
  have d : ∀ i, dist2D (cyc exSquare i) (cyc exSquare (i + 1)) = 10 := by
    intro i
    unfold dist2D distSq2D cyc
    rw [l1]
    rcases r i with ⟨h1, h2, -⟩ | ⟨h1, h2, -⟩ | ⟨h1, h2, -⟩ | ⟨h1, h2, -⟩ <;> rw [h1, h2] <;> norm_num [exSquare, s100]
  refine ⟨by decide, rfl, by simp [exMoved], fun i => by rw [d]; norm_num, ?_, ?_, ?_, ?_⟩
  · intro i
    unfold OnMoved
    rw [d]
    unfold left sideOffset cyc
    rw [l1, l2]
    rcases r i with ⟨h1, h2, -⟩ | ⟨h1, h2, -⟩ | ⟨h1, h2, -⟩ | ⟨h1, h2, -⟩ <;> rw [h1, h2] <;> norm_num [exSquare, exMoved]
  · intro i
    unfold dist2D
    apply Real.le_sqrt_of_sq_le
    unfold distSq2D cyc
    rw [l2]
    rcases r i with ⟨h1, h2, -⟩ | ⟨h1, h2, -⟩ | ⟨h1, h2, -⟩ | ⟨h1, h2, -⟩ <;> rw [h1, h2] <;> norm_num [exMoved]
  · intro i j t u n1 n2 n3 t0 t1 u0 u1
    rw [l1] at n1 n2 n3
    unfold between2D cyc
    rw [l2]
    rcases r i with ⟨h1, h2, -⟩ | ⟨h1, h2, -⟩ | ⟨h1, h2, -⟩ | ⟨h1, h2, -⟩ <;>
    rcases r j with ⟨k1, k2, -⟩ | ⟨k1, k2, -⟩ | ⟨k1, k2, -⟩ | ⟨k1, k2, -⟩ <;>
    first
    | (exfalso; omega)
    | (rw [h1, h2, k1, k2]; norm_num [exMoved])
  · intro i
    right
    simp only [movedStart, movedEnd, rightward, d]
    unfold sideOffset cyc
    rw [l1, l2]
    rcases r i with ⟨h1, h2, h3⟩ | ⟨h1, h2, h3⟩ | ⟨h1, h2, h3⟩ | ⟨h1, h2, h3⟩ <;> simp only [h1, h2, h3, show i + 2 = i + 1 + 1 from rfl] <;>
      norm_num [exSquare, exMoved, Vec.xy, abs_of_pos]

/-- Three sides of a square are moved inwards. -/
example : ∃ r, naiveOffset2D exSquare (-1) = .ok r ∧ exMoved.IsRotated r := by
  obtain ⟨r, h1, h2, -⟩ := C101_offset exSquare_clean (by norm_num)
  exact ⟨r, h1, h2⟩

end Chrumm.Part
