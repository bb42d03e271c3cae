import Verif.Props.OffsetClean

/-! C101: where an offset outline begins, for every outline. -/

namespace Chrumm.Part
open Geo Geo.Spec Part.Spec

theorem connectStep_length {ss r : List Segment} {i : ℕ} (h : connectStep ss i = .ok r) : r.length = ss.length := by
  unfold connectStep at h
  obtain ⟨_, -, h⟩ := bind_ok h
  obtain ⟨_, -, h⟩ := bind_ok h
  obtain rfl := Except.ok.inj h
  simp

theorem connect_length {ss r : List Segment} (h : connect ss = .ok r) : r.length = ss.length := by
  unfold connect at h
  generalize List.range ss.length = l at h
  induction l generalizing ss with
  | nil => rw [List.foldlM_nil] at h; cases h; rfl
  | cons a l ih =>
    rw [List.foldlM_cons] at h
    obtain ⟨s, h1, h2⟩ := bind_ok h
    rw [ih h2, connectStep_length h1]

theorem cutLoops_length : ∀ (n : ℕ) (f : Bool) (ss r : List Segment), ss.length ≤ n → cutLoops f ss = .ok r → r.length ≤ ss.length := by
  intro n
  induction n with
  | zero =>
    intro f ss r hn h
    obtain rfl : ss = [] := List.length_eq_zero_iff.mp (by omega)
    rw [cutLoops] at h
    cases h
    simp
  | succ n ih =>
    intro f ss r hn h
    cases ss with
    | nil => rw [cutLoops] at h; cases h; simp
    | cons s tail =>
      rw [cutLoops] at h
      obtain ⟨cut, -, h⟩ := bind_ok h
      simp only [List.length_cons] at hn ⊢
      cases cut with
      | none =>
        obtain ⟨rest, h1, h⟩ := bind_ok h
        obtain rfl := Except.ok.inj h
        have := ih _ _ _ (by omega) h1
        simp only [List.length_cons]
        omega
      | some c =>
        obtain ⟨_, k, pos⟩ := c
        obtain ⟨rest, h1, h⟩ := bind_ok h
        obtain rfl := Except.ok.inj h
        have e : (setStart pos (tail.drop k)).length = tail.length - k := by rw [setStart_length, List.length_drop]
        have := ih _ _ _ (by omega) h1
        simp only [List.length_cons]
        omega

theorem rotateAt_length {α : Type} (l : List α) (i : ℕ) : (rotateAt l i).length = l.length := by
  unfold rotateAt
  simp only [List.length_append, List.length_drop, List.length_take]
  omega

/-- C101: an offset outline has at most as many corners as the original outline, and begins at its corner that is nearest to the beginning of the
original outline; it is the original outline if the distance is zero. -/
theorem C101_start {e r : List Vec} {d : ℝ} {closed : Bool} (h : naiveOffset2D e d closed = .ok r) :
    (|d| < 1 / 1000000 ∧ r = e) ∨
      1 / 1000000 ≤ |d| ∧ r.length ≤ e.length ∧ ∃ f, r.head? = some f ∧ ∀ p ∈ r, distSq f (e.headD 0) ≤ distSq p (e.headD 0) := by
  unfold naiveOffset2D at h
  by_cases hd : |d| < 1 / 1000000
  · rw [if_pos hd] at h
    exact Or.inl ⟨hd, (Except.ok.inj h).symm⟩
  · rw [if_neg hd] at h
    dsimp only at h
    refine Or.inr ⟨not_lt.mp hd, ?_⟩
    obtain ⟨o0, h0, h⟩ := bind_ok h
    obtain ⟨o1, h1, h⟩ := bind_ok h
    obtain ⟨o2, h2, h⟩ := bind_ok h
    obtain ⟨o3, h3, h⟩ := bind_ok h
    obtain ⟨k, h4, h⟩ := bind_ok h
    obtain rfl := Except.ok.inj h
    have l0 : o0.length ≤ e.length := by
      unfold offsetSides at h0
      obtain ⟨os, m, h0⟩ := bind_ok h0
      have e1 : os.length = (toSegments e true).length := (mapM_ok m).length_eq.symm
      have e2 : (toSegments e true).length ≤ e.length := by
        simp [toSegments]
      cases closed with
      | true => obtain rfl := Except.ok.inj h0; omega
      | false =>
        obtain ⟨last, i1, h0⟩ := bind_ok h0
        obtain ⟨stay, -, h0⟩ := bind_ok h0
        obtain rfl := Except.ok.inj h0
        have : (toSegments e true).length ≠ 0 := by
          intro hh
          rw [List.length_eq_zero_iff.mp hh] at i1
          simp [pyIndex] at i1
        simp only [List.length_append, List.length_dropLast, List.length_cons, List.length_nil]
        omega
    have l1 := connect_length h1
    have l2 := cutLoops_length _ _ _ _ le_rfl h2
    rw [rotateAt_length] at l2
    have l3 := connect_length h3
    have l4 := List.length_filter_le (fun s => decide (segMagnitude2D s ≥ 1 / 1000)) o2
    refine ⟨by rw [List.length_map, rotateAt_length]; omega, ?_⟩
    unfold nearestIndex at h4
    obtain ⟨m, hm, h4⟩ := bind_ok h4
    obtain rfl := Except.ok.inj h4
    obtain ⟨mem, least⟩ := pyMin_ok hm
    have hi := List.idxOf_lt_length_iff.mpr mem
    have hg := List.getElem_idxOf hi
    rw [List.getElem_map] at hg
    rw [List.length_map] at hi
    have hig : ∃ hi : List.idxOf m (o3.map fun s => (s.a - e.headD 0).magSquared) < o3.length, 
        ((o3[List.idxOf m (o3.map fun s => (s.a - e.headD 0).magSquared)]'hi).a - e.headD 0).magSquared = m :=
      ⟨hi, hg⟩
    clear hi hg
    generalize List.idxOf m (o3.map fun s => (s.a - e.headD 0).magSquared) = k at hig ⊢
    obtain ⟨hi, hg⟩ := hig
    refine ⟨(o3[k]'hi).a, ?_, ?_⟩
    · unfold rotateAt
      rw [List.drop_eq_getElem_cons hi]
      rfl
    · intro p hp
      obtain ⟨s, hs, rfl⟩ := List.mem_map.mp hp
      have hs' : s ∈ o3 := by
        unfold rotateAt at hs
        rcases List.mem_append.mp hs with hs | hs
        · exact List.mem_of_mem_drop hs
        · exact List.mem_of_mem_take hs
      have := least _ (List.mem_map.mpr ⟨s, hs', rfl⟩)
      have q : ∀ a b : Vec, (a - b).magSquared = distSq a b := by
        intro a b
        simp [Vec.magSquared, Vec.dot, distSq]
        try ring
      rw [← q, ← q, hg]
      exact this

end Chrumm.Part
