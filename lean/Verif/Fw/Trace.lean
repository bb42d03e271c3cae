import Verif.Fw.Acts

/-! Invariants that relate the state to the actions performed so far. -/

namespace Chrumm.Fw
open Spec

theorem snoc_ind {α : Type} {P : List α → Prop} (h0 : P []) (h1 : ∀ l a, P l → P (l ++ [a])) :
    ∀ l, P l := by
  have : ∀ n (l : List α), l.length = n → P l := by
    intro n
    induction n with
    | zero => intro l hl; rw [List.length_eq_zero_iff.mp hl]; exact h0
    | succ n ih =>
      intro l hl
      have hne : l ≠ [] := by rintro rfl; simp at hl
      rw [← List.dropLast_concat_getLast hne]
      exact h1 _ _ (ih _ (by simp [hl]))
  exact fun l => this _ l rfl

/-- Lift a property of a state and the actions so far from micro steps to sequences of them. -/
theorem micros_inv2 {c : Cfg} {P : State → List Act → Prop}
    (h : ∀ i s m tr, Valid c m → P s tr → P (micro c i s m).1 (tr ++ (micro c i s m).2))
    {i s tr ms} (hv : ∀ m ∈ ms, Valid c m) (hs : P s tr) :
    P (micros c i s ms).1 (tr ++ (micros c i s ms).2) := by
  induction ms generalizing s tr with
  | nil => simpa [micros] using hs
  | cons m ms ih =>
    simp only [List.mem_cons, forall_eq_or_imp] at hv
    have := ih hv.2 (h i s m tr hv.1 hs)
    simp only [micros]
    rwa [List.append_assoc] at this

theorem run_inv2 {c : Cfg} {P : State → List Act → Prop}
    (h : ∀ i s m tr, Valid c m → P s tr → P (micro c i s m).1 (tr ++ (micro c i s m).2))
    {s tr} (hs : P s tr) (ins) : P (run c s ins).1 (tr ++ (run c s ins).2.flatten) := by
  induction ins generalizing s tr with
  | nil => simpa [run] using hs
  | cons i is ih =>
    have := ih (micros_inv2 h (i := i) (program_valid c i) hs)
    simp only [run, List.flatten_cons]
    rwa [List.append_assoc] at this

theorem run_live_append {c : Cfg} {s : State} {a b} (h : (run c s (a ++ b)).1.live) :
    (run c s a).1.live ∧ (run c (run c s a).1 b).1.live := by
  rw [run_append] at h
  refine ⟨?_, h⟩
  by_cases h' : (run c s a).1.live
  · exact h'
  · dsimp only at h; rw [(run_dead h' _).1] at h; exact h

/-! ### Events and debounced levels -/

theorem reach_down {c : Cfg} (wf : c.WF) (ins : List In) {r k} (hr : r < c.rows) (hk : k < c.cols)
    (hl : (run c (State.init c) ins).1.live) :
    Down (run c (State.init c) ins).1 (r * c.cols + k) ↔
      lastLevel ((run c (State.init c) ins).2.flatMap (keyEvents (r * c.cols + k))) = false := by
  obtain ⟨h1, h2⟩ := run_key_live wf (init_ok wf) hr hk (init_deb hr hk) ins hl
  obtain ⟨n, hn, hlev⟩ := debRun_level wf.deb_le (lev := true) (n := 0) wf.deb_pos (samples r k ins)
  unfold lastLevel
  rw [List.flatMap_def, h2]
  unfold Down
  rw [h1, hlev]
  constructor
  · rintro ⟨st, e, ho⟩
    cases hb : ((debRun c.debounceTicks (enc true 0) (samples r k ins)).2.flatten.getLast?).getD true
    · rfl
    · rw [hb] at e
      simp [enc] at e
      omega
  · intro hb
    refine ⟨_, rfl, ?_⟩
    rw [hb]
    simp [enc]

/-! ### The encoder's virtual key -/

/-- Where the current virtual key comes from: a rotation `keypressTicks - timeout` iterations ago. -/
def EncRecent (c : Cfg) (e : Enc) (traces : List (List Act)) : Prop :=
  e.current ≠ kNONE → ∃ a t b, traces = a ++ t :: b ∧ b.length + e.timeout = c.keypressTicks ∧
    ∃ d ∈ rotations t, e.current = if d then c.cw else c.ccw

theorem reach_encRecent {c : Cfg} (wf : c.WF) (ins : List In)
    (hl : (run c (State.init c) ins).1.live) :
    EncRecent c (run c (State.init c) ins).1.enc (run c (State.init c) ins).2 ∧
    ((run c (State.init c) ins).1.enc.current = kNONE → (run c (State.init c) ins).1.enc.timeout = 0) := by
  revert hl
  refine snoc_ind (P := fun ins => (run c (State.init c) ins).1.live →
    EncRecent c (run c (State.init c) ins).1.enc (run c (State.init c) ins).2 ∧
    ((run c (State.init c) ins).1.enc.current = kNONE →
      (run c (State.init c) ins).1.enc.timeout = 0)) ?_ ?_ ins
  · intro _; exact ⟨fun h => absurd rfl h, fun _ => rfl⟩
  · intro l i ih hl
    obtain ⟨hl1, hl2⟩ := run_live_append hl
    obtain ⟨ih1, ih2⟩ := ih hl1
    have hl3 : (tick c (run c (State.init c) l).1 i).1.live := by
      rw [run_snoc] at hl; exact hl
    have ok := reach_ok wf l
    rw [run_snoc]
    dsimp only
    have hr := tick_rot wf ok i hl3
    rw [tick_enc wf ok i hl3]
    generalize (run c (State.init c) l).1 = s at *
    generalize (run c (State.init c) l).2 = tr at *
    generalize tick c s i = ti at *
    unfold encStep encTimer EncRecent
    by_cases ht : s.enc.timeout = 0
    · rw [if_neg (by simpa using ht)]
      by_cases hu : encUsage c s.enc i = kNONE
      · rw [if_neg (by simpa using hu)]
        exact ⟨fun h => absurd rfl h, fun _ => ht⟩
      · rw [if_pos hu]
        refine ⟨fun _ => ⟨tr, ti.2, [], rfl, by simp, ?_⟩, fun h => absurd h hu⟩
        rw [hr]
        unfold encUsage at hu ⊢
        unfold rotOf
        split
        · exact ⟨false, by simp, rfl⟩
        · rename_i h1
          rw [if_neg h1] at hu
          split
          · exact ⟨true, by simp, rfl⟩
          · rename_i h2; rw [if_neg h2] at hu; exact absurd rfl hu
    · rw [if_pos ht]
      refine ⟨fun h => ?_, fun h => absurd (ih2 h) ht⟩
      obtain ⟨a, t, b, e1, e2, e3⟩ := ih1 h
      refine ⟨a, t, b ++ [ti.2], by simp [e1], ?_, e3⟩
      simp
      omega

end Chrumm.Fw
