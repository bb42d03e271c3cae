import Verif.Fw.Trace

/-! The layer and tap state machine of matrix.c:110-148, driven by the key events. -/

namespace Chrumm.Fw
open Spec

/-- The effect of one key event on the static variables of `report`. -/
def tapStep (c : Cfg) (k : Keys) : KEv → Keys
  | .fn false => { k with fnTaps := k.fnTaps + 1, layer := true }
  | .fn true =>
    { k with layer := if k.fnTaps ≠ c.fnKeyTaps then false else k.layer,
             fnTaps := if k.fnTaps > c.fnKeyTaps then 0 else k.fnTaps }
  | .release => k
  | .ordinary => { k with fnTaps := 0, bootTaps := 0 }
  | .boot => { k with bootTaps := k.bootTaps + 1 }

theorem kinds_append (c : Cfg) (a b : List Act) (hb : ∀ u t, b ≠ .add u :: t) :
    kinds c (a ++ b) = kinds c a ++ kinds c b := by
  induction a with
  | nil => rfl
  | cons x xs ih =>
    cases x with
    | event key signal =>
      simp only [List.cons_append, kinds, ih]
      congr 1
      split
      · rfl
      · split
        · rfl
        · cases xs with
          | nil =>
            rw [List.nil_append]
            split
            · exact absurd rfl (hb _ _)
            · rfl
          | cons y ys => cases y <;> rfl
    | _ => simp only [List.cons_append, kinds, ih]

theorem kinds_noEvent {c : Cfg} {a : List Act} (h : NoEvent a) : kinds c a = [] := by
  induction a with
  | nil => rfl
  | cons x xs ih =>
    have hx := h x (by simp)
    have := ih fun y hy => h y (by simp [hy])
    cases x with
    | event k b => exact absurd rfl (hx k b)
    | _ => simpa [kinds] using this

theorem isFn_iff {c : Cfg} {s : State} {key : Nat} {a b : Nat}
    (ha : (c.layers s.keys.layer)[key]? = some a) (hb : (c.layers (!s.keys.layer))[key]? = some b) :
    (a = cFN ∨ b = cFN) ↔ isFn c key := by
  unfold isFn
  cases hl : s.keys.layer <;> rw [hl] at ha hb <;> simp only [Bool.not_false, Bool.not_true] at hb <;>
    rw [ha, hb] <;> simp [or_comm]

/-- What one key event does. -/
theorem report_kind {c : Cfg} {s : State} {key : Nat} {b susp : Bool} (hlive : s.live)
    (hk : ∀ l, ∃ u, (c.layers l)[key]? = some u) :
    ∃ e, kinds c (.event key b :: (report c s key b susp).2) = [e] ∧
      (report c s key b susp).1.keys = tapStep c s.keys e ∧
      ((report c s key b susp).1.halted = true ↔ e = .boot ∧ c.bootKeyTaps ≤ s.keys.bootTaps + 1) ∧
      (Act.boot ∈ (report c s key b susp).2 ↔ (report c s key b susp).1.halted = true) ∧
      ((report c s key b susp).1.halted = true → (report c s key b susp).2 = [.boot]) ∧
      (e = .boot → (c.layers s.keys.layer)[key]? = some kBOOT) ∧
      (e = .ordinary → ∃ u, (c.layers s.keys.layer)[key]? = some u ∧
        (report c s key b susp).2.head? = some (.add u)) := by
  obtain ⟨act, ha⟩ := hk s.keys.layer
  obtain ⟨ina, hi⟩ := hk (!s.keys.layer)
  have hfn := isFn_iff ha hi
  have hh : s.halted = false := by
    cases h : s.halted
    · rfl
    · exact absurd (Or.inl h) hlive
  have hn := report_noEvent c s key b susp
  have hadd : ∀ u, (hidAdd s.hid u susp).2 = [.add u] ∨ (hidAdd s.hid u susp).2 = [.add u, .wakeup] := by
    intro u; unfold hidAdd; split <;> (try split) <;> (try split) <;> simp
  have hrem : ∀ h u, (hidRemove h u).2 = [.remove u] := by
    intro h u; unfold hidRemove; split <;> (try split) <;> rfl
  unfold report at hn ⊢
  rw [ha, hi] at hn ⊢
  dsimp only at hn ⊢
  by_cases hF : isFn c key
  · rw [if_pos (hfn.mpr hF)] at hn ⊢
    cases b
    · refine ⟨.fn false, ?_, rfl, ?_, ?_, ?_, ?_, ?_⟩ <;> simp [kinds, hF, hh]
    · refine ⟨.fn true, ?_, ?_, ?_, ?_, ?_, ?_, ?_⟩
      · simp [kinds, hF]
      · rcases hkk : s.keys with ⟨la, ft, bt⟩
        dsimp only [tapStep]
        by_cases h1 : ft = c.fnKeyTaps
        · simp [h1]
        · by_cases h2 : ft > c.fnKeyTaps <;> simp [h1, h2]
      all_goals simp [hh]
  · rw [if_neg (fun h => hF (hfn.mp h))] at hn ⊢
    cases b
    · rw [if_neg (by decide)] at hn ⊢
      by_cases hB : act = kBOOT
      · rw [if_pos hB] at hn ⊢
        by_cases ht : s.keys.bootTaps + 1 ≥ c.bootKeyTaps
        · rw [if_pos ht] at hn ⊢
          refine ⟨.boot, ?_, rfl, ?_, ?_, ?_, ?_, ?_⟩ <;> simp [kinds, hF, ht, hB]
        · rw [if_neg ht] at hn ⊢
          refine ⟨.boot, ?_, rfl, ?_, ?_, ?_, ?_, ?_⟩ <;> simp [kinds, hF, hh, hB]
          omega
      · rw [if_neg hB] at hn ⊢
        refine ⟨.ordinary, ?_, rfl, ?_, ?_, ?_, ?_, ?_⟩
        · rcases hadd act with e | e <;> dsimp only <;> rw [e] <;> simp [kinds, hF]
        · simp [hh]
        · rcases hadd act with e | e <;> dsimp only <;> rw [e] <;> simp [hh]
        · simp [hh]
        · simp
        · intro _
          refine ⟨act, rfl, ?_⟩
          rcases hadd act with e | e <;> dsimp only <;> rw [e] <;> rfl
    · rw [if_pos rfl] at hn ⊢
      refine ⟨.release, ?_, rfl, ?_, ?_, ?_, ?_, ?_⟩
      · dsimp only
        rw [hrem, hrem]
        simp [kinds, hF]
      · simp [hh]
      · simp [hrem, hh]
      · simp [hh]
      · simp
      · simp

/-- The actions of a step do not begin with a HID call that belongs to the step before. -/
theorem micro_head (c i s m) : ∀ u t, (micro c i s m).2 ≠ .add u :: t := by
  intro u t h
  unfold micro at h
  split at h
  · simp at h
  · cases m with
    | rowPut r v => dsimp only at h; split at h <;> simp at h
    | sample r k => simp at h
    | hid =>
      dsimp only at h; unfold hidTick at h; dsimp only at h
      split at h <;> split at h <;> simp at h
    | led =>
      dsimp only at h; unfold ledTick at h; dsimp only at h
      split at h
      · simp at h
      · split at h <;> simp at h
    | host x => simp at h
    | encoder =>
      dsimp only at h; unfold encoderTick at h; dsimp only at h
      generalize hst : ((s.enc.dec * 2 % 256 ||| i.encA.toNat) * 2 % 256 ||| i.encB.toNat) = st at h
      have hrem : ∀ h u, (hidRemove h u).2 = [.remove u] := by
        intro h u; unfold hidRemove; split <;> (try split) <;> rfl
      have hk : ∀ u t, (encReport c s.enc s.hid kNONE i.encSusp).2.2 ≠ .add u :: t := by
        intro u t h
        unfold encReport at h
        dsimp only at h
        rw [if_neg (show ¬ (kNONE ≠ kNONE) by simp)] at h
        split at h
        · simp at h
        · split at h
          · rw [hrem] at h; simp at h
          · simp at h
      have : (if st = 0b00111 then (c.ccw, [Act.rotate false])
        else if st = 0b11011 then (c.cw, [Act.rotate true]) else (kNONE, [])).2 ++
        (encReport c s.enc s.hid (if st = 0b00111 then (c.ccw, [Act.rotate false])
        else if st = 0b11011 then (c.cw, [Act.rotate true]) else (kNONE, [])).1 i.encSusp).2.2 =
          .add u :: t := by
        revert h; split <;> exact id
      split at this
      · simp at this
      · split at this
        · simp at this
        · exact hk _ _ this

/-- Invariant: the tap variables follow the events, and the reset happens exactly when due. -/
structure KeysInv (c : Cfg) (s : State) (tr : List Act) : Prop where
  ok : Ok c s
  keys : s.keys = (kinds c tr).foldl (tapStep c) (State.init c).keys
  halt : s.halted = true ↔ Act.boot ∈ tr
  due : s.halted = true ↔ ∃ p, p ++ [.boot] <+: kinds c tr ∧
    c.bootKeyTaps ≤ (p.foldl (tapStep c) (State.init c).keys).bootTaps + 1
  last : s.halted = true → tr.getLast? = some .boot

/-- Steps that report no key event. -/
theorem micro_quiet {c : Cfg} {i s m} (h : NoEvent (micro c i s m).2) (hv : Valid c m) (wf : c.WF)
    (ok : Ok c s) :
    (micro c i s m).1.keys = s.keys ∧ (micro c i s m).1.halted = s.halted ∧
      Act.boot ∉ (micro c i s m).2 := by
  unfold micro at h ⊢
  split
  · simp
  · rename_i hl
    rw [if_neg hl] at h
    cases m with
    | rowPut r v => dsimp only; split <;> simp
    | hid =>
      refine ⟨rfl, rfl, ?_⟩
      dsimp only; unfold hidTick; dsimp only
      split <;> split <;> simp
    | led =>
      refine ⟨rfl, rfl, ?_⟩
      dsimp only; unfold ledTick; dsimp only
      split
      · simp
      · split <;> simp
    | host x => exact ⟨rfl, rfl, by simp⟩
    | encoder =>
      obtain ⟨-, h2, -, h4⟩ := encoderTick_frame (c := c) (s := s) (i := i)
      refine ⟨h2, h4, fun hb => ?_⟩
      have := micro_emits c i s .encoder Act.boot (by unfold micro; rw [if_neg hl]; exact hb)
      simp [Emits, Act.isHid] at this
    | sample r k =>
      dsimp only at h ⊢
      unfold debounce at h ⊢
      have hlt : r * c.cols + k < s.deb.length := by rw [ok.deb_len]; exact key_lt hv.1 hv.2
      rw [List.getElem?_eq_getElem hlt] at h ⊢
      dsimp only at h ⊢
      split at h
      · exfalso
        split at h <;> exact h _ (List.mem_cons_of_mem _ List.mem_cons_self) _ _ rfl
      · simp

theorem micro_keysInv {c : Cfg} (wf : c.WF) {i s m tr} (hv : Valid c m) (inv : KeysInv c s tr) :
    KeysInv c (micro c i s m).1 (tr ++ (micro c i s m).2) := by
  have hok := micro_ok wf (i := i) inv.ok hv
  by_cases hl : ¬ s.live
  · rw [micro_dead hl]; simpa using inv
  replace hl : s.live := Classical.not_not.mp hl
  have hh : s.halted = false := by
    cases h : s.halted
    · rfl
    · exact absurd (Or.inl h) hl
  have hkinds := kinds_append c tr (micro c i s m).2 (micro_head c i s m)
  have hnotdue : ∀ p, p ++ [.boot] <+: kinds c tr →
      ¬ c.bootKeyTaps ≤ (p.foldl (tapStep c) (State.init c).keys).bootTaps + 1 := by
    intro p hp hle
    have := inv.due.mpr ⟨p, hp, hle⟩
    rw [hh] at this; exact absurd this (by decide)
  have hnb : Act.boot ∉ tr := by
    intro h
    have := inv.halt.mpr h
    rw [hh] at this; exact absurd this (by decide)
  by_cases hq : NoEvent (micro c i s m).2
  · obtain ⟨q1, q2, q3⟩ := micro_quiet hq hv wf inv.ok
    have hk : kinds c (tr ++ (micro c i s m).2) = kinds c tr := by
      rw [hkinds, kinds_noEvent hq, List.append_nil]
    refine ⟨hok, by rw [hk, q1]; exact inv.keys, ?_, by rw [hk, q2]; exact inv.due, ?_⟩
    · rw [q2, hh]; simp [hnb, q3]
    · rw [q2, hh]; simp
  · -- the step samples a key and reports an event
    have : ∃ r k, m = .sample r k := by
      cases m with
      | sample r k => exact ⟨r, k, rfl⟩
      | _ =>
        exfalso
        refine hq ?_
        intro x hx kk b e
        subst e
        have := micro_emits _ _ _ _ _ hx
        simp [Emits, Act.isHid] at this
    obtain ⟨r, k, rfl⟩ := this
    have hlt := key_lt hv.1 hv.2
    have hk : ∀ l, ∃ u, (c.layers l)[r * c.cols + k]? = some u := fun l =>
      ⟨_, List.getElem?_eq_getElem (by rw [wf.layers]; exact hlt)⟩
    have hlen : r * c.cols + k < s.deb.length := by rw [inv.ok.deb_len]; exact hlt
    obtain ⟨e, e1, e2, e3, e4, e5, e6, -⟩ :=
      report_kind (b := i.level r k) (susp := i.susp r k) hl hk
    have hm2 : (micro c i s (.sample r k)).2 = .get r k :: .event (r * c.cols + k) (i.level r k) ::
          (report c s (r * c.cols + k) (i.level r k) (i.susp r k)).2 ∧
        (micro c i s (.sample r k)).1.keys =
          (report c s (r * c.cols + k) (i.level r k) (i.susp r k)).1.keys ∧
        (micro c i s (.sample r k)).1.halted =
          (report c s (r * c.cols + k) (i.level r k) (i.susp r k)).1.halted := by
      unfold micro at hq ⊢
      rw [if_neg hl] at hq ⊢
      dsimp only at hq ⊢
      unfold debounce at hq ⊢
      rw [List.getElem?_eq_getElem hlen] at hq ⊢
      dsimp only at hq ⊢
      split at hq
      · split <;> simp
      · exfalso
        refine hq ?_
        intro x hx kk b e
        simp at hx
        subst hx; simp at e
    obtain ⟨m1, m2, m3⟩ := hm2
    have hks : kinds c (tr ++ (micro c i s (.sample r k)).2) = kinds c tr ++ [e] := by
      rw [hkinds, m1]
      have : ∀ l, kinds c (.get r k :: l) = kinds c l := fun _ => rfl
      rw [this, e1]
    refine ⟨hok, ?_, ?_, ?_, ?_⟩
    · rw [hks, List.foldl_append, ← inv.keys, m2, e2]; rfl
    · rw [m3, ← e4, m1]; simp [hnb]
    · rw [m3, hks, e3]
      constructor
      · rintro ⟨rfl, hle⟩
        refine ⟨kinds c tr, List.prefix_refl _, ?_⟩
        rw [← inv.keys]; exact hle
      · rintro ⟨p, hp, hle⟩
        rcases List.prefix_concat_iff.mp hp with h | h
        · have := List.append_inj' h rfl
          obtain ⟨rfl, h2⟩ := this
          have : e = .boot := by simpa using h2.symm
          exact ⟨this, by rw [inv.keys]; exact hle⟩
        · exact absurd hle (hnotdue p h)
    · intro h
      rw [m3] at h
      rw [m1, e5 h]
      simp

theorem reach_keysInv {c : Cfg} (wf : c.WF) (ins : List In) :
    KeysInv c (run c (State.init c) ins).1 (run c (State.init c) ins).2.flatten := by
  have := run_inv2 (c := c) (P := KeysInv c) (fun _ _ _ _ hv h => micro_keysInv wf hv h)
    (s := State.init c) (tr := []) ⟨init_ok wf, rfl, by simp [State.init], by simp [State.init, kinds],
      by simp [State.init]⟩ ins
  simpa using this

end Chrumm.Fw
