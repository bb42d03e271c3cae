import Verif.Spec.Traffic
import Verif.Props.Hid

/-! C104: reports are sent only when a usage was pressed or released. -/

namespace Chrumm.Fw
open Spec

/-- The pending flag of the interface. -/
private def staleOf (t : Itf) (h : Hid) : Bool :=
  match t with
  | .keyboard => h.kbStale
  | .consumer => h.conStale

/-- Since the last accepted report there was a call. -/
private def Pending (t : Itf) (tr : List Act) : Prop :=
  ∃ a b, tr = a ++ b ∧ (∀ x ∈ b, ¬ t.sent x = true) ∧ ∃ x ∈ b, t.call x

private theorem Pending.append {t tr b} (h : Pending t tr) (hb : ∀ x ∈ b, ¬ t.sent x = true) :
    Pending t (tr ++ b) := by
  obtain ⟨p, q, rfl, h1, x, hx, h2⟩ := h
  refine ⟨p, q ++ b, by simp, fun y hy => ?_, x, List.mem_append_left _ hx, h2⟩
  rcases List.mem_append.mp hy with hy | hy
  · exact h1 y hy
  · exact hb y hy

private theorem Pending.call {t tr b} (hb : ∀ x ∈ b, ¬ t.sent x = true) (hc : ∃ x ∈ b, t.call x) :
    Pending t (tr ++ b) := ⟨tr, b, rfl, hb, hc⟩

/-- A change of the flag comes with a call. -/
private def Calls (t : Itf) (h h' : Hid) (acts : List Act) : Prop :=
  staleOf t h' = staleOf t h ∨ ∃ x ∈ acts, t.call x

private theorem Calls.trans {t h h' h'' a b} (h1 : Calls t h h' a) (h2 : Calls t h' h'' b) :
    Calls t h h'' (a ++ b) := by
  rcases h2 with h2 | ⟨x, hx, hc⟩
  · rcases h1 with h1 | ⟨x, hx, hc⟩
    · exact Or.inl (h2.trans h1)
    · exact Or.inr ⟨x, List.mem_append_left _ hx, hc⟩
  · exact Or.inr ⟨x, List.mem_append_right _ hx, hc⟩

private theorem Calls.mono {t h h' a b} (h1 : Calls t h h' a) (hs : ∀ x ∈ a, x ∈ b) : Calls t h h' b :=
  h1.imp_right fun ⟨x, hx, hc⟩ => ⟨x, hs x hx, hc⟩

private theorem addKeycode_con (h u) : (addKeycode h u).conStale = h.conStale := by
  unfold addKeycode
  dsimp only
  repeat' (first | split | rfl)

private theorem removeKeycode_con (h u) : (removeKeycode h u).conStale = h.conStale := by
  unfold removeKeycode
  dsimp only
  repeat' (first | split | rfl)

private theorem addConsumer_kb (h u) : (addConsumer h u).kbStale = h.kbStale := by
  unfold addConsumer
  split <;> rfl

private theorem hidAdd_calls (t : Itf) (h u susp) : Calls t h (hidAdd h u susp).1 (hidAdd h u susp).2 := by
  unfold hidAdd
  split
  · exact Or.inl rfl
  · split
    · rename_i h7
      cases t with
      | keyboard => exact Or.inr ⟨.add u, by simp, h7⟩
      | consumer => exact Or.inl (addKeycode_con _ _)
    · split
      · rename_i h12
        cases t with
        | keyboard => exact Or.inl (addConsumer_kb _ _)
        | consumer => exact Or.inr ⟨.add u, by simp, h12⟩
      · exact Or.inl rfl

private theorem hidRemove_calls (t : Itf) (h u) : Calls t h (hidRemove h u).1 (hidRemove h u).2 := by
  unfold hidRemove
  split
  · rename_i h7
    cases t with
    | keyboard => exact Or.inr ⟨.remove u, by simp, h7⟩
    | consumer => exact Or.inl (removeKeycode_con _ _)
  · split
    · rename_i h12
      cases t with
      | keyboard => exact Or.inl (addConsumer_kb _ _)
      | consumer => exact Or.inr ⟨.remove u, by simp, h12⟩
    · exact Or.inl rfl

private theorem report_calls (t : Itf) (c s key b susp) :
    Calls t s.hid (report c s key b susp).1.hid (report c s key b susp).2 := by
  unfold report
  dsimp only
  repeat' split
  all_goals first
    | exact Or.inl rfl
    | exact (hidRemove_calls t _ _).trans (hidRemove_calls t _ _)
    | exact hidAdd_calls t _ _ _

private theorem encReport_calls (t : Itf) (c e h u susp) :
    Calls t h (encReport c e h u susp).2.1 (encReport c e h u susp).2.2 := by
  unfold encReport
  split
  · exact Or.inl rfl
  · by_cases hc : e.current ≠ kNONE
    · rw [if_pos hc]
      dsimp only
      split
      · exact (hidRemove_calls t _ _).trans (hidAdd_calls t _ _ _)
      · exact hidRemove_calls t _ _
    · rw [if_neg hc]
      dsimp only
      split
      · exact (hidAdd_calls t _ _ _).mono (by simp)
      · exact Or.inl rfl

/-- All steps but `hid_tick`: no report, and the flag changes only with a call. -/
private theorem micro_calls (t : Itf) {c i s m} (hm : m ≠ .hid) :
    Calls t s.hid (micro c i s m).1.hid (micro c i s m).2 ∧ ∀ x ∈ (micro c i s m).2, ¬ t.offers x = true := by
  constructor
  · unfold micro
    split
    · exact Or.inl rfl
    · cases m with
      | hid => exact absurd rfl hm
      | rowPut r v => dsimp only; split <;> exact Or.inl rfl
      | led => exact Or.inl rfl
      | host h => exact Or.inl rfl
      | encoder =>
        dsimp only
        unfold encoderTick
        dsimp only
        split <;> exact (encReport_calls t _ _ _ _ _).mono fun x hx => List.mem_append_right _ hx
      | sample r k =>
        dsimp only
        unfold debounce
        split
        · exact Or.inl rfl
        · split
          · dsimp only
            split <;> exact (report_calls t _ _ _ _ _).mono fun x hx =>
              List.mem_cons_of_mem _ (List.mem_cons_of_mem _ hx)
          · exact Or.inl rfl
  · intro x hx ho
    have := micro_emits _ _ _ _ x hx
    cases m with
    | hid => exact hm rfl
    | _ => cases t <;> cases x <;> simp [Emits, Act.isHid, Itf.offers] at this ho

private theorem sent_offers {t : Itf} {x} (h : t.sent x = true) : t.offers x = true := by
  cases t <;> cases x <;> simp_all [Itf.sent, Itf.offers]

/-- `hid_tick`: a report only if the flag is set; the flag stays set if it is not accepted. -/
private theorem hidTick_sends (t : Itf) (h : Hid) (i : In) :
    (∀ x ∈ (hidTick h i).2, t.offers x = true → staleOf t h = true) ∧
    (staleOf t (hidTick h i).1 = true → staleOf t h = true ∧ ∀ x ∈ (hidTick h i).2, ¬ t.sent x = true) ∧
    (hidTick h i).2.countP t.offers ≤ 1 := by
  refine ⟨?_, ?_, ?_⟩
  · unfold hidTick
    cases t <;> cases h1 : h.kbStale <;> cases h2 : h.conStale <;> cases h3 : i.kbReady <;>
      cases h4 : i.conReady <;> simp [staleOf, Itf.offers, h1, h2]
  · unfold hidTick
    cases t <;> cases h1 : h.kbStale <;> cases h2 : h.conStale <;> cases h3 : i.kbReady <;>
      cases h4 : i.conReady <;> simp [staleOf, Itf.sent, h1, h2]
  · unfold hidTick
    cases t <;> cases h1 : h.kbStale <;> cases h2 : h.conStale <;> cases h3 : i.kbReady <;>
      cases h4 : i.conReady <;> simp [List.countP_cons, Itf.offers, h1, h2]

/-- The invariant: every report so far had a call before it, after the last accepted one; and if the
flag is set then there was a call since. -/
private def Justified (t : Itf) (s : State) (tr : List Act) : Prop :=
  (staleOf t s.hid = true → Pending t tr) ∧
    ∀ a x b, tr = a ++ x :: b → t.offers x = true → Pending t a

private theorem offered_append {t : Itf} {tr acts : List Act}
    (h : ∀ a x b, tr = a ++ x :: b → t.offers x = true → Pending t a)
    (hn : ∀ x ∈ acts, ¬ t.offers x = true) :
    ∀ a x b, tr ++ acts = a ++ x :: b → t.offers x = true → Pending t a := by
  intro a x b e hx
  rcases List.append_eq_append_iff.mp e with ⟨p, rfl, h2⟩ | ⟨p, h1, h2⟩
  · exact absurd hx (hn x (by rw [h2]; simp))
  · cases p with
    | nil =>
      simp only [List.nil_append] at h2
      exact absurd hx (hn x (by rw [← h2]; simp))
    | cons y p =>
      obtain ⟨rfl, -⟩ := List.cons.inj h2
      exact h a x p h1 hx

private theorem micro_justified (t : Itf) {c i s m tr} (h : Justified t s tr) :
    Justified t (micro c i s m).1 (tr ++ (micro c i s m).2) := by
  by_cases hl : ¬ s.live
  · rw [micro_dead hl]; simpa using h
  replace hl : s.live := Classical.not_not.mp hl
  by_cases hm : m = .hid
  · subst hm
    have e : micro c i s .hid = ({ s with hid := (hidTick s.hid i).1 }, (hidTick s.hid i).2) := by
      unfold micro
      rw [if_neg hl]
    rw [e]
    obtain ⟨h1, h2, h3⟩ := hidTick_sends t s.hid i
    refine ⟨fun hs => ?_, ?_⟩
    · obtain ⟨h4, h5⟩ := h2 hs
      exact (h.1 h4).append h5
    · intro a x b hab hx
      rcases List.append_eq_append_iff.mp hab with ⟨p, rfl, hp⟩ | ⟨p, hp1, hp2⟩
      · refine (h.1 (h1 x (by rw [hp]; simp) hx)).append fun y hy hy2 => ?_
        have hyo := sent_offers hy2
        rw [hp, List.countP_append, List.countP_cons, if_pos hx] at h3
        have := List.countP_pos_iff.mpr ⟨y, hy, hyo⟩
        omega
      · cases p with
        | nil =>
          simp only [List.nil_append] at hp2
          rw [List.append_nil] at hp1
          rw [← hp1]
          exact h.1 (h1 x (by rw [← hp2]; simp) hx)
        | cons y p =>
          obtain ⟨rfl, -⟩ := List.cons.inj hp2
          exact h.2 a x p hp1 hx
  · obtain ⟨h1, h2⟩ := micro_calls t (c := c) (i := i) (s := s) hm
    have hns : ∀ x ∈ (micro c i s m).2, ¬ t.sent x = true := fun x hx hs => h2 x hx (sent_offers hs)
    refine ⟨fun hs => ?_, offered_append h.2 h2⟩
    rcases h1 with h1 | h1
    · rw [h1] at hs; exact (h.1 hs).append hns
    · exact Pending.call hns h1

private theorem reach_justified (t : Itf) (c : Cfg) (ins : List In) :
    Justified t (run c (State.init c) ins).1 (run c (State.init c) ins).2.flatten := by
  have := run_inv2 (c := c) (P := Justified t) (fun i s m tr _ h => micro_justified t h)
    (s := State.init c) (tr := []) ⟨fun h => by cases t <;> simp [staleOf, State.init] at h,
      fun a x b h _ => by simp at h⟩ ins
  simpa using this

/-- **C104** Nothing is sent before the first key: if the keyboard offers a report to the USB stack, a
usage of that interface was pressed or released before. -/
theorem C104_first (t : Itf) (c : Cfg) (ins : List In) (a b : List Act) (x : Act)
    (h : (run c (State.init c) ins).2.flatten = a ++ x :: b) (hx : t.offers x = true) :
    ∃ y ∈ a, t.call y := by
  obtain ⟨p, q, rfl, -, y, hy, hc⟩ := (reach_justified t c ins).2 a x b h hx
  exact ⟨y, List.mem_append_right _ hy, hc⟩

/-- **C104** After a report was accepted, the next one is offered only after another usage of that
interface was pressed or released: an idle keyboard is silent, whatever the USB stack and the other
interface do. -/
theorem C104_between (t : Itf) (c : Cfg) (ins : List In) (a b d : List Act) (x y : Act)
    (h : (run c (State.init c) ins).2.flatten = a ++ x :: b ++ y :: d) (hx : t.sent x = true)
    (hy : t.offers y = true) : ∃ z ∈ b, t.call z := by
  obtain ⟨p, q, e, h1, z, hz, hc⟩ := (reach_justified t c ins).2 (a ++ x :: b) y d h hy
  rcases List.append_eq_append_iff.mp e with ⟨r, -, h2⟩ | ⟨r, -, h2⟩
  · cases r with
    | nil =>
      simp only [List.nil_append] at h2
      exact absurd hx (h1 x (by rw [← h2]; simp))
    | cons w r =>
      obtain ⟨-, rfl⟩ := List.cons.inj h2
      exact ⟨z, List.mem_append_right _ hz, hc⟩
  · exact absurd hx (h1 x (by rw [h2]; simp))

/-- **C104** In one iteration of the main loop at most one report is offered on each interface. -/
theorem C104_once (t : Itf) (c : Cfg) (s : State) (i : In) : (tick c s i).2.countP t.offers ≤ 1 := by
  have e : program c i = matrixTick c ++ [.encoder] ++ .hid :: (.led :: i.host.map .host) := by
    simp [program]
  have hz : ∀ {ms : List Micro} {s : State}, (∀ m ∈ ms, m ≠ .hid) →
      (micros c i s ms).2.countP t.offers = 0 := by
    intro ms s hms
    rw [List.countP_eq_zero]
    intro x hx ho
    obtain ⟨m, hm, he⟩ := micros_emits c i s ms x hx
    have := hms m hm
    cases m with
    | hid => exact this rfl
    | _ => cases t <;> cases x <;> simp [Emits, Act.isHid, Itf.offers] at he ho
  unfold tick
  rw [e, micros_append]
  dsimp only
  rw [List.countP_append, hz, Nat.zero_add]
  · simp only [micros]
    rw [List.countP_append]
    have h2 : ∀ s, (micro c i s .hid).2.countP t.offers ≤ 1 := by
      intro s
      unfold micro
      split
      · simp
      · exact (hidTick_sends t s.hid i).2.2
    have h3 := hz (ms := .led :: i.host.map .host) (s := (micro c i
      (micros c i s (matrixTick c ++ [Micro.encoder])).1 .hid).1) (by
        intro m hm
        simp only [List.mem_cons, List.mem_map] at hm
        rcases hm with rfl | ⟨x, -, rfl⟩ <;> simp)
    simp only [micros] at h3
    rw [h3]
    exact h2 _
  · intro m hm
    simp only [matrixTick, List.mem_append, List.mem_flatMap, List.mem_cons, List.mem_map,
      List.mem_singleton, List.not_mem_nil, or_false] at hm
    rcases hm with ⟨r, -, (rfl | ⟨k, -, rfl⟩) | rfl⟩ | rfl <;> simp

/-- Holding a key: one report when it goes down, none while it is held, one when it goes up. -/
example :
    let tr := (run quickCfg (State.init quickCfg) (List.replicate 20 (holdIn 1 1) ++
      List.replicate 20 idleIn)).2.flatten
    tr.countP (Itf.keyboard.offers) = 2 ∧ tr.countP (Itf.keyboard.sent) = 2 ∧
      tr.countP (Itf.consumer.offers) = 0 := by decide +kernel

end Chrumm.Fw
