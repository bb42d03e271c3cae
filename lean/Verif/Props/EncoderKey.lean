import Verif.Props.Scan
import Verif.Props.Encoder

/-! C14: the virtual key presses of the encoder. -/

namespace Chrumm.Fw
open Spec

private theorem hidCalls_append (a b) : hidCalls (a ++ b) = hidCalls a ++ hidCalls b := by
  simp [hidCalls]

private theorem add_calls (h u susp) : hidCalls (hidAdd h u susp).2 = [.add u] := by
  unfold hidAdd; split <;> (try split) <;> (try split) <;> rfl

private theorem remove_calls (h u) : hidCalls (hidRemove h u).2 = [.remove u] := by
  unfold hidRemove; split <;> (try split) <;> rfl

private theorem encReport_calls (c e h u susp) : hidCalls (encReport c e h u susp).2.2 =
    if e.timeout ≠ 0 then [] else
      (if e.current ≠ kNONE then [.remove e.current] else []) ++
        (if u ≠ kNONE then [.add u] else []) := by
  unfold encReport
  split
  · rfl
  · by_cases h1 : e.current = kNONE <;> by_cases h2 : u = kNONE <;>
      simp [h1, h2, hidCalls_append, add_calls, remove_calls]
    rfl

private theorem hidCalls_none {l : List Act} (h : ∀ a ∈ l, (∀ u, a ≠ .add u) ∧ ∀ u, a ≠ .remove u) :
    hidCalls l = [] := by
  unfold hidCalls
  rw [List.filter_eq_nil_iff]
  intro a ha
  have h := h a ha
  cases a with
  | add u => exact absurd rfl (h.1 u)
  | remove u => exact absurd rfl (h.2 u)
  | _ => simp

private theorem encoderTick_calls {c : Cfg} {s : State} (ok : Ok c s) (i : In) :
    hidCalls (encoderTick c s i).2 =
      hidCalls (encReport c s.enc s.hid (encUsage c s.enc i) i.encSusp).2.2 := by
  obtain ⟨n, hn, -⟩ := encNext_le _ (enc_index_lt _ ok.dec_le i.encA i.encB)
  unfold encoderTick
  dsimp only
  rw [hn]
  rw [enc_index _ ok.dec_le]
  dsimp only
  rw [hidCalls_append]
  unfold encUsage
  split
  · rfl
  · split <;> rfl

private theorem tick_turned {c : Cfg} (wf : c.WF) {s : State} (ok : Ok c s) (i : In)
    (hl : (tick c s i).1.live) : turned c (tick c s i).2 = encUsage c s.enc i := by
  unfold turned
  rw [tick_rot wf ok i hl]
  unfold rotOf encUsage
  generalize s.enc.dec * 4 + i.encA.toNat * 2 + i.encB.toNat = n
  by_cases h1 : n = 0b00111
  · simp [h1]
  · by_cases h2 : n = 0b11011 <;> simp [h1, h2]

private theorem takeWhile_all {α} {p : α → Bool} {l m : List α} (h : ∀ a ∈ l, p a = true) :
    (l ++ m).takeWhile p = l ++ m.takeWhile p := by
  induction l with
  | nil => rfl
  | cons x xs ih =>
    simp only [List.mem_cons, forall_eq_or_imp] at h
    simp [h.1, ih h.2]

/-- The key scan is empty or ends with a write to a row pin. -/
private theorem scan_end {c : Cfg} (wf : c.WF) {i s}
    (hl : (micros c i s (matrixTick c)).1.live) :
    (micros c i s (matrixTick c)).2 = [] ∨
      ∃ l p, p ∈ c.rowPins ∧ (micros c i s (matrixTick c)).2 = l ++ [.put p true] := by
  unfold matrixTick at hl ⊢
  cases hr : c.rows with
  | zero => left; rfl
  | succ n =>
    right
    rw [hr, List.range_succ, List.flatMap_append, List.flatMap_singleton, ← List.append_assoc,
      micros_append] at hl
    rw [List.range_succ, List.flatMap_append, List.flatMap_singleton, ← List.append_assoc,
      micros_append]
    dsimp only at hl ⊢
    generalize (micros c i s _) = q at *
    have hq := micros_live hl
    have hlen : n < c.rowPins.length := by rw [wf.pins]; omega
    have hp : c.rowPins[n]? = some c.rowPins[n] := List.getElem?_eq_getElem hlen
    refine ⟨q.2, c.rowPins[n], List.getElem_mem _, ?_⟩
    simp only [micros]
    rw [rowPut_acts hq hp]
    rfl

private theorem afterScan_eq {R : List Nat} {a b : List Act}
    (ha : a = [] ∨ ∃ l p, p ∈ R ∧ a = l ++ [.put p true]) (hb : Neutral R b) :
    afterScan R (a ++ b) = b := by
  unfold afterScan
  rw [List.reverse_append, takeWhile_all]
  · rcases ha with rfl | ⟨l, p, hp, rfl⟩
    · simp
    · simp [hp]
  · intro x hx
    have hx := hb x (List.mem_reverse.mp hx)
    cases x with
    | put p v =>
      simp only [Bool.not_eq_eq_eq_not, Bool.not_true, List.contains_eq_mem, decide_eq_false_iff_not]
      intro hp; exact hx.2 p hp v rfl
    | _ => rfl

private theorem tick_calls {c : Cfg} (wf : c.WF) (hpin : c.ledPin ∉ c.rowPins) {s : State}
    (ok : Ok c s) (i : In) (hl : (tick c s i).1.live) :
    hidCalls (afterScan c.rowPins (tick c s i).2) =
      if s.enc.timeout ≠ 0 then [] else
      (if s.enc.current ≠ kNONE then [.remove s.enc.current] else []) ++
        (if encUsage c s.enc i ≠ kNONE then [.add (encUsage c s.enc i)] else []) := by
  unfold tick program at hl ⊢
  rw [List.append_assoc, micros_append] at hl ⊢
  dsimp only at hl ⊢
  have hl1 := micros_live hl
  have hend := scan_end wf hl1
  have okA := micros_ok wf ok (i := i) (ms := matrixTick c)
    (fun m hm => program_valid c i m (by simp [program, hm]))
  have henc : (micros c i s (matrixTick c)).1.enc = s.enc := micros_enc (by
    intro h
    simp only [matrixTick, List.mem_flatMap, List.mem_append, List.mem_cons, List.mem_map,
      List.not_mem_nil, or_false, reduceCtorEq, and_false, exists_false] at h)
  generalize micros c i s (matrixTick c) = q at *
  have hn := rest_neutral hpin (i := i) ([.encoder, .hid, .led] ++ i.host.map .host) (by
    intro m hm
    simp only [List.mem_append, List.mem_cons, List.not_mem_nil, or_false, List.mem_map] at hm
    rcases hm with (rfl | rfl | rfl) | ⟨x, -, rfl⟩ <;> simp) q.1
  rw [afterScan_eq hend hn]
  have e : [Micro.encoder, .hid, .led] ++ i.host.map .host =
    .encoder :: ([.hid, .led] ++ i.host.map .host) := rfl
  rw [e]
  simp only [micros]
  have : micro c i q.1 .encoder = encoderTick c q.1 i := by
    unfold micro; rw [if_neg hl1]
  rw [this, hidCalls_append, encoderTick_calls okA, henc, encReport_calls]
  rw [hidCalls_none, List.append_nil]
  intro a ha
  obtain ⟨m, hm, hem⟩ := micros_emits _ _ _ _ a ha
  simp only [List.mem_append, List.mem_cons, List.not_mem_nil, or_false, List.mem_map] at hm
  rcases hm with (rfl | rfl) | ⟨x, -, rfl⟩ <;> cases a <;> simp [Emits] at hem ⊢

private theorem run_calls {c : Cfg} (wf : c.WF) (hpin : c.ledPin ∉ c.rowPins) (ins : List In)
    (s : State) (ok : Ok c s) (he : s.enc.current = kNONE → s.enc.timeout = 0)
    (hl : (run c s ins).1.live) :
    (run c s ins).2.map (fun tr => hidCalls (afterScan c.rowPins tr)) =
      virtualKey c (if s.enc.current = kNONE then none else some (s.enc.current, s.enc.timeout))
        ((run c s ins).2.map (turned c)) := by
  induction ins generalizing s with
  | nil => cases h : (if s.enc.current = kNONE then none else some (s.enc.current, s.enc.timeout)) <;> rfl
  | cons i is ih =>
    obtain ⟨h0, h1, h2⟩ := run_live_cons hl
    have e1 := tick_calls wf hpin ok i h1
    have e2 := tick_turned wf ok i h1
    have e3 := tick_enc wf ok i h1
    simp only [run, List.map_cons]
    have e4 : (tick c s i).1.enc.current = (encTimer c s.enc (encUsage c s.enc i)).current := by
      rw [e3]; rfl
    have e5 : (tick c s i).1.enc.timeout = (encTimer c s.enc (encUsage c s.enc i)).timeout := by
      rw [e3]; rfl
    generalize encUsage c s.enc i = u at *
    rw [ih _ (tick_ok wf ok) ?_ h2, e1, e2, e4, e5]
    · generalize s.enc = e at *
      unfold encTimer
      by_cases hc : e.current = kNONE
      · have ht := he hc
        by_cases hu : u = kNONE <;> simp [virtualKey, hc, ht, hu]
      · by_cases ht : e.timeout = 0
        · by_cases hu : u = kNONE <;> simp [ht, hc, hu, virtualKey]
        · obtain ⟨n, hn⟩ := Nat.exists_eq_succ_of_ne_zero ht
          simp [hc, hn, virtualKey]
    · rw [e4, e5]
      unfold encTimer
      by_cases ht : s.enc.timeout = 0
      · rw [if_neg (by simpa using ht)]
        split
        · rename_i hu; intro h'; exact absurd h' hu
        · intro _; exact ht
      · rw [if_pos ht]
        intro h'; exact absurd (he h') ht

/-- **C14** From power-on, the HID calls that the iterations of the main loop make after the key scan
are exactly those of `virtualKey` for the rotations of these iterations: an added usage is removed
`ENCODER_KEYPRESS_TICKS + 1` iterations later, rotations in between are ignored, and a new usage is
added only after the previous one has been removed. -/
theorem C14_virtual_key (c : Cfg) (wf : c.WF) (hpin : c.ledPin ∉ c.rowPins) (ins : List In)
    (hl : (run c (State.init c) ins).1.live) :
    (run c (State.init c) ins).2.map (fun tr => hidCalls (afterScan c.rowPins tr)) =
      virtualKey c none ((run c (State.init c) ins).2.map (turned c)) :=
  run_calls wf hpin ins (State.init c) (init_ok wf) (fun _ => rfl) hl

/-- **C14**, consequence in time: an added usage stays for `n` iterations without any HID call, and
the very next one begins with its removal. -/
theorem C14_released_after (c : Cfg) (u : Nat) (n : Nat) (quiet : List Nat) (v : Nat)
    (rest : List Nat) (hq : quiet.length = n) :
    ∃ tail, virtualKey c (some (u, n)) (quiet ++ v :: rest) =
      List.replicate n [] ++ (.remove u :: (if v = kNONE then [] else [.add v])) :: tail := by
  induction quiet generalizing n with
  | nil =>
    subst hq
    simp only [List.nil_append, List.length_nil, virtualKey, List.replicate_zero]
    split
    · exact ⟨_, rfl⟩
    · exact ⟨_, rfl⟩
  | cons x xs ih =>
    subst hq
    obtain ⟨t, ht⟩ := ih _ rfl
    refine ⟨t, ?_⟩
    simp only [List.cons_append, List.length_cons, virtualKey, ht, List.replicate_succ,
      List.cons_append]

private theorem virtualKey_paired (c : Cfg) (us : List Nat) :
    Paired (virtualKey c none us).flatten ∧
      ∀ u n, Paired (.add u :: (virtualKey c (some (u, n)) us).flatten) := by
  induction us with
  | nil => exact ⟨trivial, fun _ _ => by simp [virtualKey, Paired]⟩
  | cons v rest ih =>
    refine ⟨?_, ?_⟩
    · simp only [virtualKey]
      split
      · simpa using ih.1
      · simpa using ih.2 v c.keypressTicks
    · intro u n
      cases n with
      | zero =>
        simp only [virtualKey]
        split
        · exact ⟨rfl, ih.1⟩
        · exact ⟨rfl, ih.2 v c.keypressTicks⟩
      | succ n => simpa [virtualKey] using ih.2 u n

/-- **C14** No overlap: all HID calls of the encoder in sequence are `add u1, remove u1, add u2,
remove u2, ...`. -/
theorem C14_no_overlap (c : Cfg) (wf : c.WF) (hpin : c.ledPin ∉ c.rowPins) (ins : List In)
    (hl : (run c (State.init c) ins).1.live) :
    Paired ((run c (State.init c) ins).2.map
      (fun tr => hidCalls (afterScan c.rowPins tr))).flatten := by
  rw [C14_virtual_key c wf hpin ins hl]; exact (virtualKey_paired c _).1

private def pinIn (p : Int) : In := { idleIn with encA := (pinsAt p).1, encB := (pinsAt p).2 }

/-- One detent clockwise with the shortened press of `quickCfg` (3 ticks): the usage is added at the
detent and removed four iterations later. -/
example : let ins := ([0, 1, 2, 3, 4, 4, 4, 4, 4, 4] : List Int).map pinIn
    (run quickCfg (State.init quickCfg) ins).1.live ∧
    (run quickCfg (State.init quickCfg) ins).2.map (fun tr => hidCalls (afterScan quickCfg.rowPins tr)) =
      [[], [], [], [], [.add quickCfg.cw], [], [], [], [.remove quickCfg.cw], []] := by
  decide +kernel

end Chrumm.Fw
