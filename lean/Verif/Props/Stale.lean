import Verif.Props.Hid

/-! C09: does every change of the report reach the host? It does not. -/

namespace Chrumm.Fw
open Spec

/-- The last keyboard report that the USB stack accepted (nothing pressed before the first one). -/
def lastKb (tr : List Act) : BitVec 8 × List Nat :=
  tr.foldl (fun acc a => match a with
    | .kbReport m ks true => (m, ks)
    | _ => acc) (0, [0, 0, 0, 0, 0, 0])

/-- The last consumer report that the USB stack accepted. -/
def lastCon (tr : List Act) : Nat :=
  tr.foldl (fun acc a => match a with
    | .conReport code true => code
    | _ => acc) 0

/-- The full claim: after every iteration in which the USB stack was ready and accepted reports, the
host knows the report in memory. -/
def EveryChangeReachesHost (c : Cfg) : Prop :=
  ∀ ins i, (run c (State.init c) (ins ++ [i])).1.live → i.kbReady = true → i.kbAccept = true →
    let r := run c (State.init c) (ins ++ [i])
    lastKb r.2.flatten = (r.1.hid.modifiers, r.1.hid.keycodes)

private abbrev tap : List In := List.replicate 8 (holdIn 3 0) ++ List.replicate 8 idleIn

private theorem tap_state :
    (run defaultCfg (State.init defaultCfg) tap).1 = State.init defaultCfg ∧
    lastKb (run defaultCfg (State.init defaultCfg) tap).2.flatten = (2, [0, 0, 0, 0, 0, 0]) := by
  decide +kernel

private theorem idle_fix : (tick defaultCfg (State.init defaultCfg) idleIn).1 = State.init defaultCfg ∧
    ∀ a ∈ (tick defaultCfg (State.init defaultCfg) idleIn).2,
      (match a with | .kbReport _ _ _ => true | _ => false) = false := by
  decide +kernel

private theorem lastKb_append (a b) (h : ∀ x ∈ b, (match x with | .kbReport _ _ _ => true | _ => false)
    = false) : lastKb (a ++ b) = lastKb a := by
  unfold lastKb
  rw [List.foldl_append]
  generalize List.foldl _ _ a = z
  induction b with
  | nil => rfl
  | cons x xs ih =>
    simp only [List.mem_cons, forall_eq_or_imp] at h
    rw [List.foldl_cons, ← ih h.2]
    congr 1
    have := h.1
    cases x <;> simp_all

/-- **C09 is violated**, by the shipped configuration: tap the left Shift key with the USB stack always
ready. The firmware's own report is empty again, but the host still believes that Shift is held, and
does so for as long as nothing else is typed (hid.c:60, 87 overwrite the pending flag; matrix.c:133-134
removes the modifier twice). -/
theorem C09_violated_shift_stuck (n : Nat) :
    let r := run defaultCfg (State.init defaultCfg)
      (List.replicate 8 (holdIn 3 0) ++ List.replicate 8 idleIn ++ List.replicate n idleIn)
    r.1.live ∧ r.1.hid.modifiers = 0 ∧ lastKb r.2.flatten = (2, [0, 0, 0, 0, 0, 0]) := by
  have key : ∀ n, (run defaultCfg (State.init defaultCfg) (tap ++ List.replicate n idleIn)).1 =
      State.init defaultCfg ∧
      lastKb (run defaultCfg (State.init defaultCfg) (tap ++ List.replicate n idleIn)).2.flatten =
        (2, [0, 0, 0, 0, 0, 0]) := by
    intro n
    induction n with
    | zero => rw [List.replicate_zero, List.append_nil]; exact tap_state
    | succ n ih =>
      rw [List.replicate_succ', ← List.append_assoc, run_snoc]
      dsimp only
      rw [ih.1]
      refine ⟨idle_fix.1, ?_⟩
      rw [List.flatten_append, lastKb_append _ _ (by simpa using idle_fix.2)]
      exact ih.2
  obtain ⟨h1, h2⟩ := key n
  dsimp only
  refine ⟨?_, ?_, h2⟩
  · rw [h1]; decide
  · rw [h1]; rfl

/-- **C09** negation of the full claim for the shipped configuration. -/
theorem C09_not_every_change : ¬ EveryChangeReachesHost defaultCfg := by
  intro h
  have h0 := C09_violated_shift_stuck 0
  have h1 := h (List.replicate 8 (holdIn 3 0) ++ List.replicate 7 idleIn) idleIn
  have e : List.replicate 8 (holdIn 3 0) ++ List.replicate 7 idleIn ++ [idleIn] =
      List.replicate 8 (holdIn 3 0) ++ List.replicate 8 idleIn ++ List.replicate 0 idleIn := by
    simp [List.replicate_succ]
  rw [e] at h1
  have h2 := h1 h0.1 rfl rfl
  dsimp only at h0 h2
  rw [h2] at h0
  have := h0.2.2
  rw [h0.2.1] at this
  exact absurd this (by decide)

/-! ### What does hold -/

/-- A modifier usage. -/
def IsMod (u : Nat) : Prop := u / 65536 = 0x07 ∧ 0xE0 ≤ u % 256 ∧ u % 256 ≤ 0xE7

/-- No HID call with a modifier usage among the actions. -/
def NoModCalls (tr : List Act) : Prop := ∀ a ∈ tr, ∀ u, a = .add u ∨ a = .remove u → ¬ IsMod u

private def Sync (h : Hid) (kb : BitVec 8 × List Nat) : Prop :=
  kb = (h.modifiers, h.keycodes) ∨ h.kbStale = true

private theorem add_sync {h u susp kb} (hs : Sync h kb) (hu : ¬ IsMod u) :
    Sync (hidAdd h u susp).1 kb := by
  unfold hidAdd
  split
  · exact hs
  · split
    · rename_i h7
      unfold addKeycode
      split
      · rename_i hm; exact absurd ⟨h7, hm⟩ hu
      · split
        · exact hs
        · split
          · exact Or.inr rfl
          · exact hs
    · split
      · unfold addConsumer; split <;> exact hs
      · exact hs

private theorem remove_sync {h u kb} (hs : Sync h kb) (hu : ¬ IsMod u) :
    Sync (hidRemove h u).1 kb := by
  unfold hidRemove
  split
  · rename_i h7
    unfold removeKeycode
    split
    · exact hs
    · split
      · rename_i hm; exact absurd ⟨h7, hm⟩ hu
      · split
        · exact Or.inr rfl
        · exact hs
  · split
    · unfold addConsumer; split <;> exact hs
    · exact hs

/-- Only `hid_tick` transmits. -/
private theorem kb_other {c i s m} (hm : m ≠ .hid) (z) :
    (micro c i s m).2.foldl (fun acc a => match a with
      | .kbReport m ks true => (m, ks)
      | _ => acc) z = z := by
  have h : ∀ a ∈ (micro c i s m).2, ∀ mm ks b, a ≠ .kbReport mm ks b := by
    intro a ha mm ks b e
    subst e
    have := micro_emits c i s m _ ha
    cases m <;> simp_all [Emits, Act.isHid]
  generalize (micro c i s m).2 = l at h
  induction l with
  | nil => rfl
  | cons a l ih =>
    simp only [List.mem_cons, forall_eq_or_imp] at h
    rw [List.foldl_cons]
    cases a with
    | kbReport mm ks b => exact absurd rfl (h.1 mm ks b)
    | _ => exact ih h.2

private theorem con_other {c i s m} (hm : m ≠ .hid) (z) :
    (micro c i s m).2.foldl (fun acc a => match a with
      | .conReport code true => code
      | _ => acc) z = z := by
  have h : ∀ a ∈ (micro c i s m).2, ∀ k b, a ≠ .conReport k b := by
    intro a ha mm b e
    subst e
    have := micro_emits c i s m _ ha
    cases m <;> simp_all [Emits, Act.isHid]
  generalize (micro c i s m).2 = l at h
  induction l with
  | nil => rfl
  | cons a l ih =>
    simp only [List.mem_cons, forall_eq_or_imp] at h
    rw [List.foldl_cons]
    cases a with
    | conReport mm b => exact absurd rfl (h.1 mm b)
    | _ => exact ih h.2

/-- The report changes only by the HID calls that are recorded among the actions. -/
private inductive Calls : Hid → List Act → Hid → Prop
  | nil {h} : Calls h [] h
  | add {h u susp l h'} : Calls (hidAdd h u susp).1 l h' → Calls h (.add u :: l) h'
  | remove {h u l h'} : Calls (hidRemove h u).1 l h' → Calls h (.remove u :: l) h'
  | skip {h a l h'} : (∀ u, a ≠ .add u) → (∀ u, a ≠ .remove u) → Calls h l h' → Calls h (a :: l) h'

private theorem Calls.append {h a h' b h''} (x : Calls h a h') (y : Calls h' b h'') :
    Calls h (a ++ b) h'' := by
  induction x with
  | nil => exact y
  | add _ ih => exact .add (ih y)
  | remove _ ih => exact .remove (ih y)
  | skip h1 h2 _ ih => exact .skip h1 h2 (ih y)

private theorem calls_add (h u susp) : Calls h (hidAdd h u susp).2 (hidAdd h u susp).1 := by
  have : (hidAdd h u susp).2 = [.add u] ∨ (hidAdd h u susp).2 = [.add u, .wakeup] := by
    unfold hidAdd; split <;> (try split) <;> (try split) <;> simp
  rcases this with e | e <;> rw [e]
  · exact .add .nil
  · exact .add (.skip (by simp) (by simp) .nil)

private theorem calls_remove (h u) : Calls h (hidRemove h u).2 (hidRemove h u).1 := by
  have : (hidRemove h u).2 = [.remove u] := by
    unfold hidRemove; split <;> (try split) <;> simp
  rw [this]; exact .remove .nil

private theorem calls_report (c s key b susp) :
    Calls s.hid (report c s key b susp).2 (report c s key b susp).1.hid := by
  unfold report
  dsimp only
  repeat' split
  all_goals first
    | exact .nil
    | exact .skip (by simp) (by simp) .nil
    | exact (calls_remove _ _).append (calls_remove _ _)
    | exact calls_add _ _ _

private theorem calls_enc (c e h u susp) :
    Calls h (encReport c e h u susp).2.2 (encReport c e h u susp).2.1 := by
  unfold encReport
  dsimp only
  split
  · exact .nil
  · split <;> split
    · exact (calls_remove _ _).append (calls_add _ _ _)
    · exact calls_add _ _ _
    · exact calls_remove _ _
    · exact .nil

private theorem calls_micro {c i s m} (hm : m ≠ .hid) :
    Calls s.hid (micro c i s m).2 (micro c i s m).1.hid := by
  unfold micro
  split
  · exact .nil
  · cases m with
    | hid => exact absurd rfl hm
    | rowPut r v =>
      dsimp only; split
      · exact .skip (by simp) (by simp) .nil
      · exact .nil
    | led =>
      dsimp only; unfold ledTick; dsimp only
      split
      · exact .nil
      · split
        · exact .nil
        · exact .skip (by simp) (by simp) .nil
    | host h => exact .nil
    | encoder =>
      dsimp only; unfold encoderTick; dsimp only
      split <;>
      · refine Calls.append (h' := s.hid) ?_ (calls_enc _ _ _ _ _)
        split
        · exact .skip (by simp) (by simp) .nil
        · split
          · exact .skip (by simp) (by simp) .nil
          · exact .nil
    | sample r k =>
      dsimp only
      refine .skip (by simp) (by simp) ?_
      unfold debounce
      split
      · exact .nil
      · split
        · dsimp only
          split <;> exact .skip (by simp) (by simp) (calls_report _ _ _ _ _)
        · exact .nil

private theorem Calls.sync {h l h' kb} (x : Calls h l h') (hn : NoModCalls l) (hs : Sync h kb) :
    Sync h' kb := by
  induction x with
  | nil => exact hs
  | add _ ih =>
    exact ih (fun a ha => hn a (by simp [ha])) (add_sync hs (hn _ (by simp) _ (Or.inl rfl)))
  | remove _ ih =>
    exact ih (fun a ha => hn a (by simp [ha])) (remove_sync hs (hn _ (by simp) _ (Or.inr rfl)))
  | skip _ _ _ ih => exact ih (fun a ha => hn a (by simp [ha])) hs

private def ConSync (h : Hid) (z : Nat) : Prop := z = h.consumer ∨ h.conStale = true

private theorem keycode_con (h code) : (addKeycode h code).consumer = h.consumer ∧
    (addKeycode h code).conStale = h.conStale ∧ (removeKeycode h code).consumer = h.consumer ∧
    (removeKeycode h code).conStale = h.conStale := by
  unfold addKeycode removeKeycode
  refine ⟨?_, ?_, ?_, ?_⟩ <;> repeat' (first | split | rfl)

private theorem con_sync {h z code} (hs : ConSync h z) : ConSync (addConsumer h code) z := by
  unfold addConsumer
  split
  · exact hs
  · exact Or.inr rfl

private theorem Calls.conSync {h l h' z} (x : Calls h l h') (hs : ConSync h z) : ConSync h' z := by
  induction x with
  | nil => exact hs
  | add _ ih =>
    refine ih ?_
    unfold hidAdd
    split
    · exact hs
    · split
      · unfold ConSync; rw [(keycode_con _ _).1, (keycode_con _ _).2.1]; exact hs
      · split
        · exact con_sync hs
        · exact hs
  | remove _ ih =>
    refine ih ?_
    unfold hidRemove
    split
    · unfold ConSync; rw [(keycode_con _ _).2.2.1, (keycode_con _ _).2.2.2]; exact hs
    · split
      · exact con_sync hs
      · exact hs
  | skip _ _ _ ih => exact ih hs

private theorem lastKb_snoc (a b) : lastKb (a ++ b) = b.foldl (fun acc a => match a with
      | .kbReport m ks true => (m, ks)
      | _ => acc) (lastKb a) := by
  unfold lastKb; rw [List.foldl_append]

private theorem lastCon_snoc (a b) : lastCon (a ++ b) = b.foldl (fun acc a => match a with
      | .conReport code true => code
      | _ => acc) (lastCon a) := by
  unfold lastCon; rw [List.foldl_append]

private theorem hid_sync (h : Hid) (i : In) (z) (hs : Sync h z) :
    Sync (hidTick h i).1 ((hidTick h i).2.foldl (fun acc a => match a with
      | .kbReport m ks true => (m, ks)
      | _ => acc) z) ∧
    (i.kbReady = true → i.kbAccept = true → (hidTick h i).1.kbStale = false) := by
  unfold hidTick
  rcases hr : i.kbReady <;> rcases ha : i.kbAccept <;> rcases hst : h.kbStale <;>
    rcases hr2 : i.conReady <;> rcases ha2 : i.conAccept <;> rcases hst2 : h.conStale <;>
    simp_all [Sync]

private theorem hid_conSync (h : Hid) (i : In) (z) (hs : ConSync h z) :
    ConSync (hidTick h i).1 ((hidTick h i).2.foldl (fun acc a => match a with
      | .conReport code true => code
      | _ => acc) z) ∧
    (i.conReady = true → i.conAccept = true → (hidTick h i).1.conStale = false) := by
  unfold hidTick
  rcases hr : i.kbReady <;> rcases ha : i.kbAccept <;> rcases hst : h.kbStale <;>
    rcases hr2 : i.conReady <;> rcases ha2 : i.conAccept <;> rcases hst2 : h.conStale <;>
    simp_all [ConSync]

private theorem micro_sync {c i s m tr} (hs : NoModCalls tr → Sync s.hid (lastKb tr)) :
    NoModCalls (tr ++ (micro c i s m).2) →
      Sync (micro c i s m).1.hid (lastKb (tr ++ (micro c i s m).2)) := by
  intro hn
  have hs := hs fun a ha => hn a (List.mem_append_left _ ha)
  rw [lastKb_snoc]
  by_cases hm : m = .hid
  · subst hm
    unfold micro
    split
    · exact hs
    · exact (hid_sync s.hid i _ hs).1
  · rw [kb_other hm]
    exact (calls_micro hm).sync (fun a ha => hn a (List.mem_append_right _ ha)) hs

private theorem micro_conSync {c i s m tr} (hs : ConSync s.hid (lastCon tr)) :
    ConSync (micro c i s m).1.hid (lastCon (tr ++ (micro c i s m).2)) := by
  rw [lastCon_snoc]
  by_cases hm : m = .hid
  · subst hm
    unfold micro
    split
    · exact hs
    · exact (hid_conSync s.hid i _ hs).1
  · rw [con_other hm]
    exact (calls_micro hm).conSync hs

/-- After `hid_tick`, nothing in the iteration changes the report. -/
private theorem tail_hid {c i s} (ms : List Micro) (h : ∀ m ∈ ms, m = .led ∨ ∃ x, m = .host x) :
    (micros c i s ms).1.hid = s.hid := by
  induction ms generalizing s with
  | nil => rfl
  | cons m ms ih =>
    simp only [List.mem_cons, forall_eq_or_imp] at h
    simp only [micros]
    rw [ih h.2]
    unfold micro
    split
    · rfl
    · rcases h.1 with rfl | ⟨x, rfl⟩ <;> rfl

private theorem tick_fresh {c s i} (hl : (tick c s i).1.live) :
    (i.kbReady = true → i.kbAccept = true → (tick c s i).1.hid.kbStale = false) ∧
    (i.conReady = true → i.conAccept = true → (tick c s i).1.hid.conStale = false) := by
  have e : program c i = (matrixTick c ++ [.encoder]) ++ (.hid :: (.led :: i.host.map .host)) := by
    simp [program]
  unfold tick at hl ⊢
  rw [e, micros_append] at hl ⊢
  dsimp only at hl ⊢
  generalize (micros c i s (matrixTick c ++ [.encoder])).1 = s1 at *
  have hl1 := micros_live hl
  simp only [micros]
  rw [show ∀ s2 : State, (micros c i (micro c i s2 .led).1 (i.host.map .host)).1.hid =
    (micros c i s2 (.led :: i.host.map .host)).1.hid from fun _ => rfl]
  rw [tail_hid _ (by
    intro m hm
    rcases List.mem_cons.mp hm with h | h
    · exact Or.inl h
    · obtain ⟨x, -, rfl⟩ := List.mem_map.mp h; exact Or.inr ⟨x, rfl⟩)]
  unfold micro
  rw [if_neg hl1]
  exact ⟨(hid_sync s1.hid i _ (Or.inl rfl)).2, (hid_conSync s1.hid i _ (Or.inl rfl)).2⟩

/-- **C09, proved part for the keyboard report**: as long as no modifier usage has been pressed or
released, the report in memory is known to the host after every iteration in which the USB stack was
ready and accepted. Missing: modifier keys, for which the claim is false (see above). -/
theorem C09_reaches_host_partial (c : Cfg) (ins : List In) (i : In)
    (hl : (run c (State.init c) (ins ++ [i])).1.live)
    (hready : i.kbReady = true) (haccept : i.kbAccept = true)
    (hmod : NoModCalls (run c (State.init c) (ins ++ [i])).2.flatten) :
    let r := run c (State.init c) (ins ++ [i])
    lastKb r.2.flatten = (r.1.hid.modifiers, r.1.hid.keycodes) := by
  have h := run_inv2 (c := c) (P := fun s tr => NoModCalls tr → Sync s.hid (lastKb tr))
    (fun _ _ _ _ _ h => micro_sync h) (s := State.init c) (tr := []) (fun _ => Or.inl rfl) (ins ++ [i])
  rw [List.nil_append] at h
  rcases h hmod with h | h
  · exact h
  · rw [run_snoc] at h hl
    have := (tick_fresh hl).1 hready haccept
    dsimp only at h
    rw [this] at h
    exact absurd h (by decide)

/-- **C09 for the consumer report**, without exception: after every iteration in which the USB stack
was ready and accepted, the host knows the consumer code in memory. -/
theorem C09_consumer_reaches_host (c : Cfg) (ins : List In) (i : In)
    (hl : (run c (State.init c) (ins ++ [i])).1.live)
    (hready : i.conReady = true) (haccept : i.conAccept = true) :
    let r := run c (State.init c) (ins ++ [i])
    lastCon r.2.flatten = r.1.hid.consumer := by
  have h := run_inv2 (c := c) (P := fun s tr => ConSync s.hid (lastCon tr))
    (fun _ _ _ _ _ h => micro_conSync h) (s := State.init c) (tr := []) (Or.inl rfl) (ins ++ [i])
  rw [List.nil_append] at h
  rcases h with h | h
  · exact h
  · rw [run_snoc] at h hl
    have := (tick_fresh hl).2 hready haccept
    dsimp only at h
    rw [this] at h
    exact absurd h (by decide)

/-- The hypotheses of the partial theorem are met: type `Q`. -/
example : let r := run quickCfg (State.init quickCfg) ([holdIn 1 1, holdIn 1 1] ++ [idleIn])
    r.1.live ∧ (∀ a ∈ r.2.flatten, (match a with
      | .add u => decide (u = 0x070014) | .remove u => decide (u = 0x070014) | _ => true) = true) ∧
    lastKb r.2.flatten = (0, [0x14, 0, 0, 0, 0, 0]) := by
  decide +kernel

end Chrumm.Fw
