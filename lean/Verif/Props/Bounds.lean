import Verif.Props.Layers
import Mathlib.Data.Finset.Card
import Mathlib.Data.Finset.Filter
import Mathlib.Data.Finset.Range

/-! C103: the variables of the firmware stay within their C types, for every run: the model's
unbounded counters never reach a value that would wrap around in C. -/

namespace Chrumm.Fw
open Spec

/-- The Fn keys of the keymap. -/
def fnKeys (c : Cfg) : Finset Nat := (Finset.range (c.rows * c.cols)).filter (isFn c)

/-- The Fn keys that are down after debouncing. -/
private def fnDown (c : Cfg) (deb : List Nat) : Finset Nat :=
  (fnKeys c).filter fun k => deb.getD k 0 % 2 = 1

private theorem fnDown_le (c deb) : (fnDown c deb).card ≤ (fnKeys c).card :=
  Finset.card_le_card (Finset.filter_subset _ _)

private theorem getD_set {l : List Nat} {i v k : Nat} (hi : i < l.length) :
    (l.set i v).getD k 0 = if k = i then v else l.getD k 0 := by
  rw [List.getD_eq_getElem?_getD, List.getD_eq_getElem?_getD, List.getElem?_set]
  by_cases h : i = k
  · subst h; simp [hi]
  · have h' : ¬ k = i := fun e => h e.symm
    simp [h, h']

private theorem fnDown_same {c : Cfg} {deb : List Nat} {i v : Nat} (hi : i < deb.length)
    (h : v % 2 = deb.getD i 0 % 2 ∨ ¬ isFn c i) : fnDown c (deb.set i v) = fnDown c deb := by
  unfold fnDown
  apply Finset.filter_congr
  intro k hk
  rw [getD_set hi]
  by_cases e : k = i
  · subst e
    rw [if_pos rfl]
    rcases h with h | h
    · rw [h]
    · exact absurd (Finset.mem_filter.mp hk).2 h
  · rw [if_neg e]

private theorem fnDown_press {c : Cfg} {deb : List Nat} {i v : Nat} (hi : i < deb.length)
    (hr : i < c.rows * c.cols) (hf : isFn c i) (h0 : deb.getD i 0 % 2 = 0) (hv : v % 2 = 1) :
    (fnDown c deb).card + 1 ≤ (fnDown c (deb.set i v)).card := by
  have hn : i ∉ fnDown c deb := by
    intro h
    have := (Finset.mem_filter.mp h).2
    omega
  rw [← Finset.card_insert_of_notMem hn]
  apply Finset.card_le_card
  intro k hk
  unfold fnDown
  rw [Finset.mem_filter, getD_set hi]
  rcases Finset.mem_insert.mp hk with rfl | hk
  · rw [if_pos rfl]
    exact ⟨Finset.mem_filter.mpr ⟨Finset.mem_range.mpr hr, hf⟩, hv⟩
  · obtain ⟨k1, k2⟩ := Finset.mem_filter.mp hk
    refine ⟨k1, ?_⟩
    split
    · exact hv
    · exact k2

/-- The variables of hid.c are in range. -/
private def HidRange (h : Hid) : Prop :=
  h.keycodes.length = 6 ∧ (∀ k ∈ h.keycodes, k < 256) ∧ h.consumer < 65536

private theorem fillSlot_ok {code : Nat} (hc : code < 256) : ∀ {l r : List Nat},
    (∀ k ∈ l, k < 256) → fillSlot code l = some r → r.length = l.length ∧ ∀ k ∈ r, k < 256
  | [], _, _, h => by simp [fillSlot] at h
  | x :: xs, r, hl, h => by
    unfold fillSlot at h
    split at h
    · obtain rfl := Option.some.inj h
      refine ⟨rfl, fun k hk => ?_⟩
      rcases List.mem_cons.mp hk with rfl | hk
      · exact hc
      · exact hl _ (List.mem_cons_of_mem _ hk)
    · obtain ⟨q, hq, rfl⟩ := Option.map_eq_some_iff.mp h
      obtain ⟨h1, h2⟩ := fillSlot_ok hc (fun k hk => hl k (List.mem_cons_of_mem _ hk)) hq
      refine ⟨by simp [h1], fun k hk => ?_⟩
      rcases List.mem_cons.mp hk with rfl | hk
      · exact hl _ List.mem_cons_self
      · exact h2 _ hk

private theorem clearSlot_ok {code : Nat} : ∀ {l r : List Nat},
    (∀ k ∈ l, k < 256) → clearSlot code l = some r → r.length = l.length ∧ ∀ k ∈ r, k < 256
  | [], _, _, h => by simp [clearSlot] at h
  | x :: xs, r, hl, h => by
    unfold clearSlot at h
    split at h
    · obtain rfl := Option.some.inj h
      refine ⟨rfl, fun k hk => ?_⟩
      rcases List.mem_cons.mp hk with rfl | hk
      · omega
      · exact hl _ (List.mem_cons_of_mem _ hk)
    · obtain ⟨q, hq, rfl⟩ := Option.map_eq_some_iff.mp h
      obtain ⟨h1, h2⟩ := clearSlot_ok (fun k hk => hl k (List.mem_cons_of_mem _ hk)) hq
      refine ⟨by simp [h1], fun k hk => ?_⟩
      rcases List.mem_cons.mp hk with rfl | hk
      · exact hl _ List.mem_cons_self
      · exact h2 _ hk

private theorem addConsumer_hidOk {h : Hid} (ok : HidRange h) {u : Nat} (hu : u < 65536) :
    HidRange (addConsumer h u) := by
  unfold addConsumer
  split
  · exact ok
  · exact ⟨ok.1, ok.2.1, hu⟩

private theorem hidAdd_hidOk {h : Hid} (ok : HidRange h) (u : Nat) (susp : Bool) :
    HidRange (hidAdd h u susp).1 := by
  unfold hidAdd
  split
  · exact ok
  · split
    · dsimp only
      unfold addKeycode
      split
      · exact ok
      · split
        · exact ok
        · split
          · rename_i ks hks
            obtain ⟨h1, h2⟩ := fillSlot_ok (Nat.mod_lt _ (by omega)) ok.2.1 hks
            exact ⟨h1.trans ok.1, h2, ok.2.2⟩
          · exact ok
    · split
      · exact addConsumer_hidOk ok (Nat.mod_lt _ (by omega))
      · exact ok

private theorem hidRemove_hidOk {h : Hid} (ok : HidRange h) (u : Nat) : HidRange (hidRemove h u).1 := by
  unfold hidRemove
  split
  · dsimp only
    unfold removeKeycode
    split
    · exact ok
    · split
      · exact ok
      · split
        · rename_i ks hks
          obtain ⟨h1, h2⟩ := clearSlot_ok ok.2.1 hks
          exact ⟨h1.trans ok.1, h2, ok.2.2⟩
        · exact ok
  · split
    · exact addConsumer_hidOk ok (by omega)
    · exact ok

/-- The variables of led.c are in range. -/
private def LedOk (c : Cfg) (l : Led) : Prop :=
  l.pattern < 256 ∧ l.index < 8 ∧ l.ticks ≤ c.blinkTicks

private theorem ledTick_ledOk {c : Cfg} {l : Led} (ok : LedOk c l) : LedOk c (ledTick c l).1 := by
  unfold ledTick
  split
  · exact ok
  · dsimp only
    split
    · exact ⟨ok.1, ok.2.1, by dsimp only; omega⟩
    · refine ⟨ok.1, ?_, Nat.zero_le _⟩
      dsimp only
      exact Nat.lt_of_le_of_lt Nat.and_le_right (by omega)

private theorem ledBlink_ledOk {c : Cfg} {l : Led} (ok : LedOk c l) {p : Nat} (hp : p < 256) :
    LedOk c (ledBlink c l p) := by
  unfold ledBlink
  split
  · exact ok
  · exact ⟨hp, by simp, Nat.le_refl _⟩

private theorem hostCb_ledOk {c : Cfg} {l : Led} (ok : LedOk c l) (h : Host) : LedOk c (hostCb c l h) := by
  unfold hostCb
  cases h with
  | suspend => exact ledBlink_ledOk ok (by omega)
  | setReport itf id isOutput size byte0 =>
    dsimp only
    repeat' split
    all_goals first | exact ok | exact ledBlink_ledOk ok (by omega)

private theorem encReport_ok {c : Cfg} {e : Enc} {h : Hid} (ok : HidRange h) (ht : e.timeout ≤ c.keypressTicks)
    (u : Nat) (susp : Bool) : HidRange (encReport c e h u susp).2.1 ∧
      (encReport c e h u susp).1.timeout ≤ c.keypressTicks := by
  unfold encReport
  split
  · exact ⟨ok, by dsimp only; omega⟩
  · by_cases hc : e.current ≠ kNONE
    · rw [if_pos hc]
      dsimp only
      split
      · exact ⟨hidAdd_hidOk (hidRemove_hidOk ok _) _ _, Nat.le_refl _⟩
      · exact ⟨hidRemove_hidOk ok _, ht⟩
    · rw [if_neg hc]
      dsimp only
      split
      · exact ⟨hidAdd_hidOk ok _ _, Nat.le_refl _⟩
      · exact ⟨ok, ht⟩

/-- All variables are in range. -/
private structure Bounded (c : Cfg) (s : State) : Prop where
  ok : Ok c s
  fn : s.keys.fnTaps ≤ c.fnKeyTaps + (fnDown c s.deb).card
  boot : s.keys.bootTaps ≤ max 1 c.bootKeyTaps
  live : s.live → s.keys.bootTaps < max 1 c.bootKeyTaps
  hid : HidRange s.hid
  led : LedOk c s.led
  time : s.enc.timeout ≤ c.keypressTicks

private theorem report_bounded {c : Cfg} (wf : c.WF) {s : State} (b : Bounded c s) (hl : s.live)
    {key : Nat} {sig susp : Bool} (hk : key < c.rows * c.cols) :
    let s' := (report c s key sig susp).1
    HidRange s'.hid ∧ s'.keys.bootTaps ≤ max 1 c.bootKeyTaps ∧
      (s'.halted = false → s'.keys.bootTaps < max 1 c.bootKeyTaps) ∧
      (isFn c key → s'.halted = s.halted ∧
        (sig = true → s'.keys.fnTaps ≤ c.fnKeyTaps) ∧
        (sig = false → s'.keys.fnTaps = s.keys.fnTaps + 1)) ∧
      (¬ isFn c key → s'.keys.fnTaps ≤ s.keys.fnTaps) := by
  have h1 : key < (c.layers s.keys.layer).length := by rw [wf.layers]; exact hk
  have h2 : key < (c.layers (!s.keys.layer)).length := by rw [wf.layers]; exact hk
  have e1 := List.getElem?_eq_getElem h1
  have e2 := List.getElem?_eq_getElem h2
  have hfn := isFn_iff (s := s) e1 e2
  have hb := b.boot
  have hb' := b.live hl
  unfold report
  rw [e1, e2]
  dsimp only
  split
  · rename_i h
    have hf := hfn.mp h
    split
    · rename_i hs
      subst hs
      dsimp only
      refine ⟨b.hid, ?_, fun _ => ?_, fun _ => ⟨rfl, fun _ => ?_, fun h => absurd h (by decide)⟩,
        fun h => absurd hf h⟩
      · split <;> split <;> exact hb
      · split <;> split <;> exact hb'
      · split <;> split <;> first | exact Nat.zero_le _ | (dsimp only at *; omega) | omega
    · rename_i hs
      dsimp only
      exact ⟨b.hid, hb, fun _ => hb', fun _ => ⟨rfl, fun h => absurd h hs, fun _ => rfl⟩,
        fun h => absurd hf h⟩
  · rename_i h
    have hf : ¬ isFn c key := fun h' => h (hfn.mpr h')
    split
    · exact ⟨hidRemove_hidOk (hidRemove_hidOk b.hid _) _, hb, fun _ => hb', fun h => absurd h hf,
        fun _ => Nat.le_refl _⟩
    · split
      · split
        · exact ⟨b.hid, by show s.keys.bootTaps + 1 ≤ _; omega, fun h => absurd h (by simp), fun h => absurd h hf,
            fun _ => Nat.le_refl _⟩
        · exact ⟨b.hid, by show s.keys.bootTaps + 1 ≤ _; omega, fun _ => by show s.keys.bootTaps + 1 < _; omega, fun h => absurd h hf,
            fun _ => Nat.le_refl _⟩
      · exact ⟨hidAdd_hidOk b.hid _ _, Nat.zero_le _, fun _ => by show (0:Nat) < _; omega,
          fun h => absurd h hf, fun _ => Nat.zero_le _⟩

/-- What an event says about the debounce byte. -/
private theorem debByte_event {D st : Nat} {b : Bool} (hD : 1 ≤ D) (hD' : D ≤ 127) (h : st < 2 * D) :
    ((debByte D st b).2 = true → st % 2 = b.toNat ∧ (debByte D st b).1 = (!b).toNat) ∧
    ((debByte D st b).2 = false → (debByte D st b).1 % 2 = st % 2) := by
  unfold debByte
  cases b <;> simp only [Bool.toNat_false, Bool.toNat_true, Bool.not_false, Bool.not_true] <;>
    split <;> split <;> (try split) <;> simp <;> omega

private theorem debounce_bounded {c : Cfg} (wf : c.WF) {s : State} (b : Bounded c s) (hl : s.live)
    {key : Nat} {sig susp : Bool} (hk : key < c.rows * c.cols) :
    Bounded c (debounce c s key sig susp).1 := by
  have hk' : key < s.deb.length := by rw [b.ok.deb_len]; exact hk
  have hst := b.ok.deb_lt _ (List.getElem_mem hk')
  have hok := debounce_ok wf b.ok (b := sig) (susp := susp) hk
  obtain ⟨d1, d2⟩ := debByte_event (b := sig) wf.deb_pos wf.deb_le hst
  have hg : s.deb.getD key 0 = s.deb[key] := by
    rw [List.getD_eq_getElem?_getD, List.getElem?_eq_getElem hk']; rfl
  obtain ⟨r1, r2, r3⟩ := report_frame c s key sig susp
  obtain ⟨q1, q2, q3, q4, q5⟩ := report_bounded wf b hl (sig := sig) (susp := susp) hk
  have q6 := report_ub wf (s := s) (b := sig) (susp := susp) hk
  revert hok
  unfold debounce
  rw [List.getElem?_eq_getElem hk']
  dsimp only
  rcases hd : debByte c.debounceTicks s.deb[key] sig with ⟨st, f⟩
  rw [hd] at d1 d2
  cases f
  · dsimp only
    intro hok
    have := d2 rfl
    refine ⟨hok, ?_, b.boot, fun _ => b.live hl, b.hid, b.led, b.time⟩
    dsimp only
    rw [fnDown_same hk' (Or.inl (by rw [hg]; exact this))]
    exact b.fn
  · dsimp only
    obtain ⟨d3, d4⟩ := d1 rfl
    dsimp only at d4
    have hub : s.ub = false := b.ok.ub
    have hh : s.halted = false := by
      cases h : s.halted
      · rfl
      · exact absurd (Or.inl h) hl
    split
    · rename_i hdead
      have hnf : ¬ isFn c key := by
        intro hf
        rcases hdead with h | h
        · rw [(q4 hf).1, hh] at h; exact absurd h (by decide)
        · rw [q6, hub] at h; exact absurd h (by decide)
      intro hok
      refine ⟨hok, ?_, q2, fun h => absurd hdead h, q1, by rw [r3]; exact b.led, by rw [r2]; exact b.time⟩
      rw [r1]
      exact (q5 hnf).trans b.fn
    · rename_i hlive
      have hhalt : (report c s key sig susp).1.halted = false := by
        cases h : (report c s key sig susp).1.halted
        · rfl
        · exact absurd (Or.inl h) hlive
      intro hok
      refine ⟨hok, ?_, q2, fun _ => q3 hhalt, q1, by dsimp only; rw [r3]; exact b.led,
        by dsimp only; rw [r2]; exact b.time⟩
      dsimp only
      rw [r1]
      by_cases hf : isFn c key
      · obtain ⟨-, f1, f2⟩ := q4 hf
        cases sig with
        | true => exact (f1 rfl).trans (Nat.le_add_right _ _)
        | false =>
          rw [f2 rfl]
          have := fnDown_press hk' hk hf (by rw [hg]; exact d3) (v := st) (by rw [d4]; rfl)
          have := b.fn
          omega
      · rw [fnDown_same hk' (Or.inr hf)]
        exact (q5 hf).trans b.fn

private theorem micro_bounded {c : Cfg} (wf : c.WF) {i s m} (b : Bounded c s) (hm : Valid c m) :
    Bounded c (micro c i s m).1 := by
  have hok := micro_ok wf (i := i) b.ok hm
  revert hok
  unfold micro
  split
  · exact fun _ => b
  · rename_i hl
    cases m with
    | rowPut r v =>
      have : r < c.rowPins.length := by rw [wf.pins]; exact hm
      dsimp only
      rw [List.getElem?_eq_getElem this]
      exact fun _ => b
    | sample r k => exact fun _ => debounce_bounded wf b hl (key_lt hm.1 hm.2)
    | encoder =>
      intro hok
      obtain ⟨f1, f2, f3, f4⟩ := encoderTick_frame (c := c) (s := s) (i := i)
      have hhid : HidRange (encoderTick c s i).1.hid ∧ (encoderTick c s i).1.enc.timeout ≤ c.keypressTicks := by
        unfold encoderTick
        dsimp only
        split <;> exact encReport_ok b.hid b.time _ _
      refine ⟨hok, ?_, ?_, fun _ => ?_, hhid.1, ?_, hhid.2⟩
      · dsimp only; rw [f1, f2]; exact b.fn
      · dsimp only; rw [f2]; exact b.boot
      · dsimp only; rw [f2]; exact b.live hl
      · dsimp only; rw [f3]; exact b.led
    | hid =>
      intro hok
      refine ⟨hok, b.fn, b.boot, fun _ => b.live hl, ?_, b.led, b.time⟩
      dsimp only
      unfold hidTick
      dsimp only
      split <;> split <;> exact b.hid
    | led =>
      exact fun hok => ⟨hok, b.fn, b.boot, fun _ => b.live hl, b.hid, ledTick_ledOk b.led, b.time⟩
    | host h =>
      exact fun hok => ⟨hok, b.fn, b.boot, fun _ => b.live hl, b.hid, hostCb_ledOk b.led h, b.time⟩

private theorem reach_bounded {c : Cfg} (wf : c.WF) (ins : List In) :
    Bounded c (run c (State.init c) ins).1 := by
  refine run_inv2 (c := c) (P := fun s _ => Bounded c s) (fun i s m _ hv h => micro_bounded wf h hv)
    (s := State.init c) (tr := []) ?_ ins
  refine ⟨init_ok wf, Nat.zero_le _, Nat.zero_le _, fun _ => ?_, ⟨rfl, ?_, by simp [State.init]⟩,
    ⟨by simp [State.init], by simp [State.init], Nat.le_refl _⟩, Nat.zero_le _⟩
  · exact Nat.lt_of_lt_of_le Nat.one_pos (Nat.le_max_left _ _)
  · intro k hk
    simp [State.init] at hk
    omega

/-- **C103** The tap counters of `report` (matrix.c:117-118) stay small, however long and in whatever
way the Fn and BOOT keys are used: the Fn counter is at most `FN_KEY_TAPS` plus the number of Fn keys,
the BOOT counter at most `BOOT_KEY_TAPS` (or 1). -/
theorem C103_taps (c : Cfg) (wf : c.WF) (ins : List In) :
    (run c (State.init c) ins).1.keys.fnTaps ≤ c.fnKeyTaps + (fnKeys c).card ∧
      (run c (State.init c) ins).1.keys.bootTaps ≤ max 1 c.bootKeyTaps := by
  have b := reach_bounded wf ins
  have := fnDown_le c (run c (State.init c) ins).1.deb
  have := b.fn
  exact ⟨by omega, b.boot⟩

/-- **C103** The other variables: the timeout of the encoder (encoder.c:77) and the tick counter of the
LED (led.c:20) do not exceed the configured ticks, the table index of the encoder is at most 6, the LED
pattern is a byte and its index is below 8, the report has six keycodes, each of which is a byte, and
the consumer code has 16 bits. -/
theorem C103_ranges (c : Cfg) (wf : c.WF) (ins : List In) :
    let s := (run c (State.init c) ins).1
    s.enc.timeout ≤ c.keypressTicks ∧ s.enc.dec ≤ 6 ∧
      s.led.ticks ≤ c.blinkTicks ∧ s.led.pattern < 256 ∧ s.led.index < 8 ∧
      s.hid.keycodes.length = 6 ∧ (∀ k ∈ s.hid.keycodes, k < 256) ∧ s.hid.consumer < 65536 := by
  have b := reach_bounded wf ins
  exact ⟨b.time, b.ok.dec_le, b.led.2.2, b.led.1, b.led.2.1, b.hid.1, b.hid.2.1, b.hid.2.2⟩

/-- **C103** With the shipped keymap and settings no counter comes near the limit of its type: after any
run the Fn counter is at most 3 and the BOOT counter at most 3. -/
theorem C103_default (ins : List In) :
    (run defaultCfg (State.init defaultCfg) ins).1.keys.fnTaps ≤ 3 ∧
      (run defaultCfg (State.init defaultCfg) ins).1.keys.bootTaps ≤ 3 := by
  have h := C103_taps defaultCfg defaultCfg_wf ins
  have hc : (fnKeys defaultCfg).card = 1 := by decide +kernel
  rw [hc] at h
  exact h

/-- The bounds of `C103_default` are attained: during the third tap of the Fn key the counter is 3, and
it is back at 0 after it; and it stays 0 if something else is typed. -/
example :
    let press : List In := [holdIn 2 0, holdIn 2 0]
    let up : List In := [idleIn, idleIn]
    let r3 := run quickCfg (State.init quickCfg) (press ++ up ++ press ++ up ++ press)
    quickCfg.WF ∧ (fnKeys quickCfg).card = 1 ∧ quickCfg.fnKeyTaps = 2 ∧
    r3.1.keys.fnTaps = 3 ∧ (run quickCfg r3.1 up).1.keys.fnTaps = 0 := by
  refine ⟨⟨rfl, fun l => by cases l <;> rfl, by decide, by decide⟩, ?_⟩
  decide +kernel

end Chrumm.Fw
