import Verif.Fw.Trace
import Verif.Props.Hid

/-! C15, C16: the LED. -/

namespace Chrumm.Fw
open Spec

private theorem pinLevel_append (p d a b) : pinLevel p d (a ++ b) = pinLevel p (pinLevel p d a) b := by
  unfold pinLevel; rw [List.foldl_append]

private theorem pinLevel_none {p d} {l : List Act} (h : ∀ a ∈ l, ∀ v, a ≠ .put p v) :
    pinLevel p d l = d := by
  unfold pinLevel
  induction l generalizing d with
  | nil => rfl
  | cons a l ih =>
    simp only [List.mem_cons, forall_eq_or_imp] at h
    rw [List.foldl_cons, ih h.2]
    cases a with
    | put q v =>
      by_cases e : q = p
      · subst e; exact absurd rfl (h.1 v)
      · simp [e]
    | _ => rfl

/-- The LED pin carries what the firmware believes. -/
private theorem micro_lit {c : Cfg} (hpin : c.ledPin ∉ c.rowPins) {i s m tr}
    (h : pinLevel c.ledPin false tr = s.led.lit) :
    pinLevel c.ledPin false (tr ++ (micro c i s m).2) = (micro c i s m).1.led.lit := by
  rw [pinLevel_append, h]
  by_cases hl : ¬ s.live
  · rw [micro_dead hl]; rfl
  replace hl : s.live := Classical.not_not.mp hl
  by_cases hm : m = .led
  · subst hm
    unfold micro
    rw [if_neg hl]
    dsimp only
    unfold ledTick
    dsimp only
    split
    · rfl
    · split
      · rfl
      · simp [pinLevel]
  · have e : (micro c i s m).1.led.lit = s.led.lit := by
      unfold micro
      rw [if_neg hl]
      cases m with
      | led => exact absurd rfl hm
      | rowPut r v => dsimp only; split <;> rfl
      | hid => rfl
      | encoder => rw [(encoderTick_frame).2.2.1]
      | host x =>
        dsimp only
        unfold hostCb ledBlink
        repeat' (first | split | rfl)
      | sample r k =>
        dsimp only
        unfold debounce
        split
        · rfl
        · split
          · dsimp only
            have := (report_frame c s (r * c.cols + k) (i.level r k) (i.susp r k)).2.2
            split <;> simp only [this]
          · rfl
    rw [e]
    refine pinLevel_none ?_
    intro a ha v ea
    subst ea
    have hem := micro_emits _ _ _ _ _ ha
    cases m with
    | led => exact hm rfl
    | rowPut r w =>
      unfold micro at ha
      rw [if_neg hl] at ha
      dsimp only at ha
      split at ha
      · rename_i pin hp
        simp at ha
        exact hpin (by rw [ha.1]; exact List.mem_of_getElem? hp)
      · simp at ha
    | _ => simp [Emits, Act.isHid] at hem

private theorem reach_lit {c : Cfg} (hpin : c.ledPin ∉ c.rowPins) (ins : List In) :
    pinLevel c.ledPin false (run c (State.init c) ins).2.flatten =
      (run c (State.init c) ins).1.led.lit := by
  have := run_inv2 (c := c) (P := fun s tr => pinLevel c.ledPin false tr = s.led.lit)
    (fun _ _ _ _ _ h => micro_lit hpin h) (s := State.init c) (tr := []) rfl ins
  simpa using this

/-- The LED part of one iteration. -/
private def ledStep (c : Cfg) (l : Led) (i : In) : Led := i.host.foldl (hostCb c) (ledTick c l).1

private theorem micro_led {c i s m} (hm : ∀ x, m ≠ .host x) (hm' : m ≠ .led) :
    (micro c i s m).1.led = s.led := by
  unfold micro
  split
  · rfl
  · cases m with
    | led => exact absurd rfl hm'
    | host x => exact absurd rfl (hm x)
    | rowPut r v => dsimp only; split <;> rfl
    | hid => rfl
    | encoder => exact encoderTick_frame.2.2.1
    | sample r k =>
      dsimp only
      unfold debounce
      split
      · rfl
      · split
        · dsimp only
          have := (report_frame c s (r * c.cols + k) (i.level r k) (i.susp r k)).2.2
          split <;> exact this
        · rfl

private theorem micros_led {c i s ms} (h : ∀ m ∈ ms, (∀ x, m ≠ .host x) ∧ m ≠ .led) :
    (micros c i s ms).1.led = s.led := by
  induction ms generalizing s with
  | nil => rfl
  | cons m ms ih =>
    simp only [List.mem_cons, forall_eq_or_imp] at h
    simp only [micros]
    rw [ih h.2, micro_led h.1.1 h.1.2]

private theorem micros_host {c i s} (hl : s.live) (hs : List Host) :
    (micros c i s (hs.map .host)).1.led = hs.foldl (hostCb c) s.led := by
  induction hs generalizing s with
  | nil => rfl
  | cons x xs ih =>
    have e : micro c i s (.host x) = ({ s with led := hostCb c s.led x }, []) := by
      unfold micro; rw [if_neg hl]
    simp only [List.map_cons, micros, List.foldl_cons]
    rw [e]
    exact ih (s := { s with led := hostCb c s.led x }) hl

private theorem tick_led {c s i} (hl : (tick c s i).1.live) : (tick c s i).1.led = ledStep c s.led i := by
  have e : program c i = (matrixTick c ++ [.encoder, .hid]) ++ (.led :: i.host.map .host) := by
    simp [program]
  unfold tick at hl ⊢
  rw [e, micros_append] at hl ⊢
  dsimp only at hl ⊢
  have hl1 := micros_live hl
  have h0 : (micros c i s (matrixTick c ++ [.encoder, .hid])).1.led = s.led := by
    refine micros_led ?_
    intro m hm
    simp only [matrixTick, List.mem_append, List.mem_flatMap, List.mem_range, List.mem_cons,
      List.mem_map, List.not_mem_nil, or_false] at hm
    rcases hm with ⟨r, -, (rfl | ⟨k, -, rfl⟩) | rfl⟩ | rfl | rfl <;> simp
  generalize (micros c i s (matrixTick c ++ [.encoder, .hid])).1 = s1 at *
  have em : micro c i s1 .led = ({ s1 with led := (ledTick c s1.led).1 }, (ledTick c s1.led).2) := by
    unfold micro; rw [if_neg hl1]
  simp only [micros]
  rw [em]
  rw [micros_host (s := { s1 with led := (ledTick c s1.led).1 }) hl1]
  unfold ledStep
  rw [h0]

private theorem run_led {c : Cfg} {s : State} (ins : List In) (hl : (run c s ins).1.live) :
    (run c s ins).1.led = ins.foldl (ledStep c) s.led := by
  induction ins generalizing s with
  | nil => rfl
  | cons i is ih =>
    obtain ⟨-, h1, h2⟩ := run_live_cons hl
    rw [List.foldl_cons, ← tick_led h1]
    exact ih h2

private theorem hostCb_eq (c : Cfg) (l : Led) (x : Host) :
    hostCb c l x = match requested x with | some p => ledBlink c l p | none => l := by
  cases x with
  | suspend => rfl
  | setReport itf id o size b =>
    unfold hostCb requested
    dsimp only
    by_cases h : itf = 0 ∧ id = 0 ∧ o = true ∧ size = 1
    · rw [if_pos h, if_pos h]
      have h0 : b.testBit 0 = decide (b % 2 = 1) := by
        simp only [Nat.testBit, Nat.shiftRight_zero, Nat.one_and_eq_mod_two]
        rcases Nat.mod_two_eq_zero_or_one b with h | h <;> simp [h]
      have h1 : b.testBit 1 = decide (b / 2 % 2 = 1) := by
        simp only [Nat.testBit, Nat.shiftRight_eq_div_pow, Nat.one_and_eq_mod_two, Nat.pow_one]
        rcases Nat.mod_two_eq_zero_or_one (b / 2) with h | h <;> simp [h]
      rw [h0, h1]
      have : b % 4 = 0 ∨ b % 4 = 1 ∨ b % 4 = 2 ∨ b % 4 = 3 := by omega
      rcases this with h | h | h | h
      · have a1 : ¬ b % 2 = 1 := by omega
        have a2 : ¬ b / 2 % 2 = 1 := by omega
        simp [h, a1, a2]
      · have a1 : b % 2 = 1 := by omega
        have a2 : ¬ b / 2 % 2 = 1 := by omega
        simp [h, a1, a2]
      · have a1 : ¬ b % 2 = 1 := by omega
        have a2 : b / 2 % 2 = 1 := by omega
        simp [h, a1, a2]
      · have a1 : b % 2 = 1 := by omega
        have a2 : b / 2 % 2 = 1 := by omega
        simp [h, a1, a2]
    · rw [if_neg h, if_neg h]

private theorem wanted_snoc (hs x) : wanted (hs ++ [x]) = (requested x).getD (wanted hs) := by
  unfold wanted
  rw [List.filterMap_append]
  cases h : requested x <;> simp [h]

private theorem blink_pattern (c l p) : (ledBlink c l p).pattern = p := by
  unfold ledBlink; split
  · rename_i h; exact h.symm
  · rfl

private theorem ledTick_pattern (c l) : (ledTick c l).1.pattern = l.pattern := by
  unfold ledTick; dsimp only; split
  · rfl
  · split <;> rfl

private theorem hosts_pattern (c : Cfg) (hs0 hs : List Host) (l : Led) (h : l.pattern = wanted hs0) :
    (hs.foldl (hostCb c) l).pattern = wanted (hs0 ++ hs) := by
  induction hs generalizing hs0 l with
  | nil => simpa using h
  | cons x xs ih =>
    rw [List.foldl_cons]
    have := ih (hs0 ++ [x]) (hostCb c l x) (by
      rw [wanted_snoc, hostCb_eq]
      cases requested x with
      | none => exact h
      | some p => exact blink_pattern c l p)
    simpa using this

private theorem run_pattern (c : Cfg) (ins : List In) (hs0 : List Host) (l : Led)
    (h : l.pattern = wanted hs0) :
    (ins.foldl (ledStep c) l).pattern = wanted (hs0 ++ ins.flatMap (·.host)) := by
  induction ins generalizing hs0 l with
  | nil => simpa using h
  | cons i is ih =>
    rw [List.foldl_cons]
    have := ih (hs0 ++ i.host) (ledStep c l i)
      (hosts_pattern c hs0 i.host _ (by rw [ledTick_pattern]; exact h))
    simpa using this

/-- Messages that do not change the pattern do nothing. -/
private theorem hosts_same (c : Cfg) (p : Nat) (hs : List Host) (l : Led) (hl : l.pattern = p)
    (h : ∀ y ∈ hs, requested y = none ∨ requested y = some p) : hs.foldl (hostCb c) l = l := by
  induction hs generalizing l with
  | nil => rfl
  | cons x xs ih =>
    simp only [List.mem_cons, forall_eq_or_imp] at h
    rw [List.foldl_cons]
    have : hostCb c l x = l := by
      rw [hostCb_eq]
      rcases h.1 with e | e <;> rw [e]
      dsimp only
      unfold ledBlink
      rw [if_pos hl.symm]
    rw [this]
    exact ih l hl h.2

private theorem ticks_closed (c : Cfg) (hB : 1 ≤ c.blinkTicks) (p : Nat) (hp : p ≠ 0) (post : List In)
    (l : Led) (h1 : l.pattern = p) (h2 : l.ticks = c.blinkTicks) (h3 : l.index = 7)
    (hsame : ∀ i ∈ post, ∀ y ∈ i.host, requested y = none ∨ requested y = some p) (n : Nat)
    (hn : post.length = n + 1) :
    post.foldl (ledStep c) l =
      { pattern := p, ticks := n % c.blinkTicks, index := (n / c.blinkTicks) % 8,
        lit := p.testBit ((n / c.blinkTicks) % 8) } := by
  revert hn n hsame
  refine snoc_ind (P := fun post => (∀ i ∈ post, ∀ y ∈ i.host, requested y = none ∨
    requested y = some p) → ∀ n, post.length = n + 1 → post.foldl (ledStep c) l =
      { pattern := p, ticks := n % c.blinkTicks, index := (n / c.blinkTicks) % 8,
        lit := p.testBit ((n / c.blinkTicks) % 8) }) ?_ ?_ post
  · intro _ n hn; simp at hn
  · intro is i ih hsame n hn
    have hi := hsame i (by simp)
    rw [List.foldl_append, List.foldl_cons, List.foldl_nil]
    cases n with
    | zero =>
      have : is = [] := by
        rw [← List.length_eq_zero_iff]; simp at hn; simpa using hn
      subst this
      rw [List.foldl_nil]
      unfold ledStep
      rw [hosts_same c p _ _ (by rw [ledTick_pattern]; exact h1) hi]
      unfold ledTick
      dsimp only
      rw [if_neg (by rw [h1]; exact fun h => hp h.1), if_neg (by rw [h2]; omega)]
      simp [h1, h3, Nat.zero_mod]
    | succ n =>
      have hn' : is.length = n + 1 := by simp at hn; omega
      rw [ih (fun j hj => hsame j (by simp [hj])) n hn']
      unfold ledStep
      rw [hosts_same c p _ _ (by rw [ledTick_pattern]) hi]
      unfold ledTick
      dsimp only
      rw [if_neg (fun h => hp h.1)]
      generalize hb : c.blinkTicks = B at *
      have hlt : n % B < B := Nat.mod_lt _ hB
      have hdm := Nat.div_add_mod n B
      by_cases hc : n % B + 1 < B
      · rw [if_pos hc]
        have e1 : (n + 1) / B = n / B := by
          rw [Nat.div_eq_of_lt_le]
          · rw [Nat.mul_comm]; omega
          · rw [Nat.add_mul, Nat.mul_comm, Nat.one_mul]; omega
        have e2 : (n + 1) % B = n % B + 1 := by
          have := Nat.div_add_mod (n + 1) B
          rw [e1] at this; omega
        rw [e1, e2]
      · rw [if_neg hc]
        have e1 : (n + 1) / B = n / B + 1 := by
          rw [Nat.div_eq_of_lt_le]
          · rw [Nat.add_mul, Nat.mul_comm, Nat.one_mul]; omega
          · rw [Nat.add_mul, Nat.add_mul, Nat.mul_comm, Nat.one_mul]; omega
        have e2 : (n + 1) % B = 0 := by
          have := Nat.div_add_mod (n + 1) B
          rw [e1, Nat.mul_add, Nat.mul_one] at this; omega
        have e3 : ((n / B) % 8 + 1) &&& 0b111 = (n / B + 1) % 8 := by
          have := Nat.and_two_pow_sub_one_eq_mod ((n / B) % 8 + 1) 3
          simp only [Nat.reducePow, Nat.add_one_sub_one] at this
          rw [show (0b111 : Nat) = 8 - 1 from rfl, this]; omega
        rw [e1, e2, e3]

/-- **C15** The LED shows the requested pattern: let the message `x` from the host request a new
pattern `p` (different from the one in force), and let no later message request another one. After
`n+1` further iterations, the LED pin carries bit `(n / LED_BLINK_TICKS) mod 8` of `p`, whatever
happened before and whatever else (including repeated requests of the same pattern) happens. -/
theorem C15_led_pattern (c : Cfg) (hpin : c.ledPin ∉ c.rowPins) (hB : 1 ≤ c.blinkTicks)
    (pre : List In) (i : In) (h1 h2 : List Host) (x : Host) (post : List In) (p n : Nat)
    (hi : i.host = h1 ++ x :: h2) (hx : requested x = some p)
    (hnew : wanted (pre.flatMap (·.host) ++ h1) ≠ p) (hp : p ≠ 0)
    (hsame2 : ∀ y ∈ h2, requested y = none ∨ requested y = some p)
    (hsame : ∀ j ∈ post, ∀ y ∈ j.host, requested y = none ∨ requested y = some p)
    (hn : post.length = n + 1)
    (hl : (run c (State.init c) (pre ++ i :: post)).1.live) :
    pinLevel c.ledPin false (run c (State.init c) (pre ++ i :: post)).2.flatten =
      p.testBit ((n / c.blinkTicks) % 8) := by
  rw [reach_lit hpin, run_led _ hl, List.foldl_append, List.foldl_cons]
  have hpat : (pre.foldl (ledStep c) (State.init c).led).pattern = wanted (pre.flatMap (·.host)) := by
    have := run_pattern c pre [] (State.init c).led rfl
    simpa using this
  generalize hl0 : pre.foldl (ledStep c) (State.init c).led = l0 at *
  have hmid : (h1.foldl (hostCb c) (ledTick c l0).1).pattern ≠ p := by
    rw [hosts_pattern c (pre.flatMap (·.host)) h1 _ (by rw [ledTick_pattern]; exact hpat)]
    exact hnew
  have hstep : ledStep c l0 i = { h1.foldl (hostCb c) (ledTick c l0).1 with
      pattern := p, ticks := c.blinkTicks, index := 7 } := by
    unfold ledStep
    rw [hi, List.foldl_append, List.foldl_cons]
    generalize h1.foldl (hostCb c) (ledTick c l0).1 = l1 at *
    have e : hostCb c l1 x = { l1 with pattern := p, ticks := c.blinkTicks, index := 7 } := by
      rw [hostCb_eq, hx]
      dsimp only
      unfold ledBlink
      rw [if_neg (fun e => hmid e.symm)]
    rw [e]
    exact hosts_same c p h2 _ rfl hsame2
  rw [hstep]
  rw [ticks_closed c hB p hp post _ rfl rfl rfl hsame n hn]

/-- **C15** Requesting the pattern in force again changes nothing at all (in particular not the
phase). -/
theorem C15_same_pattern_no_effect (c : Cfg) (l : Led) (x : Host) (h : requested x = some l.pattern) :
    hostCb c l x = l := by
  rw [hostCb_eq, h]
  simp [ledBlink]

private def DarkInv (c : Cfg) (l : Led) : Prop := l.pattern = 0 → l.lit = false ∨ l.ticks = c.blinkTicks

private theorem ledTick_dark (c l) (h : DarkInv c l) :
    l.pattern = 0 → (ledTick c l).1.lit = false := by
  intro h0
  unfold ledTick
  dsimp only
  split
  · rename_i hh; exact hh.2
  · rename_i hh
    have ht : l.ticks = c.blinkTicks := by
      rcases h h0 with h | h
      · exact absurd ⟨h0, h⟩ hh
      · exact h
    rw [if_neg (by omega)]
    simp [h0]

private theorem hostCb_dark (c l x) (h : DarkInv c l) : DarkInv c (hostCb c l x) := by
  rw [hostCb_eq]
  cases requested x with
  | none => exact h
  | some p =>
    dsimp only
    unfold ledBlink
    split
    · exact h
    · exact fun _ => Or.inr rfl

private theorem hosts_dark (c) (hs : List Host) (l) (h : DarkInv c l) :
    DarkInv c (hs.foldl (hostCb c) l) := by
  induction hs generalizing l with
  | nil => exact h
  | cons x xs ih => exact ih _ (hostCb_dark c l x h)

private theorem step_dark (c l i) (h : DarkInv c l) : DarkInv c (ledStep c l i) := by
  refine hosts_dark c _ _ ?_
  intro h0
  rw [ledTick_pattern] at h0
  exact Or.inl (ledTick_dark c l h h0)

/-- **C16** The LED goes and stays dark: if the pattern in force after the history `pre` is 0 (NumLock
only, suspend, or nothing received), the LED is off after the next iteration and stays off until a
message requests another pattern. -/
theorem C16_led_dark (c : Cfg) (hpin : c.ledPin ∉ c.rowPins) (pre post : List In)
    (h0 : wanted (pre.flatMap (·.host)) = 0) (hne : post ≠ [])
    (hsame : ∀ j ∈ post, ∀ y ∈ j.host, requested y = none ∨ requested y = some 0)
    (hl : (run c (State.init c) (pre ++ post)).1.live) :
    pinLevel c.ledPin false (run c (State.init c) (pre ++ post)).2.flatten = false := by
  rw [reach_lit hpin, run_led _ hl, List.foldl_append]
  have hpat : (pre.foldl (ledStep c) (State.init c).led).pattern = 0 := by
    have := run_pattern c pre [] (State.init c).led rfl
    rw [List.nil_append] at this
    rw [this, h0]
  have hdark : DarkInv c (pre.foldl (ledStep c) (State.init c).led) := by
    have : ∀ (ins : List In) l, DarkInv c l → DarkInv c (ins.foldl (ledStep c) l) := by
      intro ins
      induction ins with
      | nil => exact fun l h => h
      | cons i is ih => exact fun l h => ih _ (step_dark c l i h)
    exact this _ _ (fun _ => Or.inl rfl)
  generalize pre.foldl (ledStep c) (State.init c).led = l at *
  have key : ∀ (post : List In) (l : Led), l.pattern = 0 → DarkInv c l → post ≠ [] →
      (∀ j ∈ post, ∀ y ∈ j.host, requested y = none ∨ requested y = some 0) →
      (post.foldl (ledStep c) l).lit = false := by
    intro post
    induction post with
    | nil => intro l _ _ h; exact absurd rfl h
    | cons i is ih =>
      intro l h0 hd _ hsame
      simp only [List.mem_cons, forall_eq_or_imp] at hsame
      have e : ledStep c l i = (ledTick c l).1 := by
        unfold ledStep
        exact hosts_same c 0 _ _ (by rw [ledTick_pattern]; exact h0) hsame.1
      rw [List.foldl_cons]
      have hlit : (ledStep c l i).lit = false := by rw [e]; exact ledTick_dark c l hd h0
      by_cases hn : is = []
      · subst hn; exact hlit
      · refine ih _ ?_ (step_dark c l i hd) hn hsame.2
        rw [e, ledTick_pattern]; exact h0
  exact key post l hpat hdark hne hsame

/-- The hypotheses are met: CapsLock (pattern 11111110) with 2 ticks per bit; after 3 further
iterations bit 1 is shown; the LED pin is not a row pin. -/
example :
    let c := { quickCfg with blinkTicks := 2 }
    let i : In := { idleIn with host := [.setReport 0 0 true 1 0b10] }
    c.ledPin ∉ c.rowPins ∧ requested (.setReport 0 0 true 1 0b10) = some 0b11111110 ∧
    wanted [] ≠ 0b11111110 ∧ (run c (State.init c) [i, idleIn, idleIn, idleIn]).1.live ∧
    pinLevel c.ledPin false (run c (State.init c) [i, idleIn, idleIn]).2.flatten = false ∧
    pinLevel c.ledPin false (run c (State.init c) [i, idleIn, idleIn, idleIn]).2.flatten = true := by
  decide +kernel

end Chrumm.Fw
