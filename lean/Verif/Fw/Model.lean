import Verif.Fw.Types

/-! The firmware's functions, one by one. -/

namespace Chrumm.Fw

/-! ### hid.c -/

/-- hid.c:64-74: the loops over the six slots for a free one (`keycodes[i] == 0`). -/
def fillSlot (code : Nat) : List Nat → Option (List Nat)
  | [] => none
  | x :: xs => if x = 0 then some (code :: xs) else (fillSlot code xs).map (x :: ·)

/-- hid.c:90-97: the loop that clears the first slot holding the code. -/
def clearSlot (code : Nat) : List Nat → Option (List Nat)
  | [] => none
  | x :: xs => if x = code then some (0 :: xs) else (clearSlot code xs).map (x :: ·)

/-- `addKeycode(uint8_t code)`, hid.c:55-76. Line 60 *assigns* the stale flag. -/
def addKeycode (h : Hid) (code : Nat) : Hid :=
  if 0xE0 ≤ code ∧ code ≤ 0xE7 then
    let m := h.modifiers ||| (1#8 <<< (code - 0xE0))
    { h with modifiers := m, kbStale := decide (m ≠ h.modifiers) }
  else if code ∈ h.keycodes then h
  else match fillSlot code h.keycodes with
    | some ks => { h with keycodes := ks, kbStale := true }
    | none => h

/-- `removeKeycode(uint8_t code)`, hid.c:79-98. Line 87 *assigns* the stale flag. -/
def removeKeycode (h : Hid) (code : Nat) : Hid :=
  if code = 0 then h
  else if 0xE0 ≤ code ∧ code ≤ 0xE7 then
    let m := h.modifiers &&& ~~~(1#8 <<< (code - 0xE0))
    { h with modifiers := m, kbStale := decide (m ≠ h.modifiers) }
  else match clearSlot code h.keycodes with
    | some ks => { h with keycodes := ks, kbStale := true }
    | none => h

/-- `addConsumer(uint16_t code)`, hid.c:101-108. -/
def addConsumer (h : Hid) (code : Nat) : Hid :=
  if h.consumer = code then h else { h with consumer := code, conStale := true }

/-- `hid_add(uint32_t usage)`, hid.c:32-43. The argument conversions to `uint8_t`/`uint16_t` are
the reductions mod 256 and mod 65536; `susp` is the result of `tud_suspended()`. -/
def hidAdd (h : Hid) (usage : Nat) (susp : Bool) : Hid × List Act :=
  if susp then (h, [.add usage, .wakeup])
  else if usage / 65536 = 0x07 then (addKeycode h (usage % 256), [.add usage])
  else if usage / 65536 = 0x0C then (addConsumer h (usage % 65536), [.add usage])
  else (h, [.add usage])

/-- `hid_remove(uint32_t usage)`, hid.c:46-52. -/
def hidRemove (h : Hid) (usage : Nat) : Hid × List Act :=
  if usage / 65536 = 0x07 then (removeKeycode h (usage % 256), [.remove usage])
  else if usage / 65536 = 0x0C then (addConsumer h 0, [.remove usage])
  else (h, [.remove usage])

/-- `hid_tick`, hid.c:22-29. `kbReady`, `conReady` are `tud_hid_n_ready`; `kbAccept`, `conAccept`
the results of the report functions. -/
def hidTick (h : Hid) (i : In) : Hid × List Act :=
  let (h, a) :=
    if h.kbStale && i.kbReady then
      ({ h with kbStale := !i.kbAccept }, [Act.kbReport h.modifiers h.keycodes i.kbAccept])
    else (h, [])
  let (h, b) :=
    if h.conStale && i.conReady then
      ({ h with conStale := !i.conAccept }, [Act.conReport h.consumer i.conAccept])
    else (h, [])
  (h, a ++ b)

/-! ### matrix.c -/

/-- `report(uint key, bool signal)`, matrix.c:110-148. `signal` is the electrical level:
`false` = pressed, `true` = released. The unsigned counters are not wrapped: C103 proves
that they never get far enough. -/
def report (c : Cfg) (s : State) (key : Nat) (signal susp : Bool) : State × List Act :=
  match (c.layers s.keys.layer)[key]?, (c.layers (!s.keys.layer))[key]? with
  | some active, some inactive =>
    if active = cFN ∨ inactive = cFN then
      if signal then
        let k := s.keys
        let k := if k.fnTaps ≠ c.fnKeyTaps then { k with layer := false } else k
        let k := if k.fnTaps > c.fnKeyTaps then { k with fnTaps := 0 } else k
        ({ s with keys := k }, [])
      else
        ({ s with keys := { s.keys with fnTaps := s.keys.fnTaps + 1, layer := true } }, [])
    else if signal then
      let (h, a) := hidRemove s.hid active
      let (h, b) := hidRemove h inactive
      ({ s with hid := h }, a ++ b)
    else if active = kBOOT then
      let taps := s.keys.bootTaps + 1
      if taps ≥ c.bootKeyTaps then
        ({ s with keys := { s.keys with bootTaps := taps }, halted := true }, [.boot])
      else
        ({ s with keys := { s.keys with bootTaps := taps } }, [])
    else
      let (h, a) := hidAdd s.hid active susp
      ({ s with hid := h, keys := { s.keys with fnTaps := 0, bootTaps := 0 } }, a)
  | _, _ => ({ s with ub := true }, [])

/-- The byte arithmetic of `debounce`, matrix.c:92-106, on one `uint8_t`: the new byte, and whether
`report` is called. `state += 2` wraps modulo 256 as in C. -/
def debByte (ticks : Nat) (state : Nat) (signal : Bool) : Nat × Bool :=
  let state :=
    if signal.toNat = state % 2 then (state + 2) % 256
    else if state ≥ 2 then state - 2
    else state
  if state ≥ ticks * 2 then ((!signal).toNat, true) else (state, false)

/-- `debounce(uint key, bool signal)`, matrix.c:63-107. If `report` resets into the bootloader, it
does not return and the state byte is not written back. -/
def debounce (c : Cfg) (s : State) (key : Nat) (signal susp : Bool) : State × List Act :=
  match s.deb[key]? with
  | none => ({ s with ub := true }, [])
  | some state =>
    match debByte c.debounceTicks state signal with
    | (st, true) =>
      let (s, a) := report c s key signal susp
      if s.halted ∨ s.ub then (s, .event key signal :: a)
      else ({ s with deb := s.deb.set key st }, .event key signal :: a)
    | (st, false) => ({ s with deb := s.deb.set key st }, [])

/-! ### encoder.c -/

/-- `next`, encoder.c:49-56. -/
def encNext : List Nat :=
  [0b000, 0b001, 0b010, 0b000,
   0b000, 0b001, 0b001, 0b011,
   0b000, 0b010, 0b010, 0b011,
   0b011, 0b101, 0b010, 0b011,
   0b100, 0b101, 0b110, 0b100,
   0b100, 0b101, 0b101, 0b011,
   0b100, 0b110, 0b110, 0b011]

/-- `report(uint32_t usage)`, encoder.c:74-93. -/
def encReport (c : Cfg) (e : Enc) (h : Hid) (usage : Nat) (susp : Bool) :
    Enc × Hid × List Act :=
  if e.timeout ≠ 0 then ({ e with timeout := e.timeout - 1 }, h, [])
  else
    let (e, h, a) :=
      if e.current ≠ kNONE then
        let (h, a) := hidRemove h e.current
        ({ e with current := kNONE }, h, a)
      else (e, h, [])
    if usage ≠ kNONE then
      let (h, b) := hidAdd h usage susp
      ({ e with current := usage, timeout := c.keypressTicks }, h, a ++ b)
    else (e, h, a)

/-- `encoder_tick`, encoder.c:25-71; the shifts are on a `uint8_t`. -/
def encoderTick (c : Cfg) (s : State) (i : In) : State × List Act :=
  let st := (s.enc.dec * 2 % 256 ||| i.encA.toNat)
  let st := (st * 2 % 256 ||| i.encB.toNat)
  let (usage, ev) :=
    if st = 0b00111 then (c.ccw, [Act.rotate false])
    else if st = 0b11011 then (c.cw, [Act.rotate true])
    else (kNONE, [])
  let (e, h, a) := encReport c s.enc s.hid usage i.encSusp
  match encNext[st]? with
  | some n => ({ s with enc := { e with dec := n }, hid := h }, ev ++ a)
  | none => ({ s with enc := e, hid := h, ub := true }, ev ++ a)

/-! ### led.c -/

/-- `led_tick`, led.c:18-33. -/
def ledTick (c : Cfg) (l : Led) : Led × List Act :=
  if l.pattern = 0 ∧ l.lit = false then (l, [])
  else
    let ticks := l.ticks + 1
    if ticks < c.blinkTicks then ({ l with ticks := ticks }, [])
    else
      let index := (l.index + 1) &&& 0b111
      let lit := l.pattern.testBit index
      ({ l with ticks := 0, index := index, lit := lit }, [.put c.ledPin lit])

/-- `led_blink`, led.c:36-44. -/
def ledBlink (c : Cfg) (l : Led) (pattern : Nat) : Led :=
  if pattern = l.pattern then l
  else { l with pattern := pattern, ticks := c.blinkTicks, index := 7 }

/-- `tud_hid_set_report_cb`, hid.c:125-137 and `tud_suspend_cb`, usb.c:146-171. `ITF_KEYBOARD` is 0
(usb.h:17). -/
def hostCb (c : Cfg) (l : Led) : Host → Led
  | .suspend => ledBlink c l 0
  | .setReport itf id isOutput size byte0 =>
    if itf = 0 ∧ id = 0 ∧ isOutput = true ∧ size = 1 then
      if byte0 % 4 = 0b00 then ledBlink c l 0b00000001
      else if byte0 % 4 = 0b01 then ledBlink c l 0b00000000
      else if byte0 % 4 = 0b10 then ledBlink c l 0b11111110
      else ledBlink c l 0b11111111
    else l

/-! ### main.c -/

/-- The atomic steps that one iteration of the main loop is made of. -/
inductive Micro where
  | rowPut (r : Nat) (v : Bool)
  | sample (r c : Nat)
  | encoder
  | hid
  | led
  | host (h : Host)

/-- One atomic step. After `reset_usb_boot` (or undefined behaviour) nothing more happens. -/
def micro (c : Cfg) (i : In) (s : State) (m : Micro) : State × List Act :=
  if s.halted ∨ s.ub then (s, [])
  else match m with
    | .rowPut r v =>                       -- matrix.c:49, 58
      match c.rowPins[r]? with
      | some pin => (s, [.put pin v])
      | none => ({ s with ub := true }, [])
    | .sample r k =>                       -- matrix.c:53-55
      let (s, a) := debounce c s (r * c.cols + k) (i.level r k) (i.susp r k)
      (s, .get r k :: a)
    | .encoder => encoderTick c s i        -- main.c:38
    | .hid =>                              -- main.c:39
      let (h, a) := hidTick s.hid i
      ({ s with hid := h }, a)
    | .led =>                              -- main.c:40
      let (l, a) := ledTick c s.led
      ({ s with led := l }, a)
    | .host h => ({ s with led := hostCb c s.led h }, [])   -- main.c:41

/-- `matrix_tick`, matrix.c:41-60: for each row, pull it low, read all columns, pull it high. -/
def matrixTick (c : Cfg) : List Micro :=
  (List.range c.rows).flatMap fun r =>
    Micro.rowPut r false :: ((List.range c.cols).map fun k => Micro.sample r k) ++
      [Micro.rowPut r true]

/-- The loop body, main.c:37-41: `matrix_tick(); encoder_tick(); hid_tick(); led_tick();
tud_task();`. The watchdog and the sleep have no effect on the state. -/
def program (c : Cfg) (i : In) : List Micro :=
  matrixTick c ++ [.encoder, .hid, .led] ++ i.host.map .host

/-- Sequential execution of atomic steps. -/
def micros (c : Cfg) (i : In) : State → List Micro → State × List Act
  | s, [] => (s, [])
  | s, m :: ms =>
    let (s, a) := micro c i s m
    let (s, b) := micros c i s ms
    (s, a ++ b)

/-- One iteration of the main loop. -/
def tick (c : Cfg) (s : State) (i : In) : State × List Act := micros c i s (program c i)

/-- Any number of iterations of the main loop: the final state and, per iteration, its actions. -/
def run (c : Cfg) : State → List In → State × List (List Act)
  | s, [] => (s, [])
  | s, i :: is =>
    let (s, a) := tick c s i
    let (s, as) := run c s is
    (s, a :: as)

/-- `matrix_init`, matrix.c:26-31: all row pins are driven high. -/
def matrixInit (c : Cfg) : List Act := c.rowPins.map fun p => Act.put p true

end Chrumm.Fw
