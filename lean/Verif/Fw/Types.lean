/-! State of the keyboard firmware (`firmware/chrumm`).

The C program keeps its state in file- and function-scope `static` variables; `State` collects
them. Calls into the SDK and into TinyUSB are recorded as actions `Act`, or are oracles carried by
the inputs `In`. -/

namespace Chrumm.Fw

/-- `#define kNONE` usage.h:13. -/
def kNONE : Nat := 0x070000
/-- `#define kBOOT` usage.h:7. -/
def kBOOT : Nat := 0x000000
/-- `#define cFN` usage.h:186. -/
def cFN : Nat := 0x0C0097

/-- The build-time configuration, config.h:9-54. `layers false` is `MATRIX_BASE_LAYER`,
`layers true` is `MATRIX_FN_LAYER` (matrix.c:112-114). -/
structure Cfg where
  rows : Nat
  cols : Nat
  rowPins : List Nat
  ledPin : Nat
  debounceTicks : Nat
  layers : Bool → List Nat
  fnKeyTaps : Nat
  bootKeyTaps : Nat
  ccw : Nat
  cw : Nat
  keypressTicks : Nat
  blinkTicks : Nat

/-- What the C compiler enforces: array sizes (matrix.c:11, 81, 112) and the static assertion
`MATRIX_DEBOUNCE_TICKS <= UINT8_MAX/2` (matrix.c:9). A debounce length of 0 is excluded. -/
structure Cfg.WF (c : Cfg) : Prop where
  pins : c.rowPins.length = c.rows
  layers : ∀ l, (c.layers l).length = c.rows * c.cols
  deb_pos : 1 ≤ c.debounceTicks
  deb_le : c.debounceTicks ≤ 127

/-- Static variables of hid.c:7-12. `keycodes` is the C array `uint8_t keycodes[6]`. -/
structure Hid where
  keycodes : List Nat
  modifiers : BitVec 8
  consumer : Nat
  kbStale : Bool
  conStale : Bool
deriving DecidableEq

/-- Static variables of `report` in matrix.c:116-118. -/
structure Keys where
  layer : Bool
  fnTaps : Nat
  bootTaps : Nat
deriving DecidableEq

/-- Static variables of encoder.c:60 (`state`) and encoder.c:76-77 (`current`, `timeout`). -/
structure Enc where
  dec : Nat
  current : Nat
  timeout : Nat
deriving DecidableEq

/-- Static variables of led.c:6-8 and led.c:20. -/
structure Led where
  pattern : Nat
  index : Nat
  ticks : Nat
  lit : Bool
deriving DecidableEq

/-- The whole program state. `deb` is `states` of matrix.c:81. `halted` is set by
`reset_usb_boot`, which does not return; `ub` is set by an out-of-bounds array access. -/
structure State where
  deb : List Nat
  keys : Keys
  hid : Hid
  enc : Enc
  led : Led
  halted : Bool
  ub : Bool
deriving DecidableEq

/-- Observable effects, plus the ghost actions `event` (a call of `report` in matrix.c:102) and
`rotate` (an encoder event, encoder.c:65-67). -/
inductive Act where
  | put (pin : Nat) (v : Bool)          -- gpio_put
  | get (r c : Nat)                     -- gpio_get(colPins[c]) while scanning row r
  | event (key : Nat) (signal : Bool)
  | rotate (isCw : Bool)
  | add (usage : Nat)                   -- call of hid_add
  | remove (usage : Nat)                -- call of hid_remove
  | wakeup                              -- tud_remote_wakeup
  | boot                                -- reset_usb_boot
  | kbReport (mods : BitVec 8) (codes : List Nat) (accepted : Bool)
  | conReport (code : Nat) (accepted : Bool)
deriving DecidableEq

/-- Callbacks that TinyUSB makes from `tud_task` (hid.c:125-137, usb.c:146-171). -/
inductive Host where
  | setReport (itf id : Nat) (isOutput : Bool) (size : Nat) (byte0 : Nat)
  | suspend
deriving DecidableEq

/-- Everything the environment decides during one iteration of the main loop. -/
structure In where
  /-- `gpio_get(colPins[c])` while row `r` is scanned -/
  level : Nat → Nat → Bool
  /-- `tud_suspended()` when the event of key (r, c) is handled -/
  susp : Nat → Nat → Bool
  encA : Bool
  encB : Bool
  encSusp : Bool
  kbReady : Bool
  kbAccept : Bool
  conReady : Bool
  conAccept : Bool
  host : List Host

/-- Zero/auto-initialised statics: hid.c:7-12, matrix.c:81, 116-118, encoder.c:60, 76-77,
led.c:6-8, 20. -/
def State.init (c : Cfg) : State where
  deb := List.replicate (c.rows * c.cols) 0
  keys := { layer := false, fnTaps := 0, bootTaps := 0 }
  hid := { keycodes := [0, 0, 0, 0, 0, 0], modifiers := 0, consumer := 0,
           kbStale := false, conStale := false }
  enc := { dec := 0b011, current := kNONE, timeout := 0 }
  led := { pattern := 0, index := 0, ticks := c.blinkTicks, lit := false }
  halted := false
  ub := false

end Chrumm.Fw
