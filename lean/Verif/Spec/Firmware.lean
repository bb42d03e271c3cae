import Verif.Fw.Types

/-! Vocabulary for the firmware properties, in terms of observable effects only. -/

namespace Chrumm.Fw.Spec

/-- The press/release events of one key among a list of actions, in order
(`false` = press, `true` = release: the electrical level). -/
def keyEvents (key : Nat) (acts : List Act) : List Bool :=
  acts.filterMap fun
    | .event k b => if k = key then some b else none
    | _ => none

/-- Press, release, press, release, ... -/
def Alternates : List Bool → Prop := fun l => ∀ n b, l[n]? = some b → b = (n % 2 == 1)

/-- The level that the events of a key announce: that of the last event, released before any. -/
def lastLevel (events : List Bool) : Bool := events.getLast?.getD true

/-- By how much the samples equal to `b` outnumber the others. -/
def excess (b : Bool) (samples : List Bool) : Int :=
  (samples.count b : Int) - (samples.count (!b) : Int)

/-- The raw level of the key in row `r`, column `k`, scan by scan. -/
def samples (r k : Nat) (ins : List In) : List Bool := ins.map fun i => i.level r k

end Chrumm.Fw.Spec

namespace Chrumm.Fw.Spec

/-- What the host can see of a report: a keycode in one of the six slots, a modifier bit, or the
code of the consumer control. -/
inductive Item where
  | key (code : Nat)
  | mod (bit : Nat)
  | con (code : Nat)
deriving DecidableEq

/-- The in-memory report shows this item. -/
def Shows (h : Hid) : Item → Prop
  | .key code => code ≠ 0 ∧ code ∈ h.keycodes
  | .mod j => h.modifiers.getLsbD j = true
  | .con code => code ≠ 0 ∧ h.consumer = code

/-- The 32-bit usage of a keymap entry stands for this item (usage.h: page 0x07 keyboard with
modifiers 0xE0-0xE7, page 0x0C consumer). -/
def Carries (usage : Nat) : Item → Prop
  | .key code => usage / 65536 = 0x07 ∧ usage % 256 = code ∧ code ≠ 0 ∧ ¬ (0xE0 ≤ code ∧ code ≤ 0xE7)
  | .mod j => usage / 65536 = 0x07 ∧ usage % 256 = 0xE0 + j ∧ j < 8
  | .con code => usage / 65536 = 0x0C ∧ usage % 65536 = code ∧ code ≠ 0

/-- Some key of the keymap that is on one of the layers carries the item. -/
def KeyCarries (c : Cfg) (key : Nat) (x : Item) : Prop :=
  ∃ l u, (c.layers l)[key]? = some u ∧ Carries u x

end Chrumm.Fw.Spec

namespace Chrumm.Fw.Spec

/-- The encoder's rotation events among a list of actions (`true` = clockwise). -/
def rotations (acts : List Act) : List Bool :=
  acts.filterMap fun
    | .rotate b => some b
    | _ => none

/-- Clockwise minus counter-clockwise events. -/
def turns (rots : List Bool) : Int := (rots.count true : Int) - (rots.count false : Int)

/-- The A and B pins at quarter-step position `p` of the shaft: clockwise rotation goes through
11, 01, 00, 10 (the signal diagram in encoder.c:34-41). -/
def pinsAt (p : Int) : Bool × Bool :=
  if p % 4 = 0 then (true, true) else if p % 4 = 1 then (false, true)
  else if p % 4 = 2 then (false, false) else (true, false)

/-- The readings follow the shaft: between consecutive readings it moves by at most a quarter step
in either direction. `path` lists the shaft positions at the readings, `p` the previous one. -/
def Follows : Int → List Int → List In → Prop
  | _, [], [] => True
  | p, q :: path, i :: ins =>
    (q = p ∨ q = p + 1 ∨ q = p - 1) ∧ (i.encA, i.encB) = pinsAt q ∧ Follows q path ins
  | _, _, _ => False

end Chrumm.Fw.Spec

namespace Chrumm.Fw.Spec

/-- An Fn key: it has the Fn usage on one of the layers. -/
def isFn (c : Cfg) (key : Nat) : Prop :=
  (c.layers false)[key]? = some cFN ∨ (c.layers true)[key]? = some cFN

instance (c key) : Decidable (isFn c key) := by unfold isFn; infer_instance

/-- What a key event means, as seen from outside: an Fn press/release, a release, a press that types
something (calls `hid_add`), or a press that types nothing (BOOT). -/
inductive KEv where
  | fn (signal : Bool)
  | release
  | ordinary
  | boot
deriving DecidableEq

/-- The key events among some actions. -/
def kinds (c : Cfg) : List Act → List KEv
  | [] => []
  | .event key signal :: rest =>
    (if isFn c key then .fn signal
     else if signal then .release
     else match rest with
       | .add _ :: _ => .ordinary
       | _ => .boot) :: kinds c rest
  | _ :: rest => kinds c rest

/-- The press/release signals of the Fn keys. -/
def fnSignals (ks : List KEv) : List Bool :=
  ks.filterMap fun
    | .fn b => some b
    | _ => none

/-- `n` taps of the Fn key: press, release, press, release, ... (`false` = press). -/
def tapSignals (n : Nat) : List Bool := (List.replicate n [false, true]).flatten

/-- The events since the last ordinary key press. -/
def sinceOrdinary (ks : List KEv) : List KEv := (ks.reverse.takeWhile (· ≠ .ordinary)).reverse

end Chrumm.Fw.Spec

namespace Chrumm.Fw.Spec

/-- The level of an output pin after some actions: that of the last `gpio_put` to it. -/
def pinLevel (pin : Nat) (dflt : Bool) (tr : List Act) : Bool :=
  tr.foldl (fun acc a => match a with
    | .put p v => if p = pin then v else acc
    | _ => acc) dflt

/-- The LED pattern that a message from the host asks for: off when the bus is suspended; for a
keyboard LED report (interface 0, report 0, one byte) by NumLock (bit 0) and CapsLock (bit 1). -/
def requested : Host → Option Nat
  | .suspend => some 0
  | .setReport itf id isOutput size byte =>
    if itf = 0 ∧ id = 0 ∧ isOutput = true ∧ size = 1 then
      match byte.testBit 1, byte.testBit 0 with
      | false, false => some 0b00000001
      | false, true => some 0b00000000
      | true, false => some 0b11111110
      | true, true => some 0b11111111
    else none

/-- The pattern in force after some messages. -/
def wanted (hosts : List Host) : Nat := (hosts.filterMap requested).getLast?.getD 0

end Chrumm.Fw.Spec

namespace Chrumm.Fw.Spec

/-- The levels of all output pins after some actions. -/
def levels (lev : Nat → Bool) : List Act → Nat → Bool
  | [] => lev
  | .put p v :: rest => levels (fun q => if q = p then v else lev q) rest
  | _ :: rest => levels lev rest

/-- Whenever a column is read for row `r`, row `r` is low and every other row is high. -/
def ScanOk (rowPins : List Nat) (lev : Nat → Bool) : List Act → Prop
  | [] => True
  | .put p v :: rest => ScanOk rowPins (fun q => if q = p then v else lev q) rest
  | .get r _ :: rest =>
    (∀ r' pin, rowPins[r']? = some pin → lev pin = decide (r' ≠ r)) ∧ ScanOk rowPins lev rest
  | _ :: rest => ScanOk rowPins lev rest

/-- The switches (row, column) that are read, in order. -/
def reads (tr : List Act) : List (Nat × Nat) :=
  tr.filterMap fun
    | .get r k => some (r, k)
    | _ => none

end Chrumm.Fw.Spec

namespace Chrumm.Fw.Spec

/-- The actions of an iteration after the key scan, i.e. after the last write to a row pin. -/
def afterScan (rowPins : List Nat) (tr : List Act) : List Act :=
  (tr.reverse.takeWhile fun
    | .put p _ => !rowPins.contains p
    | _ => true).reverse

/-- The calls of `hid_add` and `hid_remove`. -/
def hidCalls (tr : List Act) : List Act :=
  tr.filter fun
    | .add _ => true
    | .remove _ => true
    | _ => false

/-- The usage of the rotation event of an iteration, `kNONE` (usage.h:13) if there is none. -/
def turned (c : Cfg) (tr : List Act) : Nat :=
  match rotations tr with
  | [true] => c.cw
  | [false] => c.ccw
  | _ => kNONE

/-- What should happen: idle until a rotation, add its usage, nothing for `keypressTicks` further
iterations (whatever is rotated), then remove that usage, in the same iteration possibly adding the
next. Argument: the held usage and the remaining time; the usages rotated, iteration by iteration. -/
def virtualKey (c : Cfg) : Option (Nat × Nat) → List Nat → List (List Act)
  | _, [] => []
  | some (u, n + 1), _ :: rest => [] :: virtualKey c (some (u, n)) rest
  | some (u, 0), v :: rest =>
    if v = kNONE then [.remove u] :: virtualKey c none rest
    else [.remove u, .add v] :: virtualKey c (some (v, c.keypressTicks)) rest
  | none, v :: rest =>
    if v = kNONE then [] :: virtualKey c none rest
    else [.add v] :: virtualKey c (some (v, c.keypressTicks)) rest

/-- add u1, remove u1, add u2, remove u2, ... -/
def Paired : List Act → Prop
  | [] => True
  | [.add _] => True
  | .add u :: .remove v :: rest => u = v ∧ Paired rest
  | _ => False

end Chrumm.Fw.Spec
