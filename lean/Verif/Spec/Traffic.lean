import Verif.Fw.Model

/-! Specification for C104: which actions are reports on one of the two USB interfaces, and which
calls of the HID functions concern that interface. -/

namespace Chrumm.Fw.Spec

/-- The two USB interfaces. -/
inductive Itf where
  | keyboard
  | consumer

/-- The usage page of the interface. -/
def Itf.page : Itf → Nat
  | .keyboard => 0x07
  | .consumer => 0x0C

/-- The action offers a report to the USB stack on the interface. -/
def Itf.offers : Itf → Act → Bool
  | .keyboard, .kbReport _ _ _ => true
  | .consumer, .conReport _ _ => true
  | _, _ => false

/-- The USB stack accepted a report on the interface. -/
def Itf.sent : Itf → Act → Bool
  | .keyboard, .kbReport _ _ accepted => accepted
  | .consumer, .conReport _ accepted => accepted
  | _, _ => false

/-- A usage of the interface's page is pressed or released. -/
def Itf.call (t : Itf) : Act → Prop
  | .add u => u / 65536 = t.page
  | .remove u => u / 65536 = t.page
  | _ => False

end Chrumm.Fw.Spec
