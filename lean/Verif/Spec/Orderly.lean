import Verif.Geo.Vec

/-! How a computation may fail. -/

namespace Chrumm.Part.Spec

/-- A computation that gives a result, or rejects its input with a `ValueError`. It does not fail with any other exception. -/
def Orderly {α : Type} (x : Py α) : Prop := (∃ v, x = .ok v) ∨ x = .error .valueError

end Chrumm.Part.Spec
