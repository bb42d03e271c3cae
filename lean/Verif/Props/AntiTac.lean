import Verif.Props.Pieces
import Mathlib.Tactic.Linarith

/-! A tactic for sums of an antisymmetric function. It only builds ordinary proof terms. -/

namespace Chrumm.Part
open Lean Elab Tactic Meta

/-- `anti hg`, for `hg : Anti g`, adds `g a b = -g b a` for all `a` and `b` whose `g a b` and `g b a` occur in the goal or a
local hypothesis, and closes the goal by `linarith`. -/
elab "anti " h:ident : tactic => withMainContext do
  let hg ← elabTerm h none
  let ty ← instantiateMVars (← inferType hg)
  let g := ty.appArg!
  let goal ← instantiateMVars (← getMainTarget)
  let mut all := #[goal]
  for d in ← getLCtx do
    unless d.isImplementationDetail do
      all := all.push (← instantiateMVars d.type)
  let found : IO.Ref (Array (Expr × Expr)) ← IO.mkRef #[]
  for e in all do
    e.forEach fun s => do
      if s.isApp && s.appFn!.isApp && s.appFn!.appFn! == g then
        let a := s.appFn!.appArg!
        let b := s.appArg!
        unless a.hasLooseBVars || b.hasLooseBVars do
          let arr ← found.get
          unless arr.contains (a, b) do found.set (arr.push (a, b))
  let arr ← found.get
  let mut done : Array (Expr × Expr) := #[]
  let mut mv ← getMainGoal
  for (a, b) in arr do
    if arr.contains (b, a) && !done.contains (b, a) then
      done := done.push (a, b)
      let pf ← mkAppM ``Geo.Anti.swap #[hg, a, b]
      let (_, m) ← (← mv.assert `sw (← inferType pf) pf).intro1
      mv := m
  replaceMainGoal [mv]
  evalTactic (← `(tactic| linarith))

end Chrumm.Part
