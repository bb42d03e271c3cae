import Verif.Part.Key

/-! `layout.py`: the arrangement of the keys. -/

namespace Chrumm.Part
open Geo

noncomputable section
open Classical

/-- Python's `l[i]` for `i ≥ 0`. -/
def pyGet {α : Type} (l : List α) (i : ℕ) : Py α :=
  match l[i]? with
  | some x => .ok x
  | none => .error .indexError

/-- Python's `l[index]` with a possibly negative index. -/
def pyIndex {α : Type} (l : List α) (index : ℤ) : Py α :=
  if 0 ≤ index then pyGet l index.toNat
  else if 0 ≤ index + l.length then pyGet l (index + l.length).toNat
  else .error .indexError

/-- The side of the keyboard. `Option Side` is the `side` argument of the accessors: `none` is "both". -/
inductive Side where
  | left
  | right
deriving DecidableEq

/-- The rows of one half: in each row the alnum (0) and the pinky group (1). -/
abbrev Half := List (List (List (Option Key)))

/-- `Layout`, layout.py:14-18. Each key object occurs once, so that changing a key is changing it at its place. -/
structure Layout where
  fingersL : Half
  fingersR : Half
  thumbL : List Key
  thumbR : List Key

namespace Layout

/-- `_halves`, layout.py:123-129. -/
def halves (l : Layout) (side : Option Side) : List Half :=
  (if side ≠ some .left then [l.fingersR] else []) ++ (if side ≠ some .right then [l.fingersL] else [])

/-- `row[group]` raises if the row has no such group. -/
def rowGroup (row : List (List (Option Key))) (group : ℕ) : Py (List (Option Key)) := pyIndex row group

/-- `_group`, layout.py:131-135. -/
def groupKeys (l : Layout) (group : ℕ) (side : Option Side) : Py (List Key) := do
  let keys ← (l.halves side).mapM fun half => do
    let rows ← half.mapM fun row => rowGroup row group
    pure (rows.flatten.filterMap id)
  pure keys.flatten

/-- `_col`, layout.py:137-141. -/
def colKeys (l : Layout) (group : ℕ) (index : ℤ) (side : Option Side) : Py (List Key) := do
  let keys ← (l.halves side).mapM fun half => do
    let col ← half.mapM fun row => do
      let g ← rowGroup row group
      pyIndex g index
    pure (col.filterMap id)
  pure keys.flatten

/-- `_perCol`, layout.py:143-149. -/
def perCol (l : Layout) (group : ℕ) (index : ℤ) (side : Option Side) : Py (List Key) := do
  let keys ← (l.halves side).mapM fun half => do
    let row ← pyIndex half 0
    let g ← rowGroup row group
    (List.range g.length).mapM fun (c : ℕ) => do
      let col ← l.colKeys group c side
      pyIndex col index
  pure keys.flatten

/-- layout.py:90-106. -/
def alnum (l : Layout) (side : Option Side := none) : Py (List Key) := l.groupKeys 0 side
def pinky (l : Layout) (side : Option Side := none) : Py (List Key) := l.groupKeys 1 side
def alnumCol (l : Layout) (index : ℤ) (side : Option Side := none) : Py (List Key) := l.colKeys 0 index side
def perAlnumCol (l : Layout) (index : ℤ) (side : Option Side := none) : Py (List Key) := l.perCol 0 index side
def perPinkyCol (l : Layout) (index : ℤ) (side : Option Side := none) : Py (List Key) := l.perCol 1 index side

/-- `thumb`, layout.py:114-120. A key is truthy. -/
def thumb (l : Layout) (side : Option Side := none) : List Key :=
  (if side ≠ some .left then l.thumbR else []) ++ (if side ≠ some .right then l.thumbL else [])

/-- `all`, layout.py:87-88. -/
def all (l : Layout) (side : Option Side := none) : Py (List Key) := do
  let a ← l.alnum side
  let p ← l.pinky side
  pure (a ++ p ++ l.thumb side)

/-- Python's `max(l, key=...)`: the first of the greatest. -/
def maxBy {α β : Type} (lt : β → β → Prop) (key : α → β) : List α → Py α
  | [] => .error .valueError
  | a :: l => .ok (l.foldl (fun m x => if lt (key m) (key x) then x else m) a)

/-- Python's `min(l, key=...)`: the first of the least. -/
def minBy {α β : Type} (lt : β → β → Prop) (key : α → β) : List α → Py α
  | [] => .error .valueError
  | a :: l => .ok (l.foldl (fun m x => if lt (key x) (key m) then x else m) a)

/-- `maxAlnum`, layout.py:108-109. -/
def maxAlnum (l : Layout) (side : Option Side := none) : Py Key := do
  let keys ← l.alnum side
  maxBy Vec.lt Key.position keys

/-- `minPinky`, layout.py:111-112. -/
def minPinky (l : Layout) (side : Option Side := none) : Py Key := do
  let keys ← l.pinky side
  minBy Vec.lt Key.position keys

/-- `for key in layout.alnum(): key.…`: changes the keys of a group of both halves. -/
def mapGroup (l : Layout) (group : ℕ) (f : Key → Key) : Layout :=
  let g : Half → Half := fun half => half.map fun row => row.modify group fun keys => keys.map (Option.map f)
  { l with fingersL := g l.fingersL, fingersR := g l.fingersR }

/-- `for key in layout.thumb(): key.…`. -/
def mapThumb (l : Layout) (f : Key → Key) : Layout := { l with thumbL := l.thumbL.map f, thumbR := l.thumbR.map f }

/-- `for key in layout.all(): key.…`. -/
def mapAll (l : Layout) (f : Key → Key) : Layout := ((l.mapGroup 0 f).mapGroup 1 f).mapThumb f

end Layout

/-- The list of the stagger's numbers, layout.py:53-54. -/
def Stagger.toList : Stagger → List ℝ
  | .num y => [y]
  | .list l => l

/-- The key of a stagger, layout.py:51-63. -/
def fingerKey (cfg : LayoutCfg) (factory : KeyFactory) (sign : ℝ) (row col : ℕ) (stagger : Stagger) : Option Key :=
  let pos (dx dy : ℝ) : Vec := ⟨col * cfg.columnPitch + dx, -row * cfg.rowPitch + dy, 0⟩
  let key (v : Vec) : Key := (Key.make cfg factory 1).translate v
  match stagger.toList with
  | [] => none
  | [y] => some (key (pos 0 y))
  | x :: y :: _ => some (key (pos (x * sign) y))

/-- The groups of a row, layout.py:45-66. -/
def fingerGroups (cfg : LayoutCfg) (factory : KeyFactory) (sign : ℝ) (row : ℕ) :
    ℕ → List (List Stagger) → List (List (Option Key))
  | _, [] => []
  | col, group :: groups =>
    group.mapIdx (fun i s => fingerKey cfg factory sign row (col + i) s) ::
      fingerGroups cfg factory sign row (col + group.length) groups

/-- `initFingers`, layout.py:40-67. -/
def initFingers (cfg : LayoutCfg) (factory : KeyFactory) (side : Side) : Half :=
  cfg.fingerStaggers.mapIdx fun row groups =>
    match side with
    | .right => fingerGroups cfg factory 1 row 0 (groups.drop 2)
    | .left => fingerGroups cfg factory (-1) row 0 ((groups.reverse.drop 2).map List.reverse)

/-- The loop of `initThumb`, layout.py:80-85. -/
def thumbLoop (cfg : LayoutCfg) (factory : KeyFactory) : List (ℝ × ℝ) → Vec → List Key → List Key
  | [], _, target => target
  | (unit, angle) :: rest, pivotPos, target =>
    let key := (Key.make cfg factory unit).transform ((1 : Mat).rotatedZ (angle * Real.pi / 180))
    let key := key.translate (pivotPos - key.capPivotR)
    thumbLoop cfg factory rest key.capPivotL (key :: target)

/-- `initThumb`, layout.py:72-85. -/
def initThumb (cfg : LayoutCfg) (factory : KeyFactory) (l : Layout) (side : Side) : Py (List Key) := do
  let index : ℤ := match side with | .left => 0 | .right => 1
  let order (vs : List ℝ) : List ℝ := match side with | .left => vs | .right => vs.reverse
  let units ← pyIndex cfg.thumbUnits index
  let angles ← pyIndex cfg.thumbAngles index
  let offset ← pyIndex cfg.thumbOffsets index
  let col ← l.alnumCol (-1) (some side)
  let startKey ← pyIndex col (-1)
  let offset0 ← pyIndex offset 0
  let offset1 ← pyIndex offset 1
  let pivotPos := startKey.capPivotR - ⟨offset0, cfg.rowPitch + offset1, 0⟩
  pure (thumbLoop cfg factory ((order units).zip (order angles)) pivotPos [])

/-- The sanity check of the finger staggers, layout.py:30-33. -/
def staggersOk (staggers : List (List (List Stagger))) : Prop :=
  ∀ row ∈ staggers, row.length = 4 ∧ ∀ i < 4, (row[i]?).map List.length = ((staggers.headD [])[i]?).map List.length

/-- The sanity check of the thumb keys, layout.py:34-38. -/
def thumbsOk (cfg : LayoutCfg) : Prop :=
  cfg.thumbUnits.length = 2 ∧ cfg.thumbAngles.length = 2 ∧
  (cfg.thumbUnits[0]?).map List.length = (cfg.thumbAngles[0]?).map List.length ∧
  (cfg.thumbUnits[1]?).map List.length = (cfg.thumbAngles[1]?).map List.length

/-- `Layout.__init__`, layout.py:14-88. -/
def Layout.make (cfg : LayoutCfg) (switch : SwitchCfg) (roofThickness : ℝ) : Py Layout := do
  let factory ← KeyFactory.make switch roofThickness
  if ¬ staggersOk cfg.fingerStaggers then .error .valueError
  else if ¬ thumbsOk cfg then .error .valueError
  else do
    let fingers : Layout := ⟨initFingers cfg factory .left, initFingers cfg factory .right, [], []⟩
    let thumbL ← initThumb cfg factory fingers .left
    let thumbR ← initThumb cfg factory fingers .right
    pure { fingers with thumbL := thumbL, thumbR := thumbR }

end

end Chrumm.Part
