import Verif.Part.Bumper
import Verif.Part.Wall

/-! `floor.py`: `_naiveOffset2D`. -/

namespace Chrumm.Part
open Geo

noncomputable section
open Classical

/-- `Segment.magnitude2D`, segment.py:20-21. -/
def segMagnitude2D (s : Segment) : ℝ := (s.a - s.b).magnitude2D

/-- `middle`, floor.py:241-243. -/
def connectMiddle (seg0 seg1 : Segment) : Option Vec → Py Vec
  | some m => pure m
  | none => (seg0.b + seg1.a).div 2

/-- The body of the loop of `connect`, floor.py:238-245. The segments are changed in place; if there is only one of them,
both names mean the same. -/
def connectStep (ss : List Segment) (i : ℕ) : Py (List Segment) := do
  let k := (i + ss.length - 1) % ss.length
  let seg0 := ss.getD k ⟨0, 0⟩
  let seg1 := ss.getD i ⟨0, 0⟩
  let r ← seg0.intersect2D seg1 2
  let middle ← connectMiddle seg0 seg1 r
  pure ((ss.modify k fun s => { s with b := middle }).modify i fun s => { s with a := middle })

/-- `connect`, floor.py:236-245. -/
def connect (ss : List Segment) : Py (List Segment) := (List.range ss.length).foldlM connectStep ss

/-- The start of floor.py:250-254: all sides are moved, but the last one stays if the polygon is open. -/
def offsetSides (edge : List Vec) (distance : ℝ) (isClosed : Bool) : Py (List Segment) := do
  let segments := toSegments edge true
  let offset ← segments.mapM fun s => s.offset2D distance
  match isClosed with
  | true => pure offset
  | false => do
    let last ← pyIndex segments (-1)
    let stay ← last.offset2D 0
    pure (offset.dropLast ++ [stay])

/-- `isTooClose`, floor.py:265-269. -/
def isTooClose (segments : List Segment) (distance : ℝ) (s : Segment) : Bool :=
  segments.any fun t => decide (t.distance2D s.a < |distance| - 1 / 1000000)

/-- `startIndex`, floor.py:263-272. -/
def offsetStart (segments offset : List Segment) (distance : ℝ) : ℕ :=
  (offset.findIdx? fun s => !isTooClose segments distance s).getD 0

/-- `l[i:] + l[:i]`. -/
def rotateAt {α : Type} (l : List α) (i : ℕ) : List α := l.drop i ++ l.take i

/-- The loop over `j`, floor.py:282-289: the position, its squared distance and the index of the nearest cut so far, where
`k` is the index of the next candidate. -/
def nearestCut (segment : Segment) : ℕ → List Segment → Option (ℝ × ℕ × Vec) → Py (Option (ℝ × ℕ × Vec))
  | _, [], best => pure best
  | k, c :: cs, best => do
    let pos ← segment.intersect2D c
    match pos with
    | none => nearestCut segment (k + 1) cs best
    | some p =>
      let dist := (p - segment.a).magSquared
      match best with
      | none => nearestCut segment (k + 1) cs (some (dist, k, p))
      | some b => if dist < b.1 then nearestCut segment (k + 1) cs (some (dist, k, p)) else nearestCut segment (k + 1) cs best

/-- `offset[i+1].a = cutPos`, floor.py:293. -/
def setStart (pos : Vec) : List Segment → List Segment
  | [] => []
  | s :: ss => { s with a := pos } :: ss

theorem setStart_length (pos : Vec) (ss : List Segment) : (setStart pos ss).length = ss.length := by
  cases ss <;> rfl

/-- The loop of floor.py:275-294, from the segment `i` on. The candidates start two segments later, and end before the last
one if this is the first segment. -/
def cutLoops (isFirst : Bool) : List Segment → Py (List Segment)
  | [] => pure []
  | s :: tail => do
    let candidates := (if isFirst then tail.dropLast else tail).drop 1
    let cut ← nearestCut s 1 candidates none
    match cut with
    | none => do
      let rest ← cutLoops false tail
      pure (s :: rest)
    | some (_, k, pos) => do
      let rest ← cutLoops false (setStart pos (tail.drop k))
      pure ({ s with b := pos } :: rest)
termination_by ss => ss.length
decreasing_by
  · simp
  · rw [setStart_length, List.length_drop, List.length_cons]; omega

/-- `distances.index(min(distances))`, floor.py:301-302. -/
def nearestIndex (distances : List ℝ) : Py ℕ := do
  let m ← pyMin distances
  pure (distances.idxOf m)

/-- `_naiveOffset2D`, floor.py:228-305, with the default `minSegLength`. -/
def naiveOffset2D (edge : List Vec) (distance : ℝ) (isClosed : Bool := false) : Py (List Vec) :=
  if |distance| < 1 / 1000000 then pure edge
  else do
    let segments := toSegments edge true
    let offset ← offsetSides edge distance isClosed
    let offset ← connect offset
    let offset := rotateAt offset (offsetStart segments offset distance)
    let offset ← cutLoops true offset
    let offset ← connect (offset.filter fun s => decide (segMagnitude2D s ≥ 1 / 1000))
    let index ← nearestIndex (offset.map fun s => (s.a - edge.headD 0).magSquared)
    pure ((rotateAt offset index).map Segment.a)

end

end Chrumm.Part
