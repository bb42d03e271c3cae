import Verif.Geo.Flat
import Mathlib.Data.List.Sort

/-! `edge.py`. An `Edge` is its list of vectors. -/

namespace Chrumm.Geo

noncomputable section
open Classical

/-- `sorted(...)` with `Vector.__lt__`, vector.py:38-43. Python's sort is stable; any sorting function
gives the same list because the order is total (C19). -/
def pySorted (vs : List Vec) : List Vec := vs.mergeSort fun a b => decide (¬ b < a)

/-- The inner `while` of edge.py:25-26 and 30-31. The stack is stored top first. -/
def popLoop (v : Vec) : List Vec → List Vec
  | top :: prev :: rest =>
    if ((prev - v).cross (top - v)).z ≤ 0 then popLoop v (prev :: rest) else top :: prev :: rest
  | st => st

/-- The outer loop of edge.py:24-27 and 29-32: the final `lower` (`upper`), first element first. -/
def halfHull (vs : List Vec) : List Vec := (vs.foldl (fun st v => v :: popLoop v st) []).reverse

/-- `fromConvexHull2D`, edge.py:16-34. -/
def fromConvexHull2D (vectors : List Vec) : List Vec :=
  let vectors := pySorted (vectors.map Vec.xy)
  (halfHull vectors).dropLast ++ (halfHull vectors.reverse).dropLast

/-- `toSegments`, edge.py:36-39. The indices are in range. -/
def toSegments (e : List Vec) (isClosed : Bool) : List Segment :=
  (List.range (e.length + isClosed.toNat - 1)).map fun i =>
    ⟨e.getD i 0, e.getD ((i + 1) % e.length) 0⟩

/-- `reversed`, edge.py:69-70. The other maps (edge.py:48-67, 72-82) are `List.map`. -/
def edgeReversed (e : List Vec) : List Vec := e.reverse

/-- `collapsed`, edge.py:84-86. -/
def collapsed (e : List Vec) (threshold : ℝ) : List Vec :=
  ((toSegments e true).filter fun s => decide (s.magnitude ≥ threshold)).map Segment.a

/-- The lookup table, edge.py:124-128. -/
def quadTable : List ℕ := [0, 0, 0, 1, 0, 1, 2, 3, 0, 1, 2, 3, 4, 12, 12, 3]

/-- The body of the loop of `meshPairwise`, edge.py:117-147: the triangles added for one quad. -/
def quadTriangles (a b c d : Vec) : Py (List (Tri Vec)) := do
  let abc : Tri Vec := ⟨a, b, c⟩
  let cda : Tri Vec := ⟨c, d, a⟩
  let abd : Tri Vec := ⟨a, b, d⟩
  let dbc : Tri Vec := ⟨d, b, c⟩
  let valid := (decide dbc.valid).toNat * 8 + (decide abd.valid).toNat * 4 +
    (decide cda.valid).toNat * 2 + (decide abc.valid).toNat
  let bits ← if valid = 15 then do
      let abcAngle ← (a - b).angleBetween (c - b)
      let cdaAngle ← (c - d).angleBetween (a - d)
      pure (if abcAngle + cdaAngle > Real.pi + 1e-6 then 12 else quadTable.getD valid 0)
    else pure (quadTable.getD valid 0)
  pure ((if bits &&& 1 ≠ 0 then [abc] else []) ++ (if bits &&& 2 ≠ 0 then [cda] else []) ++
    (if bits &&& 4 ≠ 0 then [abd] else []) ++ (if bits &&& 8 ≠ 0 then [dbc] else []))

/-- `data[min(end, i) % len]`, edge.py:106-109, 167-170. -/
def clampGet (e : List Vec) (stop i : ℕ) : Vec := e.getD (min stop i % e.length) 0

/-- `meshPairwise`, edge.py:88-149. `stop` is `len - 1 + isClosed` (clipped at 0, which makes no
difference to the loop); `% 0` raises. -/
def meshPairwise (self other : List Vec) (isClosed : Bool) : Py (List (Tri Vec)) := do
  let selfEnd := self.length + isClosed.toNat - 1
  let otherEnd := other.length + isClosed.toNat - 1
  let parts ← (List.range (max otherEnd selfEnd)).mapM fun i =>
    if self.length = 0 ∨ other.length = 0 then .error .zeroDivision
    else quadTriangles (clampGet self selfEnd i) (clampGet self selfEnd (i + 1))
      (clampGet other otherEnd (i + 1)) (clampGet other otherEnd i)
  pure parts.flatten

/-- The choice in edge.py:184-207: true to add `abd`, false to add `acd`. -/
def chooseAbd (triangles : List (Tri Vec)) (abd acd : Tri Vec) : Py Bool :=
  let byRadius := decide (abd.circumradius < acd.circumradius + 1e-6)
  match triangles.getLast? with
  | none => pure byRadius
  | some t => do
    let prevNorm ← t.normal
    let abdNorm ← abd.normal
    let abdDev ← abdNorm.angleBetween prevNorm
    let acdNorm ← acd.normal
    let acdDev ← acdNorm.angleBetween prevNorm
    if abdDev < acdDev - 2 * Real.pi / 16 then pure true
    else if acdDev < abdDev - 2 * Real.pi / 16 then pure false
    else pure byRadius

/-- The loop of `meshParallel`, edge.py:166-207. -/
def parallelLoop (self other : List Vec) (selfEnd otherEnd i j : ℕ) (triangles : List (Tri Vec)) :
    Py (List (Tri Vec)) :=
  if i < selfEnd ∨ j < otherEnd then
    if self.length = 0 ∨ other.length = 0 then .error .zeroDivision
    else
      let a := clampGet self selfEnd i
      let b := clampGet self selfEnd (i + 1)
      let c := clampGet other otherEnd (j + 1)
      let d := clampGet other otherEnd j
      let abd : Tri Vec := ⟨a, b, d⟩
      let acd : Tri Vec := ⟨a, c, d⟩
      if i ≥ selfEnd then parallelLoop self other selfEnd otherEnd i (j + 1) (triangles ++ [acd])
      else if j ≥ otherEnd then parallelLoop self other selfEnd otherEnd (i + 1) j (triangles ++ [abd])
      else
        match chooseAbd triangles abd acd with
        | .error e => .error e
        | .ok true => parallelLoop self other selfEnd otherEnd (i + 1) j (triangles ++ [abd])
        | .ok false => parallelLoop self other selfEnd otherEnd i (j + 1) (triangles ++ [acd])
  else .ok triangles
termination_by (selfEnd - i) + (otherEnd - j)

/-- `meshParallel`, edge.py:151-209. -/
def meshParallel (self other : List Vec) (isClosed : Bool) : Py (List (Tri Vec)) :=
  parallelLoop self other (self.length + isClosed.toNat - 1) (other.length + isClosed.toNat - 1) 0 0 []

/-- One step of the loop of `contains2D`, edge.py:219-222: does the ray to the right cross `ab`? -/
def crossesRay (v a b : Vec) : Bool :=
  if decide (a.y > v.y) ≠ decide (b.y > v.y) then
    decide (v.x < (b.x - a.x) * (v.y - a.y) / (b.y - a.y) + a.x)
  else false

/-- `contains2D`, edge.py:211-223. `data[i-1]` is the last vector for i = 0. -/
def contains2D (e : List Vec) (v : Vec) : Bool :=
  (List.range e.length).foldl (fun isIn i =>
    let a := e.getD ((i + e.length - 1) % e.length) 0
    let b := e.getD i 0
    if crossesRay v a b then !isIn else isIn) false

/-- `distance2D`, edge.py:225-229. `min` of no values raises. -/
def edgeDistance2D (e : List Vec) (v : Vec) : Py ℝ :=
  if contains2D e v then .ok 0
  else match (toSegments e true).map (·.distance2D v) with
    | [] => .error .valueError
    | d :: ds => .ok (ds.foldl min d)

end

end Chrumm.Geo
