import Verif.Geo.Edge
import Verif.Spec.Mesh
import Mathlib.Data.Finset.Basic
import Mathlib.Logic.Relation

/-! `face.py`: triangulation of flat polygons with holes. Corners are indices into a list of points. -/

namespace Chrumm.Geo

noncomputable section
open Classical

/-- `points[i]`. All indices that occur are in range. -/
def pt (points : List Vec) (i : ℕ) : Vec := points.getD i 0

/-! ### `_mergeHoles`, face.py:57-136 -/

/-- `max(range(len(hole)), key=...)`, face.py:65: the first index with a maximal key. -/
def argmax (key : ℕ → Vec) (n : ℕ) : ℕ :=
  (List.range n).foldl (fun best i => if key best < key i then i else best) 0

/-- face.py:65-66. -/
def orderHole (points : List Vec) (hole : List ℕ) : List ℕ :=
  let start := argmax (fun i => pt points (hole.getD i 0)) hole.length
  hole.drop start ++ hole.take start

/-- `orderedHoles.sort(key=..., reverse=True)`, face.py:69: stable, from large to small keys. -/
def sortHoles (points : List Vec) (holes : List (List ℕ)) : List (List ℕ) :=
  holes.mergeSort fun g h => decide (¬ pt points (g.headD 0) < pt points (h.headD 0))

/-- `x < b.x`, where `b` is infinitely far away as long as nothing was hit. -/
def beforeHit (x : ℝ) (hit : Option (Vec × Vec × ℕ)) : Prop :=
  match hit with
  | none => True
  | some (b, _, _) => x < b.x

/-- One step of the loop in face.py:87-104. `hit` is `(b, c, vis)`, `none` for the initial values. -/
def rayStep (points : List Vec) (poly : List ℕ) (a : Vec) (hit : Option (Vec × Vec × ℕ)) (i : ℕ) :
    Option (Vec × Vec × ℕ) :=
  let j := (i + 1) % poly.length
  let p := pt points (poly.getD i 0)
  let q := pt points (poly.getD j 0)
  if p.y = a.y ∧ a.y = q.y then
    if a.x < p.x ∧ a.x < q.x then
      if p.x < q.x ∧ beforeHit p.x hit then some (p, p, i)
      else if beforeHit q.x hit then some (q, q, j)
      else hit
    else hit
  else if p.y ≤ a.y ∧ a.y ≤ q.y then
    let x := p.x - (p.y - a.y) * (q.x - p.x) / (q.y - p.y)
    if a.x < x ∧ beforeHit x hit then
      if p.x > q.x then some (⟨x, a.y, 0⟩, p, i) else some (⟨x, a.y, 0⟩, q, j)
    else hit
  else hit

/-- The loop of face.py:87-104. -/
def rayHit (points : List Vec) (poly : List ℕ) (a : Vec) : Option (Vec × Vec × ℕ) :=
  (List.range poly.length).foldl (rayStep points poly a) none

/-- face.py:119-122: is `p` inside the search triangle? -/
def inSearch (a b c aDir bDir cDir p : Vec) : Prop :=
  aDir.x * (a.y - p.y) - aDir.y * (a.x - p.x) < -1e-6 ∧
  bDir.x * (b.y - p.y) - bDir.y * (b.x - p.x) < -1e-6 ∧
  cDir.x * (c.y - p.y) - cDir.y * (c.x - p.x) < -1e-6

/-- One step of the loop in face.py:117-131. The state is `(minDist, vis)`, no distance at first. -/
def visStep (points : List Vec) (poly : List ℕ) (a b c aDir bDir cDir : Vec) (s : Option ℝ × ℕ) (i : ℕ) :
    Option ℝ × ℕ :=
  let p := pt points (poly.getD i 0)
  if inSearch a b c aDir bDir cDir p then
    let o := pt points (poly.getD ((i + poly.length - 1) % poly.length) 0)
    let q := pt points (poly.getD ((i + 1) % poly.length) 0)
    if (p.x - o.x) * (q.y - p.y) - (q.x - p.x) * (p.y - o.y) < 0 then
      let dist := (p.x - a.x) * (p.x - a.x) + (p.y - a.y) * (p.y - a.y)
      match s.1 with
      | none => (some dist, i)
      | some m => if dist < m then (some dist, i) else s
    else s
  else s

/-- face.py:84-131: the position in the polygon to which the hole is connected. No hit leaves `vis` at
`None`, which makes `insert` raise a TypeError. -/
def findVisible (points : List Vec) (poly : List ℕ) (h0 : ℕ) : Py ℕ :=
  let a := pt points h0
  match rayHit points poly a with
  | none => .error .typeError
  | some (b, c, vis) =>
    if b ≠ c then do
      let (b, c) := if c.y < b.y then (c, b) else (b, c)
      let aDir ← (b - a).normalized2D
      let bDir ← (c - b).normalized2D
      let cDir ← (a - c).normalized2D
      pure ((List.range poly.length).foldl (visStep points poly a b c aDir bDir cDir) (none, vis)).2
    else pure vis

/-- Python's `l.insert(i, x)` for an index `0 ≤ i ≤ len(l)`. -/
def pyInsert {α : Type} (l : List α) (i : ℕ) (x : α) : List α := l.take i ++ x :: l.drop i

/-- The body of the loop of face.py:72-136, for an ordered, not empty hole. -/
def mergeHole (points : List Vec) (poly : List ℕ) (hole : List ℕ) : Py (List ℕ) := do
  let vis ← findVisible points poly (hole.headD 0)
  let poly := pyInsert poly vis (poly.getD vis 0)
  let poly := pyInsert poly (vis + 1) (hole.headD 0)
  pure (poly.take (vis + 1) ++ hole ++ poly.drop (vis + 1))

/-- `_mergeHoles`, face.py:58-136: the final `polyIndexes`. -/
def mergeHoles (points : List Vec) (poly : List ℕ) (holes : List (List ℕ)) : Py (List ℕ) :=
  (sortHoles points (holes.map (orderHole points))).foldlM (mergeHole points) poly

/-! ### `_cutEars`, face.py:138-195 -/

/-- The cached tuple of face.py:166. -/
structure Ear where
  ear : Tri ℕ
  aDir : Vec
  bDir : Vec
  cDir : Vec
  aDot : ℝ
  bDot : ℝ
  cDot : ℝ
  height : ℝ

/-- face.py:148-166. -/
def makeEar (points : List Vec) (remaining : List ℕ) (i : ℕ) : Py Ear := do
  let ia := remaining.getD ((i + remaining.length - 1) % remaining.length) 0
  let ib := remaining.getD i 0
  let ic := remaining.getD ((i + 1) % remaining.length) 0
  let a := pt points ia
  let b := pt points ib
  let c := pt points ic
  let aDir ← (b - a).normalized2D
  let bDir ← (c - b).normalized2D
  let cDir ← (a - c).normalized2D
  let aDot := aDir.y * a.x - aDir.x * a.y + 1e-6
  let bDot := bDir.y * b.x - bDir.x * b.y + 1e-6
  let cDot := cDir.y * c.x - cDir.x * c.y + 1e-6
  let height := cDir.x * b.y - cDir.y * b.x + cDot
  pure ⟨⟨ia, ib, ic⟩, aDir, bDir, cDir, aDot, bDot, cDot, height⟩

/-- face.py:179-182. -/
def Ear.inside (e : Ear) (p : Vec) : Prop :=
  e.cDir.y * p.x - e.cDir.x * p.y < e.cDot ∧
  e.bDir.y * p.x - e.bDir.x * p.y < e.bDot ∧
  e.aDir.y * p.x - e.aDir.x * p.y < e.aDot

/-- The loop of face.py:174-184. -/
def Ear.blocked (e : Ear) (points : List Vec) (remaining : List ℕ) : Prop :=
  ∃ j ∈ remaining, (j ≠ e.ear.a ∧ j ≠ e.ear.b ∧ j ≠ e.ear.c) ∧ e.inside (pt points j)

/-- face.py:147-168: the ear from the cache, or a new one. -/
def cachedEar (points : List Vec) (remaining : List ℕ) (cache : List (Option Ear)) (i : ℕ) : Py Ear :=
  match cache.getD i none with
  | none => makeEar points remaining i
  | some e => .ok e

/-- The inner loop, face.py:145-193, over the given positions: the new cache, and the ear to cut. -/
def scanEars (points : List Vec) (remaining : List ℕ) :
    List ℕ → List (Option Ear) → Py (List (Option Ear) × Option (ℕ × Ear))
  | [], cache => .ok (cache, none)
  | i :: is, cache => do
    let e ← cachedEar points remaining cache i
    let cache := cache.set i (some e)
    if e.height < 0 then scanEars points remaining is cache
    else if e.blocked points remaining then scanEars points remaining is cache
    else pure (cache, some (i, e))

/-- The outer loop, face.py:144-193: the ears, and the polygon that remains. -/
def cutLoop (points : List Vec) : ℕ → List ℕ → List (Option Ear) → List (Tri ℕ) →
    Py (List (Tri ℕ) × List ℕ)
  | 0, remaining, _, ears => .ok (ears, remaining)
  | n + 1, remaining, cache, ears => do
    let (cache, cut) ← scanEars points remaining (List.range remaining.length) cache
    match cut with
    | none => cutLoop points n remaining cache ears
    | some (i, e) =>
      let cache := cache.eraseIdx i
      let cache := cache.set ((i + cache.length - 1) % cache.length) none
      let cache := cache.set (i % cache.length) none
      cutLoop points n (remaining.eraseIdx i) cache (ears ++ [e.ear])

/-- `_cutEars`, face.py:139-195: the ears, and `remaining` (which Python drops). -/
def cutEars (points : List Vec) (poly : List ℕ) : Py (List (Tri ℕ) × List ℕ) :=
  cutLoop points (poly.length - 2) poly (List.replicate poly.length none) []

/-! ### `_flipTriangles`, face.py:197-252 -/

/-- The state of the loop. A triangle object is its position in the list of triangles; the lookup table
maps an edge to a triangle object. -/
structure FlipState where
  tris : List (Tri ℕ)
  lookup : ℕ × ℕ → Option ℕ
  remaining : Finset (ℕ × ℕ)

/-- The keys of a triangle in the order of face.py:200. -/
def triKeys (t : Tri ℕ) : List (ℕ × ℕ) := [(t.c, t.a), (t.a, t.b), (t.b, t.c)]

/-- `lookup[key] = value`. -/
def assign (l : ℕ × ℕ → Option ℕ) (key : ℕ × ℕ) (value : Option ℕ) : ℕ × ℕ → Option ℕ :=
  fun k => if k = key then value else l k

/-- face.py:200-201. -/
def flipInit (tris : List (Tri ℕ)) : FlipState where
  tris := tris
  lookup := (tris.zipIdx.flatMap fun (t, k) => (triKeys t).map fun e => (e, k)).foldl
    (fun l (e, k) => assign l e (some k)) (fun _ => none)
  remaining := (tris.flatMap triKeys).toFinset

/-- `t[t.index(x) - 1]`, face.py:217-218. -/
def before (t : Tri ℕ) (x : ℕ) : Py ℕ :=
  if t.a = x then .ok t.c else if t.b = x then .ok t.a else if t.c = x then .ok t.b else .error .valueError

/-- `t[t.index(x)] = y`, face.py:234-235. -/
def replaceCorner (t : Tri ℕ) (x y : ℕ) : Py (Tri ℕ) :=
  if t.a = x then .ok ⟨y, t.b, t.c⟩ else if t.b = x then .ok ⟨t.a, y, t.c⟩
  else if t.c = x then .ok ⟨t.a, t.b, y⟩ else .error .valueError

/-- The determinant of face.py:225-228. -/
def incircle (a b c d : Vec) : ℝ :=
  let da := a - d
  let db := b - d
  let dc := c - d
  (da.x * da.x + da.y * da.y) * (db.x * dc.y - dc.x * db.y) -
  (db.x * db.x + db.y * db.y) * (da.x * dc.y - dc.x * da.y) +
  (dc.x * dc.x + dc.y * dc.y) * (da.x * db.y - db.x * da.y)

/-- `del lookup[key]`. -/
def delKey (l : ℕ × ℕ → Option ℕ) (key : ℕ × ℕ) : Py (ℕ × ℕ → Option ℕ) :=
  match l key with
  | none => .error .keyError
  | some _ => .ok (assign l key none)

/-- The body of the loop, face.py:211-252, after the edge `(a, b)` was taken out of `remaining`. -/
def flipBody (points : List Vec) (s : FlipState) (a b : ℕ) : Py FlipState :=
  match s.lookup (a, b), s.lookup (b, a) with
  | some k0, some k1 => do
    let tri0 := s.tris.getD k0 ⟨0, 0, 0⟩
    let tri1 := s.tris.getD k1 ⟨0, 0, 0⟩
    let c ← before tri0 a
    let d ← before tri1 b
    if incircle (pt points a) (pt points b) (pt points c) (pt points d) < 1e-6 then pure s
    else do
      let tri0' ← replaceCorner tri0 b d
      let tris := s.tris.set k0 tri0'
      let tri1' ← replaceCorner (tris.getD k1 ⟨0, 0, 0⟩) a c
      let tris := tris.set k1 tri1'
      let l ← delKey s.lookup (a, b)
      let l ← delKey l (b, a)
      let l := assign l (d, c) (some k0)
      let l := assign l (c, a) (some k0)
      let l := assign l (a, d) (some k0)
      let l := assign l (c, d) (some k1)
      let l := assign l (d, b) (some k1)
      let l := assign l (b, c) (some k1)
      pure ⟨tris, l, s.remaining ∪ {(c, a), (a, d), (d, b), (b, c)}⟩
  | _, _ => pure s

/-- One round of the loop, face.py:203-252: `set.pop` takes any element. -/
def flipRound (points : List Vec) (s : FlipState) (e : ℕ × ℕ) : Py FlipState :=
  flipBody points { s with remaining := s.remaining.erase e } e.1 e.2

/-- A possible round. -/
def FlipStep (points : List Vec) (s s' : FlipState) : Prop :=
  ∃ e ∈ s.remaining, flipRound points s e = .ok s'

/-- A possible complete run of `_flipTriangles`, face.py:198-252: the final triangles. -/
def FlipRun (points : List Vec) (tris out : List (Tri ℕ)) : Prop :=
  ∃ s, Relation.ReflTransGen (FlipStep points) (flipInit tris) s ∧ s.remaining = ∅ ∧ s.tris = out

/-! ### `triangulate`, face.py:28-55 -/

/-- face.py:37-42: the index lists of the (not empty) holes. -/
def holeIndexes (start : ℕ) : List (List Vec) → List (List ℕ)
  | [] => []
  | hole :: holes =>
    if hole = [] then holeIndexes start holes
    else List.range' start hole.length :: holeIndexes (start + hole.length) holes

/-- face.py:44-49: the points, the upright points and the ears, before flipping. -/
def faceEars (edge : List Vec) (holes : List (List Vec)) :
    Py (List Vec × List Vec × List (Tri ℕ) × List ℕ × List ℕ) := do
  let real := edge ++ holes.flatten
  let normal ← Vec.fromSurfaceNormal edge
  let m ← Mat.fromAlignment normal ⟨0, 0, 1⟩
  let upright := real.map fun p => (p.transformed m).xy
  let poly ← mergeHoles upright (List.range edge.length) (holeIndexes edge.length holes)
  let (ears, rest) ← cutEars upright poly
  pure (real, upright, ears, poly, rest)

/-- `triangulate` can return the triangles `out`. -/
def Triangulates (edge : List Vec) (holes : List (List Vec)) (out : List (Tri Vec)) : Prop :=
  ∃ real upright ears poly rest tris, faceEars edge holes = .ok (real, upright, ears, poly, rest) ∧
    FlipRun upright ears tris ∧ out = tris.map (Tri.map (pt real))

end

end Chrumm.Geo
