import Verif.App.Stl

/-! `make.py`: which files are generated, and from which meshes. The code of the parts is a parameter. -/

namespace Chrumm.App
open Geo

/-- The two halves of the keyboard. -/
inductive Side where
  | right
  | left
deriving DecidableEq

/-- A part: its triangles, and the faces that are still to be triangulated. -/
structure Part (F : Type) where
  triangles : List (Tri Vec)
  faces : List F

/-- What `make` calls. The constructors read the configuration `C`, and do not change it or each other's objects. -/
structure Code (C P F : Type) where
  /-- `cfg._init` (C48). -/
  init : List String → Py C
  /-- make.py:37-50: reads two values and logs messages. -/
  check : C → Py Unit
  /-- `if cfg.knob`, `if cfg.palm`, `if cfg.support`, `if cfg.pcb`. -/
  hasKnob : C → Py Bool
  hasPalm : C → Py Bool
  hasSupport : C → Py Bool
  hasPcb : C → Py Bool
  /-- `Knob().triangles`. -/
  knob : C → Py (List (Tri Vec))
  /-- `Plan("right")` and `Plan("left")`. -/
  plan : C → Side → Py P
  body : C → P → Py (Part F)
  floor : C → P → Part F → Py (Part F)
  palm : C → P → Py (Part F)
  support : C → P → Py (Part F)
  /-- `pcb.toKiCadFootprint`. -/
  pcb : C → P → P → Py String
  /-- `Face.triangulate` (C42). -/
  triangulate : F → Py (List (Tri Vec))
  /-- The encoding of float32 values. -/
  f32 : ℝ → Option Word

/-- The content of a file. -/
inductive Data where
  | bytes (b : List UInt8)
  | text (s : String)

/-- A dict, in insertion order. -/
abbrev Files := List (String × Data)

/-- `files[name] = data`. -/
def setItem (files : Files) (name : String) (data : Data) : Files :=
  if files.any (fun f => f.1 = name) then files.map fun f => if f.1 = name then (name, data) else f
  else files ++ [(name, data)]

noncomputable section

variable {C P F : Type}

/-- make.py:30 and 54-55. -/
def knobFiles (code : Code C P F) (cfg : C) : Py Files := do
  if ← code.hasKnob cfg then
    let triangles ← code.knob cfg
    let b ← toBytes code.f32 triangles
    pure (setItem [] "rotary-knob.stl" (.bytes b))
  else pure []

/-- make.py:67-71: the dict of parts, in insertion order. -/
def basicParts (code : Code C P F) (cfg : C) (planR planL : P) : Py (List (String × Part F)) := do
  let bodyR ← code.body cfg planR
  let bodyL ← code.body cfg planL
  let floorR ← code.floor cfg planR bodyR
  let floorL ← code.floor cfg planL bodyL
  pure [("body-right", bodyR), ("body-left", bodyL), ("floor-right", floorR), ("floor-left", floorL)]

/-- make.py:73-75. -/
def palmParts (code : Code C P F) (cfg : C) (planR planL : P) : Py (List (String × Part F)) := do
  if ← code.hasPalm cfg then
    let palmR ← code.palm cfg planR
    let palmL ← code.palm cfg planL
    pure [("palm-right", palmR), ("palm-left", palmL)]
  else pure []

/-- make.py:77-79. -/
def supportParts (code : Code C P F) (cfg : C) (planR planL : P) : Py (List (String × Part F)) := do
  if ← code.hasSupport cfg then
    let supportR ← code.support cfg planR
    let supportL ← code.support cfg planL
    pure [("support-right", supportR), ("support-left", supportL)]
  else pure []

/-- make.py:81-82. -/
def pcbFiles (code : Code C P F) (cfg : C) (planR planL : P) (files : Files) : Py Files := do
  if ← code.hasPcb cfg then
    let s ← code.pcb cfg planR planL
    pure (setItem files "pcb-positions.kicad_mod" (.text s))
  else pure files

/-- The state of a running `Pool.map`: the results so far, and the first failure. -/
structure PoolState (B : Type) where
  slots : ℕ → Option B
  failure : Option Exn

/-- A worker has completed the chunk `i` (`MapResult._set` of the Python library): its results are stored at their
place, or the failure is stored, if it is the first one. -/
def PoolState.complete {A B : Type} (f : A → Py B) (items : List A) (size : ℕ) (s : PoolState B) (i : ℕ) :
    PoolState B :=
  match ((items.drop (i * size)).take size).mapM f with
  | .ok rs =>
    match s.failure with
    | none => { s with slots := fun k => if i * size ≤ k ∧ k < i * size + rs.length then rs[k - i * size]? else s.slots k }
    | some _ => s
  | .error e =>
    match s.failure with
    | none => { s with failure := some e }
    | some _ => s

/-- The chunks of `Pool.map`: their size, and their number. -/
def chunkSize (n workers : ℕ) : ℕ := n / (workers * 4) + if n % (workers * 4) = 0 then 0 else 1
def chunkCount (n size : ℕ) : ℕ := n / size + if n % size = 0 then 0 else 1

/-- The content of a slot at the end. -/
def slotResult {B : Type} : Option B → Py B
  | some b => .ok b
  | none => .error .typeError

/-- `pool.map(f, items)`: the chunks are completed in the given order. An empty slot would be a `None` in the result;
then the code would raise a TypeError later (this does not occur). -/
def poolMap {A B : Type} (f : A → Py B) (items : List A) (workers : ℕ) (order : List ℕ) : Py (List B) :=
  let s := order.foldl (PoolState.complete f items (chunkSize items.length workers)) ⟨fun _ => none, none⟩
  match s.failure with
  | some e => .error e
  | none => (List.range items.length).mapM fun k => slotResult (s.slots k)

/-- make.py:88-96. The order in which the workers complete the chunks, for each number of
faces, is arbitrary. -/
def triangulateAll (code : Code C P F) (threads : ℤ) (schedule : ℕ → List ℕ) (faces : List F) : Py (List (List (Tri Vec))) :=
  if threads ≤ 1 then faces.mapM code.triangulate
  else
    match faces with
    | [] => .error .indexError
    | _ :: _ => poolMap code.triangulate faces threads.toNat (schedule faces.length)

/-- make.py:104-105: `extend(faceTriangles.pop(0))` for each face. -/
def popFaces : List F → List (List (Tri Vec)) → Py (List (Tri Vec) × List (List (Tri Vec)))
  | [], rest => .ok ([], rest)
  | _ :: _, [] => .error .indexError
  | _ :: faces, t :: rest => do
    let (ts, rest) ← popFaces faces rest
    pure (t ++ ts, rest)

/-- `"left" in name`. -/
def isLeft (name : String) : Bool := decide ("left".toList <:+: name.toList)

/-- make.py:106-107. -/
def mirrorLeft (name : String) (ts : List (Tri Vec)) : List (Tri Vec) :=
  if isLeft name then ts.map fun t => t.mirroredX.reversed else ts

/-- make.py:100-107. -/
def combine : List (String × Part F) → List (List (Tri Vec)) → Py (List (String × List (Tri Vec)))
  | [], _ => .ok []
  | (name, part) :: parts, faceTriangles => do
    let (ts, rest) ← popFaces part.faces faceTriangles
    let more ← combine parts rest
    pure ((name, mirrorLeft name (part.triangles ++ ts)) :: more)

/-- make.py:111-112. -/
def partFiles (f32 : ℝ → Option Word) : List (String × List (Tri Vec)) → Files → Py Files
  | [], files => .ok files
  | (name, ts) :: rest, files => do
    let b ← toBytes f32 ts
    partFiles f32 rest (setItem files (name ++ ".stl") (.bytes b))

/-- `make`, make.py:20-114. -/
def make (code : Code C P F) (jsonStrings : List String) (threads : ℤ) (isKnobOnly : Bool)
    (schedule : ℕ → List ℕ) : Py Files := do
  let cfg ← code.init jsonStrings
  code.check cfg
  let files ← knobFiles code cfg
  if isKnobOnly then pure files
  else
    let planR ← code.plan cfg .right
    let planL ← code.plan cfg .left
    let basic ← basicParts code cfg planR planL
    let palm ← palmParts code cfg planR planL
    let support ← supportParts code cfg planR planL
    let parts := basic ++ palm ++ support
    let files ← pcbFiles code cfg planR planL files
    let faceTriangles ← triangulateAll code threads schedule (parts.flatMap fun p => p.2.faces)
    let triangles ← combine parts faceTriangles
    partFiles code.f32 triangles files

end

end Chrumm.App
