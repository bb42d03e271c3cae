import Verif.App.Make
import Verif.Spec.Stl

/-! Which files there should be, and what should be in them. -/

namespace Chrumm.App.Spec
open Geo

/-- The expected names of the files, in order. -/
def expectedNames (knob palm support pcb knobOnly : Bool) : List String :=
  (if knob then ["rotary-knob.stl"] else []) ++
  if knobOnly then [] else
    (if pcb then ["pcb-positions.kicad_mod"] else []) ++
    ["body-right.stl", "body-left.stl", "floor-right.stl", "floor-left.stl"] ++
    (if palm then ["palm-right.stl", "palm-left.stl"] else []) ++
    (if support then ["support-right.stl", "support-left.stl"] else [])

def sideName : Side → String
  | .right => "right"
  | .left => "left"

variable {C P F : Type}

/-- The kinds of parts. -/
inductive Kind where
  | body
  | floor
  | palm
  | support

def kindName : Kind → String
  | .body => "body"
  | .floor => "floor"
  | .palm => "palm"
  | .support => "support"

/-- The part of a kind, as it is constructed for a plan. -/
def Constructs (code : Code C P F) (cfg : C) (plan : P) (part : Part F) : Kind → Prop
  | .body => code.body cfg plan = .ok part
  | .floor => ∃ body, code.body cfg plan = .ok body ∧ code.floor cfg plan body = .ok part
  | .palm => code.palm cfg plan = .ok part
  | .support => code.support cfg plan = .ok part

/-- The mesh of a part: its triangles, and those of all of its faces. -/
def IsMesh (code : Code C P F) (part : Part F) (mesh : List (Tri Vec)) : Prop :=
  ∃ ts, List.Forall₂ (fun face t => code.triangulate face = .ok t) part.faces ts ∧
    mesh = part.triangles ++ ts.flatten

/-- The mirror image of a triangle at the yz plane, with its outside still outside. -/
def mirrored (t : Tri Vec) : Tri Vec :=
  ⟨⟨-t.c.x, t.c.y, t.c.z⟩, ⟨-t.b.x, t.b.y, t.b.z⟩, ⟨-t.a.x, t.a.y, t.a.z⟩⟩

/-- What is written for a side: all parts are constructed as right ones. -/
def forSide : Side → List (Tri Vec) → List (Tri Vec)
  | .right, mesh => mesh
  | .left, mesh => mesh.map mirrored

/-- An order in which all chunks of a pool are completed. -/
def Completes (n workers : ℕ) (order : List ℕ) : Prop :=
  order.Perm (List.range (chunkCount n (chunkSize n workers)))

/-- For any number of faces, all chunks are completed in some order. -/
def Fair (threads : ℤ) (schedule : ℕ → List ℕ) : Prop := ∀ n, Completes n threads.toNat (schedule n)

end Chrumm.App.Spec
