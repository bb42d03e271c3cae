import Verif.Geo.Face

/-! The surfaces from which the parts are put together. The parts of the program add triangles to `self.triangles` in
three ways: by `meshPairwise` (edge.py:88), by `Face.triangulate` (face.py:28), and by taking over triangles of other
objects, which may have been transformed, or mirrored and reversed. The model keeps what the triangles are made of
instead of the triangles, in the same order, because `triangulate` can return different triangles (face.py:204: the
order of `set.pop`). `Piece.Meshes` relates both. -/

namespace Chrumm.Part
open Geo

/-- One call of `self.meshPairwise(other, isClosed)`, one call of `Face(edge, holes).triangulate()`, the same for an edge
that is collapsed first (and maybe reversed and transformed), or triangles that exist already. -/
inductive Sheet where
  | strip (isClosed : Bool) (self other : List Vec)
  | face (edge : List Vec) (holes : List (List Vec))
  | neat (edge : List Vec) (turned : Bool) (place : Vec → Vec) (holes : List (List Vec))
  | done (ts : List (Tri Vec))

/-- A sheet, whose triangles are moved by `place`, and reversed if `turned`. -/
structure Piece where
  sheet : Sheet
  place : Vec → Vec := id
  turned : Bool := false

/-- `self.triangles.extend(self.meshPairwise(other, isClosed))`. -/
def strip (self other : List Vec) (isClosed : Bool := false) : Piece := { sheet := .strip isClosed self other }

/-- `Face(edge, holes)`. -/
def face (edge : List Vec) (holes : List (List Vec) := []) : Piece := { sheet := .face edge holes }

/-- `Face(edge.collapsed(), holes)`, or `Face(edge.collapsed().reversed(), holes)` if `turned`. With `place`, the edge is
transformed afterwards. -/
def neat (edge : List Vec) (holes : List (List Vec) := []) (turned : Bool := false) (place : Vec → Vec := id) : Piece :=
  { sheet := .neat edge turned place holes }

/-- Triangles of another object. -/
def done (ts : List (Tri Vec)) : Piece := { sheet := .done ts }

/-- `[t.transformed(m) for t in triangles]`, for pieces instead of triangles. -/
def Piece.moved (f : Vec → Vec) (p : Piece) : Piece := { p with place := f ∘ p.place }

/-- `[t.mirroredY().reversed() for t in triangles]`. -/
def Piece.mirroredY (p : Piece) : Piece := { p with place := Vec.mirroredY ∘ p.place, turned := !p.turned }

/-- The edge of a `neat` face. -/
noncomputable def neatEdge (edge : List Vec) (turned : Bool) (place : Vec → Vec) : List Vec :=
  (if turned then (collapsed edge (1 / 1000)).reverse else collapsed edge (1 / 1000)).map place

/-- The triangles that a sheet can have. -/
def Sheet.Meshes : Sheet → List (Tri Vec) → Prop
  | .strip isClosed self other, ts => meshPairwise self other isClosed = .ok ts
  | .face edge holes, ts => Triangulates edge holes ts
  | .neat edge turned place holes, ts => Triangulates (neatEdge edge turned place) holes ts
  | .done ts', ts => ts = ts'

/-- The triangles of a sheet, moved and turned. -/
def placeAll (f : Vec → Vec) (turned : Bool) (ts : List (Tri Vec)) : List (Tri Vec) :=
  ts.map fun t => if turned then (t.map f).reversed else t.map f

/-- The triangles that a piece can have. -/
def Piece.Meshes (p : Piece) (ts : List (Tri Vec)) : Prop :=
  ∃ us, p.sheet.Meshes us ∧ ts = placeAll p.place p.turned us

end Chrumm.Part
