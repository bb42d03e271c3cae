import Verif.Part.Pieces
import Verif.Spec.Mesh

/-! Vocabulary for surfaces made of pieces. -/

namespace Chrumm.Part.Spec
open Geo Geo.Spec

/-- `collapsed` loses nothing from an edge: neighbours coincide or are at least 0.001 apart. -/
def Apart (e : List Vec) : Prop := ∀ s ∈ cycPairs e, s.1 = s.2 ∨ 1 / 1000 ≤ Real.sqrt (distSq s.1 s.2)

/-- The directed boundary of a sheet: that of an open strip leads along the first edge, across to the end of the second
one, back along it, and across to the start; a closed strip has two boundaries; a face has its outline (before
it is collapsed) and its holes. -/
def Sheet.rim : Sheet → List (Vec × Vec)
  | .strip false a b => pathPairs a ++ [(a.getLastD 0, b.getLastD 0)] ++ flipEdges (pathPairs b) ++ [(b.headD 0, a.headD 0)]
  | .strip true a b => cycPairs a ++ flipEdges (cycPairs b)
  | .face edge holes => cycPairs edge ++ holes.flatMap cycPairs
  | .neat edge turned place holes =>
    (if turned then flipEdges (cycPairs edge) else cycPairs edge).map (Prod.map place place) ++ holes.flatMap cycPairs
  | .done ts => meshEdges ts

/-- The directed boundary of a piece. -/
def Piece.rim (p : Piece) : List (Vec × Vec) :=
  let moved := (Sheet.rim p.sheet).map (Prod.map p.place p.place)
  if p.turned then flipEdges moved else moved

/-- A sheet with triangles `ts` has no flaws: no quad of a strip is a sliver or folded (see `GoodQuad`), and the polygon
of a face is cut completely (V corners and H holes give V + 2 H - 2 triangles). If it is collapsed first, this affects
only points that coincide. -/
def Sheet.Sound : Sheet → List (Tri Vec) → Prop
  | .strip k a b, _ => a ≠ [] ∧ b ≠ [] ∧ ∀ i, GoodQuad (corner k a i) (corner k a (i + 1)) (corner k b (i + 1)) (corner k b i)
  | .face edge holes, ts => ts.length = edge.length + holes.flatten.length + 2 * (holes.filter fun h => !h.isEmpty).length - 2
  | .neat edge turned place holes, ts => Apart edge ∧ ts.length =
      (neatEdge edge turned place).length + holes.flatten.length + 2 * (holes.filter fun h => !h.isEmpty).length - 2
  | .done _, _ => True

/-- `tss` are triangles of the pieces, without flaws. -/
inductive SoundMesh : List Piece → List (List (Tri Vec)) → Prop
  | nil : SoundMesh [] []
  | cons {p : Piece} {ps : List Piece} {us : List (Tri Vec)} {tss : List (List (Tri Vec))} :
      p.sheet.Meshes us → Sheet.Sound p.sheet us → SoundMesh ps tss → SoundMesh (p :: ps) (placeAll p.place p.turned us :: tss)

/-- The points of a sheet and of a piece. -/
def Sheet.points : Sheet → List Vec
  | .strip _ a b => a ++ b
  | .face edge holes => edge ++ holes.flatten
  | .neat edge _ place holes => edge.map place ++ holes.flatten
  | .done ts => ts.flatMap fun t => [t.a, t.b, t.c]
def Piece.points (p : Piece) : List Vec := (Sheet.points p.sheet).map p.place

/-- The pieces fit together: all boundaries cancel out, except for `loops`, which are left for others to close. -/
def Fit [DecidableEq Vec] (ps : List Piece) (loops : List (Vec × Vec)) : Prop :=
  SameChain (ps.flatMap Piece.rim ++ loops) []

end Chrumm.Part.Spec
