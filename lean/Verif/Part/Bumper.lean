import Verif.Geo.Edge
import Verif.Part.Layout
import Verif.Part.Arc

/-! `bumper.py`: the recesses of the bumpers, and the maps of `edge.py` that move edges. -/

namespace Chrumm.Part
open Geo

noncomputable section

/-- `Edge.translated`, edge.py:75-76. -/
def edgeTranslated (e : List Vec) (v : Vec) : List Vec := e.map (· + v)

/-- `Edge.scaled` with the default center, edge.py:72-73. -/
def edgeScaled (e : List Vec) (s : ℝ) : List Vec := e.map fun v => (v - 0) * s + 0

/-- `Edge.transformed`, edge.py:78-79. -/
def edgeTransformed (e : List Vec) (m : Mat) : List Vec := e.map (·.transformed m)

/-- `Edge.snapped`, edge.py:81-82. -/
def edgeSnapped (e : List Vec) : List Vec := e.map Vec.snapped

/-- The values of `cfg.bumper`. -/
structure BumperCfg where
  diameter : ℝ
  height : ℝ
  margin : ℝ

/-- `Bumper`, bumper.py:11-16. -/
structure Bumper where
  triangles : List (Tri Vec)
  floorEdge : List Vec
  splitEdge : List Vec

/-- `arc`, bumper.py:22. -/
def bumperArc (q : Quality) (radius : ℝ) : Bool → Py (List Vec)
  | true => do
    let arc ← arc2D q radius (-Real.pi / 2) Real.pi 0
    pure (edgeSnapped arc)
  | false => arc2D q radius 0 tau 0

/-- `splitEdge`, bumper.py:30-31. -/
def bumperSplit (edgeG edgeT : List Vec) : Bool → Py (List Vec)
  | true => do
    let g1 ← pyIndex edgeG (-1)
    let t1 ← pyIndex edgeT (-1)
    let t0 ← pyIndex edgeT 0
    let g0 ← pyIndex edgeG 0
    pure [g1, t1, t0, g0]
  | false => pure []

/-- `Bumper.__init__`, bumper.py:13-31. -/
def Bumper.make (q : Quality) (floorHeight : ℝ) (cfg : BumperCfg) (pos : Vec) (isHalf : Bool) : Py Bumper := do
  let radius := cfg.diameter / 2
  let arc ← bumperArc q radius isHalf
  let edgeG := edgeTranslated arc (pos.xy - ⟨0, 0, floorHeight⟩)
  let edgeT := edgeTranslated arc (pos.xy - ⟨0, 0, floorHeight - cfg.height⟩)
  let t1 ← meshPairwise (edgeT.take 1) edgeT false
  let t2 ← meshPairwise edgeT edgeG (!isHalf)
  let split ← bumperSplit edgeG edgeT isHalf
  pure { triangles := t1 ++ t2, floorEdge := edgeG, splitEdge := split }

end

end Chrumm.Part
