import Verif.Part.Offset
import Verif.Part.FullPlan

/-! `floor.py`: `_hexGrid2D`. -/

namespace Chrumm.Part
open Geo

noncomputable section
open Classical

/-- The values of a `while` loop that starts at `start` and adds `pitch` until `limit` is reached. -/
def gridCoords (start pitch limit : ℝ) : Py (List ℝ) :=
  if limit ≤ start then pure []
  else if pitch ≤ 0 then .error .diverges
  else pure ((List.range ⌈(limit - start) / pitch⌉.toNat).map fun (k : ℕ) => start + k * pitch)

/-- `hexagon`, floor.py:344-350. -/
def hexAround (x y maxRadius minRadius : ℝ) : List Vec :=
  [⟨x - maxRadius, y, 0⟩, ⟨x - maxRadius / 2, y - minRadius, 0⟩, ⟨x + maxRadius / 2, y - minRadius, 0⟩,
   ⟨x + maxRadius, y, 0⟩, ⟨x + maxRadius / 2, y + minRadius, 0⟩, ⟨x - maxRadius / 2, y + minRadius, 0⟩]

/-- `hexagon[i-j]`, for j up to 6. -/
def hexAt (hexagon : List Vec) (i j : ℕ) : Vec := hexagon.getD ((i + 6 - j) % 6) 0

/-- The factor by which one point has to be excluded, floor.py:381-392. -/
def pointFactor (hexagon : List Vec) (i : ℕ) (scaleCenter point : Vec) (minFactor : ℝ) : Py ℝ :=
  if point.isClose scaleCenter then pure minFactor
  else [1, 2, 3, 4].foldlM (fun (m : ℝ) (j : ℕ) => do
    let hit ← (⟨hexAt hexagon i (j + 1), hexAt hexagon i j⟩ : Segment).intersect2D ⟨scaleCenter, point⟩ 1
    match hit with
    | none => pure m
    | some p => do
      let f ← pyDiv (point - scaleCenter).magnitude (p - scaleCenter).magnitude
      pure (min f m)) minFactor

/-- The factor by which one diagonal is cut, floor.py:402-409. -/
def diagFactor (hexagon : List Vec) (segments : List Segment) (i : ℕ) (scaleCenter : Vec) (minFactor : ℝ) (j : ℕ) : Py ℝ :=
  segments.foldlM (fun (m : ℝ) (segment : Segment) => do
    let hit ← (⟨scaleCenter, hexAt hexagon i j⟩ : Segment).intersect2D segment
    match hit with
    | none => pure m
    | some p => do
      let f ← pyDiv (p - scaleCenter).magnitude (segMagnitude2D ⟨scaleCenter, hexAt hexagon i j⟩)
      pure (min f m)) minFactor

/-- `minFactor`, floor.py:371-409. -/
def hexFactor (hexagon : List Vec) (segments : List Segment) (pointsInHex : List Vec) (i : ℕ) (scaleCenter : Vec) : Py ℝ := do
  let m ← pointsInHex.foldlM (fun (m : ℝ) (p : Vec) => pointFactor hexagon i scaleCenter p m) 1
  [1, 2, 3, 4, 5].foldlM (diagFactor hexagon segments i scaleCenter) m

/-- The body of the loop over the corners, floor.py:367-413. -/
def hexBest (edge : List Vec) (segments : List Segment) (hexagon pointsInHex : List Vec) (best : ℝ × Option Vec) (i : ℕ) :
    Py (ℝ × Option Vec) :=
  let scaleCenter := hexagon.getD i 0
  if contains2D edge scaleCenter then do
    let m ← hexFactor hexagon segments pointsInHex i scaleCenter
    pure (if m > best.1 then (m, some scaleCenter) else best)
  else pure best

/-- `hexagon.scaled(bestFactor, bestCenter)`, edge.py:72-73. -/
def hexScaled (hexagon : List Vec) (factor : ℝ) : Option Vec → Py (List Vec)
  | none => .error .attributeError
  | some c => pure (hexagon.map fun v => (v - c) * factor + c)

/-- The hexagon of one cell, floor.py:343-417, if there is one. -/
def hexCell (cfg : HexCfg) (edge : List Vec) (x y : ℝ) : Py (Option (List Vec)) := do
  let maxRadius := cfg.maxDiameter / 2
  let minRadius := maxRadius / 2 * Real.sqrt 3
  let segments := toSegments edge true
  let center : Vec := ⟨x, y, 0⟩
  let hexagon := hexAround x y maxRadius minRadius
  let centerDist ← pyMin (segments.map fun s => s.distance2D center)
  if centerDist ≥ maxRadius then pure (if contains2D edge center then some hexagon else none)
  else do
    let pointsInHex := edge.filter fun p => contains2D hexagon p
    let (factor, scaleCenter) ← [0, 1, 2, 3, 4, 5].foldlM (hexBest edge segments hexagon pointsInHex) ((0 : ℝ), (none : Option Vec))
    if cfg.maxDiameter * factor ≥ cfg.minDiameter then do
      let h ← hexScaled hexagon factor scaleCenter
      pure (some h)
    else pure none

/-- Rounded corners, floor.py:423-428. -/
def hexRounded (q : Quality) (radius : ℝ) (hexagon : List Vec) : Py (List Vec) := do
  let arcs ← [0, 1, 2, 3, 4, 5].mapM fun i => cornerArc2D q radius (hexAt hexagon i 2) (hexAt hexagon i 1) (hexAt hexagon i 0)
  pure arcs.flatten

/-- The centers of the cells, floor.py:324-343, 353, 419-421. An endless loop raises here, even if the program stopped
with another exception before. -/
def hexCenters (cfg : HexCfg) (edge : List Vec) : Py (List (ℝ × ℝ)) := do
  let minX ← pyMin (edge.map Vec.x)
  let maxX ← pyMax (edge.map Vec.x)
  let minY ← pyMin (edge.map Vec.y)
  let maxY ← pyMax (edge.map Vec.y)
  let maxRadius := cfg.maxDiameter / 2
  let minRadius := maxRadius / 2 * Real.sqrt 3
  let xPitch := 3 * maxRadius + cfg.holeMargin * Real.sqrt 3
  let yPitch := 2 * minRadius + cfg.holeMargin
  let xStart := minX + maxRadius + cfg.xOffset
  let yStart := minY + minRadius + cfg.yOffset - yPitch
  let ys ← gridCoords yStart (yPitch / 2) (maxY + minRadius)
  let rows ← ys.zipIdx.mapM fun (yr : ℝ × ℕ) => do
    let xs ← gridCoords (xStart + xPitch / 2 * (yr.2 % 2 : ℕ)) xPitch (maxX + maxRadius)
    pure (xs.map fun x => (x, yr.1))
  pure rows.flatten

/-- `_hexGrid2D`, floor.py:308-430. -/
def hexGrid2D (q : Quality) (cfg : HexCfg) (edge : List Vec) : Py (List (List Vec)) := do
  let centers ← hexCenters cfg edge
  let cells ← centers.mapM fun c => hexCell cfg edge c.1 c.2
  let hexagons := cells.filterMap id
  if cfg.cornerRadius > 0 then hexagons.mapM (hexRounded q cfg.cornerRadius) else pure hexagons

end

end Chrumm.Part
