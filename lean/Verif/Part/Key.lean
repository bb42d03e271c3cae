import Verif.Geo.Edge

/-! `key.py`: the geometry of keys. -/

namespace Chrumm.Part
open Geo

noncomputable section
open Classical

/-- The values of `cfg.switch.clipNotch`. `isSideways` is false if it is missing (key.py:31). -/
structure ClipCfg where
  width : ℝ
  depth : ℝ
  height : ℝ
  taperAngle : ℝ
  isSideways : Bool

/-- The values of `cfg.switch`. `clipNotch` is `none` if it is falsy. -/
structure SwitchCfg where
  width : ℝ
  depth : ℝ
  pinHeight : ℝ
  innerHeight : ℝ
  outerMargin : ℝ
  innerMargin : ℝ
  floorMargin : ℝ
  entryChamfer : ℝ
  clipNotch : Option ClipCfg

/-- A stagger of `cfg.layout.fingerStaggers`: a number, or a list of numbers. -/
inductive Stagger where
  | num (y : ℝ)
  | list (l : List ℝ)

/-- The values of `cfg.layout`. -/
structure LayoutCfg where
  columnPitch : ℝ
  rowPitch : ℝ
  capWidth : ℝ
  capDepth : ℝ
  capTopToPlate : ℝ
  fingerStaggers : List (List (List Stagger))
  thumbUnits : List (List ℝ)
  thumbAngles : List (List ℝ)
  thumbOffsets : List (List ℝ)

/-- `KeyFactory`, key.py:10-18: the geometry that all keys share. -/
structure KeyFactory where
  boundsI : List Vec
  boundsO : List Vec
  roofHoleI : List Vec
  roofHoleO : List Vec
  triangles : List (Tri Vec)

/-- `boundsO`, key.py:45-49. -/
def factoryBoundsO (holeW holeD outerMargin : ℝ) : List Vec :=
  let holeL := -holeW / 2
  let holeR := holeW / 2
  let holeF := -holeD / 2
  let holeB := holeD / 2
  [⟨holeL - outerMargin, holeF - outerMargin, 0⟩, ⟨holeL - outerMargin, holeB + outerMargin, 0⟩,
   ⟨holeR + outerMargin, holeB + outerMargin, 0⟩, ⟨holeR + outerMargin, holeF - outerMargin, 0⟩]

/-- `boundsI`, key.py:50-58. -/
def factoryBoundsI (holeW holeD holeH innerMargin innerH pinH : ℝ) : List Vec :=
  let holeL := -holeW / 2
  let holeR := holeW / 2
  let holeF := -holeD / 2
  let holeB := holeD / 2
  [⟨holeL - innerMargin, holeF - innerMargin, -holeH⟩, ⟨holeL - innerMargin, holeB + innerMargin, -holeH⟩,
   ⟨holeR + innerMargin, holeB + innerMargin, -holeH⟩, ⟨holeR + innerMargin, holeF - innerMargin, -holeH⟩,
   ⟨holeL, holeF, -innerH - pinH⟩, ⟨holeL, holeB, -innerH - pinH⟩,
   ⟨holeR, holeB, -innerH - pinH⟩, ⟨holeR, holeF, -innerH - pinH⟩]

/-- key.py:62-73: an edge and its mirrored half. -/
def withMirroredY (e : List Vec) : List Vec := e ++ (e.map Vec.mirroredY).reverse

/-- The triangles of the back with a clip notch, and the exit edge, key.py:81-103. -/
def clipTriangles (clip : ClipCfg) (holeB holeH : ℝ) (entryB chamferB exitB : Vec) :
    Py (List (Tri Vec) × List Vec) := do
  let quot ← pyDiv clip.depth (Real.cos clip.taperAngle)
  let clipTaper := quot * Real.sin clip.taperAngle
  let g0 : Vec := ⟨-clip.width / 2, holeB, -holeH⟩
  let g1 : Vec := ⟨-clip.width / 2 + clipTaper, holeB + clip.depth, -holeH⟩
  let g2 : Vec := ⟨clip.width / 2 - clipTaper, holeB + clip.depth, -holeH⟩
  let g3 : Vec := ⟨clip.width / 2, holeB, -holeH⟩
  let up : Vec := ⟨0, 0, holeH - clip.height⟩
  let edgeG := [g0, g1, g2, g3]
  let edgeT := edgeG.map (· + up)
  let edgeF := [g0, g0 + up, g3 + up, g3]
  let entryEdgeB := [entryB, entryB.mirroredX]
  let chamferEdgeB := [chamferB, chamferB.mirroredX]
  let wallEdgeB := exitB :: chamferEdgeB ++ [exitB.mirroredX]
  let t1 ← meshPairwise chamferEdgeB entryEdgeB false
  let t2 ← meshPairwise edgeF wallEdgeB false
  let t3 ← meshPairwise edgeG edgeT false
  let t4 ← meshPairwise (edgeT.take 2) (edgeT.drop 2).reverse false
  pure (t1 ++ t2 ++ t3 ++ t4, edgeG)

/-- The corners of the left side, key.py:62-71, of the first half of the edges. -/
def entryEdge0 (holeW holeD chamfer : ℝ) : List Vec :=
  [⟨-holeW / 2, -holeD / 2 - chamfer, 0⟩, ⟨-holeW / 2 - chamfer, -holeD / 2, 0⟩]
def chamferEdge0 (holeW holeD chamfer : ℝ) : List Vec :=
  [⟨-holeW / 2, -holeD / 2, -chamfer⟩, ⟨-holeW / 2, -holeD / 2, -chamfer⟩]
def exitEdge0 (holeW holeD holeH : ℝ) : List Vec :=
  [⟨-holeW / 2, -holeD / 2, -holeH⟩, ⟨-holeW / 2, -holeD / 2, -holeH⟩]

/-- The triangles of the left side and the back, and the corners of the notch, key.py:60-108. -/
def halfTriangles (holeW holeD holeH chamfer : ℝ) (clip : Option ClipCfg) : Py (List (Tri Vec) × List Vec) := do
  let entryEdge := withMirroredY (entryEdge0 holeW holeD chamfer)
  let chamferEdge := withMirroredY (chamferEdge0 holeW holeD chamfer)
  let exitEdge := withMirroredY (exitEdge0 holeW holeD holeH)
  let entryB : Vec := (⟨-holeW / 2, -holeD / 2 - chamfer, 0⟩ : Vec).mirroredY
  let chamferB : Vec := (⟨-holeW / 2, -holeD / 2, -chamfer⟩ : Vec).mirroredY
  let exitB : Vec := (⟨-holeW / 2, -holeD / 2, -holeH⟩ : Vec).mirroredY
  let t1 ← meshPairwise exitEdge chamferEdge false
  let t2 ← meshPairwise chamferEdge entryEdge false
  match clip with
  | some c => do
    let (t3, notch) ← clipTriangles c (holeD / 2) holeH entryB chamferB exitB
    pure (t1 ++ t2 ++ t3, notch)
  | none => do
    let wallEdgeLB := [exitB, chamferB, entryB]
    let wallEdgeRB := wallEdgeLB.map Vec.mirroredX
    let t3 ← meshPairwise wallEdgeRB wallEdgeLB false
    pure (t1 ++ t2 ++ t3, [])

/-- `v.mirroredX().mirroredY()`: a half turn. -/
def halfTurn (v : Vec) : Vec := v.mirroredX.mirroredY

/-- The clip notch, if it does not cut through the roof, key.py:30. -/
def activeClip (switch : SwitchCfg) (holeH : ℝ) : Option ClipCfg :=
  switch.clipNotch.filter fun c => decide (c.height < holeH)

/-- `isSideways`, key.py:31. -/
def isSideways (switch : SwitchCfg) (holeH : ℝ) : Bool := ((activeClip switch holeH).map ClipCfg.isSideways).getD false

/-- key.py:33-34. -/
def holeWidth (switch : SwitchCfg) (holeH : ℝ) : ℝ := if isSideways switch holeH then switch.depth else switch.width
def holeDepth (switch : SwitchCfg) (holeH : ℝ) : ℝ := if isSideways switch holeH then switch.width else switch.depth

/-- key.py:118-124. -/
def sidewaysTurn (sideways : Bool) (v : Vec) : Vec :=
  if sideways then v.transformed ((1 : Mat).rotatedZ (2 * Real.pi / 4)) else v

/-- `KeyFactory.__init__`, key.py:13-124. -/
def KeyFactory.make (switch : SwitchCfg) (roofThickness : ℝ) : Py KeyFactory := do
  let holeH := roofThickness
  let holeW := holeWidth switch holeH
  let holeD := holeDepth switch holeH
  let (half, notch) ← halfTriangles holeW holeD holeH switch.entryChamfer (activeClip switch holeH)
  let entryHalf := collapsed (withMirroredY (entryEdge0 holeW holeD switch.entryChamfer)) (1 / 1000)
  let exitHalf := (collapsed (withMirroredY (exitEdge0 holeW holeD holeH) ++ notch) (1 / 1000)).reverse
  let turn := sidewaysTurn (isSideways switch holeH)
  pure {
    boundsI := (factoryBoundsI holeW holeD holeH switch.innerMargin switch.innerHeight switch.pinHeight).map turn
    boundsO := (factoryBoundsO holeW holeD switch.outerMargin).map turn
    roofHoleI := (exitHalf ++ exitHalf.map halfTurn).map turn
    roofHoleO := (entryHalf ++ entryHalf.map halfTurn).map turn
    triangles := (half ++ half.map fun t => t.map halfTurn).map fun t => t.map turn }

/-- `Key`, key.py:130-150. The attributes that depend on the factory and the config are fixed at construction. -/
structure Key where
  factory : KeyFactory
  capPivotL0 : Vec
  capPivotR0 : Vec
  capBounds0 : List Vec
  matrix : Mat

/-- `KeyFactory.make`, `Key.__init__`, key.py:126-150. -/
def Key.make (cfg : LayoutCfg) (factory : KeyFactory) (units : ℝ) : Key :=
  let pitchX := cfg.columnPitch
  let pitchY := cfg.rowPitch
  let marginX := pitchX - cfg.capWidth
  let marginY := pitchY - cfg.capDepth
  let capW := pitchX * units - marginX
  let capD := pitchY - marginY
  { factory := factory
    capPivotL0 := ⟨-capW / 2 - marginX / 2, -capD / 2, 0⟩
    capPivotR0 := ⟨capW / 2 + marginX / 2, -capD / 2, 0⟩
    capBounds0 := [⟨-capW / 2 - marginX, -capD / 2 - marginY, 0⟩, ⟨capW / 2 + marginX, -capD / 2 - marginY, 0⟩,
      ⟨capW / 2 + marginX, capD / 2 + marginY, 0⟩, ⟨-capW / 2 - marginX, capD / 2 + marginY, 0⟩]
    matrix := 1 }

namespace Key

/-- key.py:152-153. Mutation of the object is modelled by a new value. -/
def translate (k : Key) (v : Vec) : Key := { k with matrix := k.matrix.translated v }

/-- key.py:155-156. -/
def transform (k : Key) (m : Mat) : Key := { k with matrix := k.matrix * m }

/-- key.py:158-160. -/
def position (k : Key) : Vec := (0 : Vec).transformed k.matrix

/-- key.py:162-168. -/
def capPivotL (k : Key) : Vec := k.capPivotL0.transformed k.matrix
def capPivotR (k : Key) : Vec := k.capPivotR0.transformed k.matrix

/-- key.py:170-180. -/
def boundsI (k : Key) : List Vec := k.factory.boundsI.map (·.transformed k.matrix)
def boundsO (k : Key) : List Vec := (k.factory.boundsO ++ k.capBounds0).map (·.transformed k.matrix)
def bounds (k : Key) : List Vec := k.boundsI ++ k.boundsO

/-- key.py:182-192. -/
def roofHoleI (k : Key) : List Vec := k.factory.roofHoleI.map (·.transformed k.matrix)
def roofHoleO (k : Key) : List Vec := k.factory.roofHoleO.map (·.transformed k.matrix)
def triangles (k : Key) : List (Tri Vec) := k.factory.triangles.map (·.map (·.transformed k.matrix))

end Key

end

end Chrumm.Part
