import Verif.Part.Layout
import Verif.Spec.Geometry

/-! What a layout should be. -/

namespace Chrumm.Part.Spec
open Geo Geo.Spec

noncomputable section

/-- The key in a row, group (0 alnum, 1 pinky) and column of one half, if any. -/
def keyAt (half : Half) (row group col : ℕ) : Option Key := do
  let r ← half[row]?
  let g ← r[group]?
  let k ← g[col]?
  k

/-- The configured offset of a key from its place in the grid: `[]` is a gap, a single number moves the key in the
direction of its column, and a list of (at least) two moves it in both directions. -/
def offsetOf : Stagger → Option (ℝ × ℝ)
  | .num y => some (0, y)
  | .list [] => none
  | .list [y] => some (0, y)
  | .list (x :: y :: _) => some (x, y)

/-- The number of columns of a half in front of a group: the pinky group comes after the alnum group. -/
def firstCol (half : Half) (row group : ℕ) : ℕ :=
  if group = 0 then 0 else (((half[row]?).bind (·[0]?)).map List.length).getD 0

/-- The stagger of a key in the config: groups are written from left to right, `pinkyL alnumL alnumR pinkyR`; on the left
side, columns are counted from the middle of the keyboard, too. -/
def staggerAt (cfg : LayoutCfg) (side : Side) (row group col : ℕ) : Option Stagger :=
  match side with
  | .right => do
    let r ← cfg.fingerStaggers[row]?
    let g ← r[2 + group]?
    g[col]?
  | .left => do
    let r ← cfg.fingerStaggers[row]?
    let g ← r[1 - group]?
    if col < g.length then g[g.length - 1 - col]? else none

/-- The half of a side. -/
def halfOf (l : Layout) : Side → Half
  | .left => l.fingersL
  | .right => l.fingersR

/-- The thumb keys of a side, in the direction away from the middle. -/
def thumbOf (l : Layout) : Side → List Key
  | .left => l.thumbL
  | .right => l.thumbR

/-- `[0, 0]` is one unit to the right and up; on the left side offsets in x are mirrored. -/
def sideSign : Side → ℝ
  | .left => -1
  | .right => 1

/-- The stagger of the mirrored key. -/
def mirrorStagger : Stagger → Stagger
  | .list (x :: y :: l) => .list (-x :: y :: l)
  | s => s

/-- Both sides of the config mirror each other. -/
def SymmetricCfg (cfg : LayoutCfg) : Prop :=
  (∀ row ∈ cfg.fingerStaggers, row.reverse = row.map fun g => (g.map mirrorStagger).reverse) ∧
  cfg.thumbUnits[0]? = (cfg.thumbUnits[1]?).map List.reverse ∧
  cfg.thumbAngles[0]? = (cfg.thumbAngles[1]?).map List.reverse ∧
  cfg.thumbOffsets[0]? = cfg.thumbOffsets[1]?

end

end Chrumm.Part.Spec

namespace Chrumm.Part.Spec
open Geo Geo.Spec

noncomputable section

/-- The keys of a group of a half, row by row, without gaps. -/
def keysOf (half : Half) (group : ℕ) : List Key := half.flatMap fun row => (row.getD group []).filterMap id

/-- What a `side` argument selects: the right half comes first. -/
def selected {α : Type} (side : Option Side) (left right : α) : List α :=
  match side with
  | none => [right, left]
  | some .right => [right]
  | some .left => [left]

/-- The distance between two points. -/
def dist (p q : Vec) : ℝ := Real.sqrt (distSq p q)

/-- The key is turned by the angle (in degrees) around the z axis. -/
def TurnedBy (degrees : ℝ) (k : Key) : Prop :=
  ∀ r t h, (polar .Z 0 r t h).transformed k.matrix = polar .Z k.position r (t + degrees * Real.pi / 180) h

/-- The keys of the last column of the alnum group of a half, from back to front. -/
def lastAlnumCol (half : Half) : List Key := half.filterMap fun row => ((row.getD 0 []).getLast?).join

/-- The number of a side in the lists of the config. -/
def sideIndex : Side → ℕ
  | .left => 0
  | .right => 1

/-- The values of a side's thumb keys, in the direction away from the fingers to the middle of the keyboard: these lists are
written from left to right in the config. -/
def outsideIn (side : Side) (values : List ℝ) : List ℝ :=
  match side with
  | .left => values
  | .right => values.reverse

end

end Chrumm.Part.Spec
