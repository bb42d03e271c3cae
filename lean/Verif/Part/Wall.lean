import Verif.Part.Layout

/-! The static methods of `plan.py`. -/

namespace Chrumm.Part
open Geo

noncomputable section
open Classical

/-- Python's `max` of numbers. -/
def pyMax : List ℝ → Py ℝ
  | [] => .error .valueError
  | a :: l => .ok (l.foldl max a)

/-- Python's `min` of numbers. -/
def pyMin : List ℝ → Py ℝ
  | [] => .error .valueError
  | a :: l => .ok (l.foldl min a)

/-- `_tentCreaseOffset`, plan.py:364-374. -/
def tentCreaseOffset (cfg : LayoutCfg) (alnumTentAngle pinkyTentAngle : ℝ) : Py Vec := do
  let capHeight := cfg.capTopToPlate
  let halfPitch := cfg.columnPitch / 2
  let halfAngle := (alnumTentAngle - pinkyTentAngle) / 2
  let pitchHypot ← pyDiv halfPitch (Real.cos halfAngle)
  let quot ← pyDiv capHeight (Real.cos halfAngle)
  let heightOppo := quot * Real.sin halfAngle
  pure ⟨-2 * (pitchHypot + heightOppo - halfPitch), 0, 0⟩

/-- `_wallLines2D`, plan.py:376-396: the inner and the outer line. -/
def wallLines2D (keys : List Key) (thickness angle : ℝ) : Py (Line × Line) := do
  let boundsI := (keys.flatMap Key.boundsI).map Vec.xy
  let boundsO := (keys.flatMap Key.boundsO).map Vec.xy
  let baseLine ← Line.make 0 ⟨Real.cos angle, Real.sin angle, 0⟩
  let forward := baseLine.dir
  let outward := -forward.ortho2D
  let distances ← boundsI.mapM fun p => do
    let d ← baseLine.distance2D p
    pure (d, p)
  let maxBound ← Layout.maxBy (· < ·) Prod.fst distances
  let lineI ← Line.make maxBound.2 forward
  let lineO ← lineI.translated (outward * thickness)
  let overlaps ← boundsO.mapM lineO.distance2D
  let overlap ← pyMax overlaps
  if overlap > 0 then do
    let offset := outward * overlap
    let lineI ← lineI.translated offset
    let lineO ← lineO.translated offset
    pure (lineI, lineO)
  else pure (lineI, lineO)

/-- `sort` of pairs of a number and an index, plan.py:404-412. -/
def pairLe (a b : ℝ × ℕ) : Prop := a.1 < b.1 ∨ (a.1 = b.1 ∧ a.2 ≤ b.2)

/-- `_alnumBossKeys`, plan.py:398-413. `planeL.intersect(planeB, planeT)` is `_intersectPlanes`. -/
def alnumBossKeys (keys : List Key) (planeL planeR planeB planeT : Plane) : Py (List Key) := do
  let pointL ← planeL.intersectPlanes planeB planeT
  let pointR ← planeR.intersectPlanes planeB planeT
  let middle ← (pointL + pointR).div 2
  let axis ← Line.make 0 ⟨0, 1, 0⟩
  let distances ← keys.zipIdx.mapM fun ki => do
    let line ← axis.transformed ki.1.matrix
    let intersect ← planeB.intersectLine line
    pure ((middle - intersect).magSquared, ki.2)
  ((distances.mergeSort fun a b => decide (pairLe a b)).take 2).mapM fun di => pyGet keys di.2

/-- The first of the candidate positions of plan.py:452-459 that is far enough from both hulls. -/
def findBoss (hull0 hull1 : List Vec) (radius : ℝ) : List Vec → Py (Option Vec)
  | [] => .ok none
  | bossPos :: rest => do
    let dist0 ← edgeDistance2D hull0 bossPos
    let dist1 ← edgeDistance2D hull1 bossPos
    if dist0 ≥ radius ∧ dist1 ≥ radius then pure (some bossPos)
    else findBoss hull0 hull1 radius rest

/-- The steps of plan.py:452-453: 0, -0, 1, -1, 2, ... `int` truncates towards zero. -/
def bossSteps (radius : ℝ) : List ℤ :=
  let n : ℤ := (if 0 ≤ radius / (1 / 2) then ⌊radius / (1 / 2)⌋ else ⌈radius / (1 / 2)⌉) + 1
  (List.range n.toNat).flatMap fun (i : ℕ) => [(i : ℤ), -(i : ℤ)]

/-- The body of the `while` loop, plan.py:445-459: the boss position, if there is a valid one. -/
def tryBoss (hull0 hull1 : List Vec) (line0 line1 : Line) (radius : ℝ) (forward bossDelta : Vec) (wallO : Line) :
    Py (Option Vec) := do
  let bossLine ← wallO.translated bossDelta
  let intersect0 ← bossLine.intersect line0
  let intersect1 ← bossLine.intersect line1
  let bossMiddle ← (intersect0 + intersect1).div 2
  findBoss hull0 hull1 radius ((bossSteps radius).map fun (step : ℤ) => bossMiddle + forward * ((step : ℝ) * (1 / 2 : ℝ)))

/-- The `while` loop, plan.py:445-462, for at most `fuel` rounds: `none` if it has not ended by then. It ends with the
position and the moved wall lines, or with an exception. -/
def bossLoop (hull0 hull1 : List Vec) (line0 line1 : Line) (radius : ℝ) (forward bossDelta wallDelta : Vec) :
    ℕ → Line × Line → Option (Py (Vec × Line × Line))
  | 0, _ => none
  | fuel + 1, (wallI, wallO) =>
    match tryBoss hull0 hull1 line0 line1 radius forward bossDelta wallO with
    | .error e => some (.error e)
    | .ok (some bossPos) => some (.ok (bossPos, wallI, wallO))
    | .ok none =>
      match wallI.translated wallDelta with
      | .error e => some (.error e)
      | .ok wallI' =>
        match wallO.translated wallDelta with
        | .error e => some (.error e)
        | .ok wallO' => bossLoop hull0 hull1 line0 line1 radius forward bossDelta wallDelta fuel (wallI', wallO')

/-- The line of a key, plan.py:432-435. -/
def keyLine2D (key : Key) : Py Line := do
  let axis ← Line.make 0 ⟨0, 1, 0⟩
  let line ← axis.transformed key.matrix
  Line.make line.pos.xy line.dir.xy

/-- The values of `cfg.boss` that are used in the plan. -/
structure BossFit where
  diameter : ℝ
  outerWallMargin : ℝ

/-- `_fitBoss2D`, plan.py:415-462: it ends with `r` if `fitBoss2D … fuel = some r` for some number of rounds. -/
def fitBoss2D (cfg : BossFit) (wallLines : Line × Line) (key0 key1 : Key) (fuel : ℕ) :
    Option (Py (Vec × Line × Line)) :=
  let radius := cfg.diameter / 2
  let hull0 := fromConvexHull2D key0.boundsI
  let hull1 := fromConvexHull2D key1.boundsI
  match keyLine2D key0 with
  | .error e => some (.error e)
  | .ok line0 =>
    match keyLine2D key1 with
    | .error e => some (.error e)
    | .ok line1 =>
      let forward := wallLines.2.dir
      let outward := -forward.ortho2D
      let bossDelta := -outward * (radius + cfg.outerWallMargin)
      let wallDelta := outward * (1 / 4 : ℝ)
      bossLoop hull0 hull1 line0 line1 radius forward bossDelta wallDelta fuel wallLines

end

end Chrumm.Part
