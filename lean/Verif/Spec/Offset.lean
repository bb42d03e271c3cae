import Verif.Part.Offset
import Verif.Spec.Clip

/-! Offset outlines. -/

namespace Chrumm.Part.Spec
open Geo Geo.Spec

/-- The i-th point of a closed outline. -/
def cyc (l : List Vec) (i : ℕ) : Vec := l.getD (i % l.length) 0

/-- A point on the line through `a` and `b` that is moved by `d` to the right (seen from above, looking from `a` to `b`). -/
def OnMoved (a b : Vec) (d : ℝ) (v : Vec) : Prop := left a b v = -d * dist2D a b

/-- The vector of length `d` to the right of the direction from `a` to `b`. -/
noncomputable def rightward (a b : Vec) (d : ℝ) : Vec := ⟨(b.y - a.y) / dist2D a b * d, -((b.x - a.x) / dist2D a b * d), 0⟩

/-- The distance by which the i-th side of an outline is moved. The last side of an open outline stays where it is. -/
def sideOffset (e : List Vec) (d : ℝ) (closed : Bool) (i : ℕ) : ℝ := if closed = false ∧ i % e.length = e.length - 1 then 0 else d

/-- The moved i-th side starts and ends here. -/
noncomputable def movedStart (e : List Vec) (d : ℝ) (closed : Bool) (i : ℕ) : Vec :=
  (cyc e i).xy + rightward (cyc e i) (cyc e (i + 1)) (sideOffset e d closed i)
noncomputable def movedEnd (e : List Vec) (d : ℝ) (closed : Bool) (i : ℕ) : Vec :=
  (cyc e (i + 1)).xy + rightward (cyc e i) (cyc e (i + 1)) (sideOffset e d closed i)

/-- `q` is the outline `e` whose sides are moved by `d`, and there are no special cases: no side vanishes, sides that do not follow each other
do not meet, and sides that follow each other have either the same direction, or are not nearly parallel. -/
structure CleanOffset (e : List Vec) (d : ℝ) (closed : Bool) (q : List Vec) : Prop where
  size : 3 ≤ e.length
  same : q.length = e.length
  ground : ∀ p ∈ q, p.z = 0
  sides : ∀ i, 0 < dist2D (cyc e i) (cyc e (i + 1))
  on : ∀ i, OnMoved (cyc e i) (cyc e (i + 1)) (sideOffset e d closed i) (cyc q i) ∧
    OnMoved (cyc e i) (cyc e (i + 1)) (sideOffset e d closed i) (cyc q (i + 1))
  long : ∀ i, 1 / 1000 ≤ dist2D (cyc q i) (cyc q (i + 1))
  apart : ∀ i j t u, i % e.length ≠ j % e.length → (i + 1) % e.length ≠ j % e.length → i % e.length ≠ (j + 1) % e.length → 0 ≤ t → t ≤ 1 → 0 ≤ u → u ≤ 1 →
    between2D (cyc q i) (cyc q (i + 1)) t ≠ between2D (cyc q j) (cyc q (j + 1)) u
  corner : ∀ i, (movedEnd e d closed i = cyc q (i + 1) ∧ movedStart e d closed (i + 1) = cyc q (i + 1)) ∨
    ∀ a ∈ [cyc q i, movedStart e d closed i], ∀ b ∈ [cyc q (i + 2), movedEnd e d closed (i + 1)],
      1 / 1000000 ≤ |((movedEnd e d closed i).x - a.x) * (b.y - (movedStart e d closed (i + 1)).y) -
        ((movedEnd e d closed i).y - a.y) * (b.x - (movedStart e d closed (i + 1)).x)|

/-- `c` is the outline `e` whose sides are moved by `d` and joined in the same order, so that every corner is on the two moved sides. Sides that follow
each other have either the same direction, or are not nearly parallel. The result may cross itself. -/
structure MovedOutline (e : List Vec) (d : ℝ) (closed : Bool) (c : List Vec) : Prop where
  size : 3 ≤ e.length
  same : c.length = e.length
  ground : ∀ p ∈ c, p.z = 0
  sides : ∀ i, 0 < dist2D (cyc e i) (cyc e (i + 1))
  on : ∀ i, OnMoved (cyc e i) (cyc e (i + 1)) (sideOffset e d closed i) (cyc c i) ∧
    OnMoved (cyc e i) (cyc e (i + 1)) (sideOffset e d closed i) (cyc c (i + 1))
  corner : ∀ i, (movedEnd e d closed i = cyc c (i + 1) ∧ movedStart e d closed (i + 1) = cyc c (i + 1)) ∨
    ∀ a ∈ [cyc c i, movedStart e d closed i], ∀ b ∈ [cyc c (i + 2), movedEnd e d closed (i + 1)],
      1 / 1000000 ≤ |((movedEnd e d closed i).x - a.x) * (b.y - (movedStart e d closed (i + 1)).y) -
        ((movedEnd e d closed i).y - a.y) * (b.x - (movedStart e d closed (i + 1)).x)|

/-- No point of the outline `e` is closer to `p` than `d`, up to the tolerance. -/
def FarFrom (e : List Vec) (d : ℝ) (p : Vec) : Prop :=
  ∀ i < e.length, ∀ t, 0 ≤ t → t ≤ 1 → |d| - 1 / 1000000 ≤ dist2D (between2D (cyc e i) (cyc e (i + 1)) t) p

/-- `q` begins like the closed outline `c`, and consists of parts of its sides, in the same order. -/
def CutFrom (c q : List Vec) : Prop :=
  q.head? = c.head? ∧ ∃ f : ℕ → ℕ, StrictMono f ∧ ∀ i < q.length, f i < c.length ∧ ∃ t u, 0 ≤ t ∧ t ≤ u ∧ u ≤ 1 ∧
    cyc q i = between2D (cyc c (f i)) (cyc c (f i + 1)) t ∧ cyc q (i + 1) = between2D (cyc c (f i)) (cyc c (f i + 1)) u

/-- No side of the closed outline `q` meets a later side that does not follow it, except at its own end. Sides that are nearly parallel are not
considered, nor the first and the last one, which follow each other. -/
def Uncrossed (q : List Vec) : Prop :=
  ∀ i j t u, i + 2 ≤ j → j < q.length → ¬ (i = 0 ∧ j + 1 = q.length) → 0 ≤ t → t ≤ 1 → 0 ≤ u → u ≤ 1 →
    between2D (cyc q i) (cyc q (i + 1)) t = between2D (cyc q j) (cyc q (j + 1)) u →
    between2D (cyc q i) (cyc q (i + 1)) t = cyc q (i + 1) ∨
      |((cyc q (i + 1)).x - (cyc q i).x) * ((cyc q (j + 1)).y - (cyc q j).y) - ((cyc q (i + 1)).y - (cyc q i).y) * ((cyc q (j + 1)).x - (cyc q j).x)| < 1 / 1000000

/-- The i-th side of a closed outline is not shorter than the shortest side of an offset outline. -/
def LongSide (q : List Vec) (i : ℕ) : Prop := 1 / 1000 ≤ dist2D (cyc q i) (cyc q (i + 1))

/-- Two edges agree, except for their first and last points. -/
def SameMiddle (a b : List Vec) : Prop := a.tail.dropLast = b.tail.dropLast ∧ a.length = b.length

end Chrumm.Part.Spec
