import Verif.Part.Bracket
import Verif.Spec.Pieces

/-! The screws of the brackets. The screw is parallel to the x axis, so that distances are measured in the yz plane. -/

namespace Chrumm.Part.Spec
open Geo Geo.Spec

/-- `p` is a corner of the nut: a regular hexagon that lies flat, with the configured distance between opposite sides. -/
def NutCorner (cfg : BracketCfg) (c p : Vec) : Prop :=
  ∃ k : ℕ, p.y = c.y + cfg.nutAcrossFlats / Real.sqrt 3 * Real.cos (k * (Real.pi / 3)) ∧
    p.z = c.z + cfg.nutAcrossFlats / Real.sqrt 3 * Real.sin (k * (Real.pi / 3))

/-- `p` is on the circle with the given diameter. -/
def Around (d : ℝ) (c p : Vec) : Prop := (p.y - c.y) ^ 2 + (p.z - c.z) ^ 2 = (d / 2) ^ 2

/-- `p` is on the border of the nut, or of the head of the screw. One half of the keyboard has the nut, and the other one the head. -/
def OnScrew (cfg : BracketCfg) (c p : Vec) : Prop := NutCorner cfg c p ∨ Around cfg.counterboreDiameter c p

/-- `p` is not inside the circle with the given diameter. -/
def Clear (d : ℝ) (c p : Vec) : Prop := (d / 2) ^ 2 ≤ (p.y - c.y) ^ 2 + (p.z - c.z) ^ 2

/-- `d` is the least distance of the screw from something that is measured by `f`. -/
def Margin (cfg : BracketCfg) (c : Vec) (f : Vec → ℝ) (d : ℝ) : Prop := IsLeast {t | ∃ p, OnScrew cfg c p ∧ f p = t} d

/-- The distance of `p` from the line from `a` to `b`, in the yz plane; positive below, if `b` is in front of `a`. -/
noncomputable def below (a b p : Vec) : ℝ :=
  ((p.z - a.z) * (b.y - a.y) - (p.y - a.y) * (b.z - a.z)) / Real.sqrt ((b.y - a.y) ^ 2 + (b.z - a.z) ^ 2)

/-- The hole for a screw: `hole` on the split plane leads to the counterbore, which has the shape of the nut or of the head. -/
structure ScrewHole (cfg : BracketCfg) (isNut upright : Bool) (c : Vec) (pieces : List Piece) (hole : List Vec) : Prop where
  center : c.x = 0
  split : ∀ p ∈ hole, p.x = 0
  clear : ∀ p ∈ hole, Clear cfg.holeDiameter c p
  round : upright = false → ∀ p ∈ hole, Around cfg.holeDiameter c p
  rest : ∃ bore, strip hole (hole.map (· + ⟨cfg.holeLength, 0, 0⟩)) true ∈ pieces ∧ strip bore (bore.map (· + ⟨cfg.counterboreLength, 0, 0⟩)) true ∈ pieces ∧
    face bore.reverse [hole.map (· + ⟨cfg.holeLength, 0, 0⟩)] ∈ pieces ∧ (∀ p ∈ bore, p.x = cfg.holeLength) ∧
    (isNut = true → bore.length = 6 ∧ ∀ p : Vec, p.x = cfg.holeLength → (p ∈ bore ↔ NutCorner cfg c p)) ∧
    (isNut = false → ∀ p ∈ bore, Clear cfg.counterboreDiameter c p) ∧ (isNut = false → upright = false → ∀ p ∈ bore, Around cfg.counterboreDiameter c p)

/-- The screw of a corner bracket between the roof from `a` to `b` and the wall at `c` (the bracket is before the wall): it keeps exactly the
configured margins from the wall, the roof, the bottom of the bracket, and its tapered front. -/
structure CornerFits (cfg : BracketCfg) (a b c : Vec) (extra inset : ℝ) (isNut : Bool) (center : Vec) (k : CornerBracket) : Prop where
  hole : ∃ hole, ScrewHole cfg isNut false center k.pieces hole ∧ k.splitHoles.head? = some hole.reverse
  wall : Margin cfg center (fun p => c.y - p.y) (cfg.wallMargin + extra)
  roof : Margin cfg center (fun p => below a b p) (cfg.baseMargin + extra)
  bottom : ∃ g, k.wallEdge.head? = some g ∧ g.x = 0 ∧ g.y = c.y ∧ Margin cfg center (fun p => p.z - g.z) cfg.apexMargin
  taper : ∃ f, k.roofEdge[1]? = some (f + ⟨cfg.holeLength + cfg.counterboreLength, 0, 0⟩) ∧ f.x = 0 ∧ below a b f = 0 ∧
    Margin cfg center (fun p => (p.y - f.y) * Real.cos cfg.taperAngle + (p.z - f.z) * Real.sin cfg.taperAngle) (cfg.taperMargin + inset)

/-- The screw of a floor bracket behind the lip whose inner side is at `d` and whose outer side is at `e`, on the floor at the height of `a`. -/
structure FloorFits (cfg : BracketCfg) (a d e : Vec) (extra : ℝ) (isNut : Bool) (center : Vec) (k : FloorBracket) : Prop where
  hole : ∃ hole, ScrewHole cfg isNut true center k.pieces hole ∧ k.splitHole = hole.reverse
  floor : Margin cfg center (fun p => p.z - a.z) cfg.baseMargin
  wall : ∀ p, OnScrew cfg center p → cfg.wallMargin + extra ≤ p.y - d.y
  back : ∃ g r, k.taperEdge = [g, r] ∧ g.x = 0 ∧ g.z = a.z ∧
    Margin cfg center (fun p => (g.y - p.y) * Real.cos cfg.taperAngle + (g.z - p.z) * Real.sin cfg.taperAngle) cfg.taperMargin
  front : ∃ f ∈ k.splitEdge, f.x = 0 ∧ f.z = d.z ∧ (f.y = e.y ∨ d.y ≤ f.y) ∧
    Margin cfg center (fun p => (p.y - f.y) * Real.cos cfg.taperAngle + (f.z - p.z) * Real.sin cfg.taperAngle) cfg.taperMargin

/-- The screw is not too small, the sides of a floor bracket are not level, its rounded corners do not reach the floor, and the top of the lip at `d`
is above the floor at `a`. -/
structure SaneFloorBracket (q : Quality) (cfg : BracketCfg) (a d : Vec) : Prop where
  quality : 0 < q.maxChordAngle
  hole : 1 / 500000 ≤ cfg.holeDiameter
  bore : 1 / 500000 ≤ cfg.counterboreDiameter
  nut : 0 < cfg.nutAcrossFlats
  taper : 0 < Real.cos cfg.taperAngle
  corner : 1 / 1000000 ≤ cfg.cornerRadius
  lip : a.z + 1 / 1000 ≤ d.z
  foot : 2 * cfg.cornerRadius + 1 / 1000 ≤ max cfg.counterboreDiameter cfg.nutAcrossFlats + cfg.baseMargin + cfg.apexMargin

/-- A floor bracket from front to back reaches the outer corner `e` of the lip: either the lip is thicker than 0.000001, or its inner side is not behind
`e` and the screw, which is wide enough for the taper margin, keeps its distance from the wall. -/
def LipReached (cfg : BracketCfg) (a d e : Vec) (extra : ℝ) : Prop :=
  e.y + 1 / 1000000 ≤ d.y ∨ d.y ≤ e.y ∧ (max (cfg.counterboreDiameter / 2) cfg.nutRadius + cfg.wallMargin + extra) * Real.cos cfg.taperAngle +
    (d.z - (a.z + (max (cfg.counterboreDiameter / 2) (cfg.nutAcrossFlats / 2) + cfg.baseMargin))) * Real.sin cfg.taperAngle ≤
      max (cfg.counterboreDiameter / 2) (hexTangentDist cfg.nutRadius (cfg.taperAngle - Real.pi / 2)) + cfg.taperMargin

/-- `p` turned around the x axis by `θ`, then moved by `c`. -/
noncomputable def turned (θ : ℝ) (c p : Vec) : Vec :=
  ⟨c.x + p.x, c.y + p.y * Real.cos θ - p.z * Real.sin θ, c.z + p.y * Real.sin θ + p.z * Real.cos θ⟩

/-- How far `p` is from `a` in the direction of `b`, in the yz plane. -/
noncomputable def alongRoof (a b p : Vec) : ℝ :=
  ((p.y - a.y) * (b.y - a.y) + (p.z - a.z) * (b.z - a.z)) / Real.sqrt ((b.y - a.y) ^ 2 + (b.z - a.z) ^ 2)

/-- The screw of a roof bracket below the roof from `a` to `b`, without a mount. It is turned by `θ` like the roof. It keeps exactly the configured
margins from the roof, from the apex of the bracket, and from its tapered sides, which end at `e` and `f` on the roof. What remains of the roof is
divided 85 : 15. -/
structure RoofFits (cfg : BracketCfg) (a b : Vec) (isNut : Bool) (θ : ℝ) (center : Vec) (k : RoofBracket) : Prop where
  turn : UnitOf ⟨0, -Real.cos θ, -Real.sin θ⟩ (b - a)
  hole : ∃ pieces hole, ScrewHole cfg isNut false 0 pieces hole ∧ (∀ P ∈ pieces, Piece.moved (turned θ center) P ∈ k.pieces) ∧
    k.splitHole = (hole.map (turned θ center)).reverse
  roof : Margin cfg 0 (fun v => below a b (turned θ center v)) cfg.baseMargin
  apex : ∃ p ∈ k.splitEdge, (∀ p' ∈ k.splitEdge, below a b p' ≤ below a b p) ∧
    Margin cfg 0 (fun v => below a b p - below a b (turned θ center v)) cfg.apexMargin
  sides : ∃ e f : Vec, k.splitEdge.head? = some e ∧ k.splitEdge.getLast? = some f ∧ e.x = 0 ∧ f.x = 0 ∧ below a b e = 0 ∧ below a b f = 0 ∧
    k.roofEdge = [f, f + ⟨cfg.counterboreLength + cfg.holeLength, 0, 0⟩, e + ⟨cfg.counterboreLength + cfg.holeLength, 0, 0⟩, e] ∧
    15 * alongRoof a b e = 85 * (Real.sqrt ((b.y - a.y) ^ 2 + (b.z - a.z) ^ 2) - alongRoof a b f) ∧ alongRoof a b e < alongRoof a b f ∧
    Margin cfg 0 (fun v => (alongRoof a b (turned θ center v) - alongRoof a b e) * Real.cos cfg.taperAngle - below a b (turned θ center v) * Real.sin cfg.taperAngle)
      cfg.taperMargin ∧
    Margin cfg 0 (fun v => (alongRoof a b f - alongRoof a b (turned θ center v)) * Real.cos cfg.taperAngle - below a b (turned θ center v) * Real.sin cfg.taperAngle)
      cfg.taperMargin

/-- Sensible dimensions of all brackets: nothing too small for the quality, tapered sides that are closer to upright than to level, and no negative margins. -/
structure SaneBracket (q : Quality) (cfg : BracketCfg) : Prop where
  angle : 0 < q.maxChordAngle
  height : 0 < q.maxChordHeight
  hole : 1 / 500000 ≤ cfg.holeDiameter
  hole' : q.maxChordHeight ≤ cfg.holeDiameter
  bore : 1 / 500000 ≤ cfg.counterboreDiameter
  bore' : q.maxChordHeight ≤ cfg.counterboreDiameter
  corner : 1 / 1000000 ≤ cfg.cornerRadius
  corner' : q.maxChordHeight ≤ 2 * cfg.cornerRadius
  nut : 0 < cfg.nutAcrossFlats
  taper : 0 ≤ Real.sin cfg.taperAngle
  taper' : Real.sin cfg.taperAngle + 1 / 100 ≤ Real.cos cfg.taperAngle
  wall : 0 ≤ cfg.wallMargin
  base : 0 ≤ cfg.baseMargin
  apex : 0 ≤ cfg.apexMargin
  side : cfg.apexMargin ≤ cfg.taperMargin

/-- Sensible dimensions of the ziptie of the cable and of the hump that holds the cable: not too small for the quality, and an inclined hump. -/
structure SaneZip (q : Quality) (cfg : BracketCfg) (cable : CableCfg) : Prop where
  taper : 0 ≤ cfg.taperAngle
  taper' : cfg.taperAngle < Real.pi / 2
  bore : 1 / 500 ≤ cfg.counterboreDiameter
  bend : 1 / 1000000 ≤ cable.minBendRadius
  bend' : q.maxChordHeight ≤ 2 * cable.minBendRadius
  grip : 0 ≤ cable.gripHumpHeight
  grip' : cable.gripHumpHeight ≤ 2 * cable.minBendRadius
  zip : 1 / 500000 ≤ cable.ziptieHeight
  zip' : q.maxChordHeight ≤ cable.ziptieHeight
  diameter : 0 ≤ cable.diameter
  inset : 0 ≤ cable.bracketInset

/-- There is room for the cable between the bump in the wall, which bends it around an axis at the wall, and the hump at the front of the bracket, which bends it around another one: the
axes, both with the bend radius of the cable around them, are far enough from each other. The first term is their vertical distance, the second one their horizontal distance. -/
def CableRoom (cfg : BracketCfg) (cable : CableCfg) (extra : ℝ) : Prop :=
  let r := cable.minBendRadius
  let wall := max (cfg.counterboreDiameter / 2) cfg.nutRadius + cfg.wallMargin + extra
  let front := max (cfg.counterboreDiameter / 2) (hexTangentDist cfg.nutRadius (cfg.taperAngle - Real.pi / 2)) + cfg.taperMargin + cable.bracketInset
  let bottom := max (cfg.counterboreDiameter / 2) (cfg.nutAcrossFlats / 2) + cfg.apexMargin
  (cable.diameter + 2 * r) ^ 2 ≤ (cable.diameter + 2 * r - cable.gripHumpHeight) ^ 2 +
    (wall + (front + cable.ziptieHeight + cfg.taperMargin - r - (bottom + cable.gripHumpHeight - r) * Real.sin cfg.taperAngle) / Real.cos cfg.taperAngle) ^ 2

end Chrumm.Part.Spec
