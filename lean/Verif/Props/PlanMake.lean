import Verif.Props.PlanBoss
import Verif.Spec.Plan

/-! The finished plan. -/

namespace Chrumm.Part
open Geo Geo.Spec Spec

theorem above_eq (p : Plane) (v : Vec) : above p v = p.distance v := by
  simp [above, Plane.distance, Vec.dot]

theorem unitNormal_iff (p : Plane) : UnitNormal p ↔ UnitPlane p := by
  unfold UnitNormal UnitPlane Vec.dot
  constructor <;> intro h <;> nlinarith

/-- Three planes meet in one point. -/
theorem intersect_on {a b c : Plane} {r : Vec} (ha : UnitPlane a) (hb : UnitPlane b) (hc : UnitPlane c)
    (h : a.intersectPlanes b c = .ok r) :
    ∀ x, (a.distance x = 0 ∧ b.distance x = 0 ∧ c.distance x = 0) ↔ x = r :=
  (C27_three_planes _ _ _ _ _ _ a b c (plane_self ha) (plane_self hb) (plane_self hc)).2 r h

/-- Each point is the only common point of its planes. -/
def Corners (l : List (Vec × Plane × Plane × Plane)) : Prop :=
  ∀ c ∈ l, UnitPlane c.2.1 ∧ UnitPlane c.2.2.1 ∧ UnitPlane c.2.2.2 ∧
    ∀ x, (c.2.1.distance x = 0 ∧ c.2.2.1.distance x = 0 ∧ c.2.2.2.distance x = 0) ↔ x = c.1

theorem corners_cons {r : Vec} {a b c : Plane} {l : List (Vec × Plane × Plane × Plane)} (ha : UnitPlane a) (hb : UnitPlane b)
    (hc : UnitPlane c) (h : a.intersectPlanes b c = .ok r) (hl : Corners l) : Corners ((r, a, b, c) :: l) := by
  intro x hx
  rcases List.mem_cons.mp hx with rfl | hx
  · exact ⟨ha, hb, hc, intersect_on ha hb hc h⟩
  · exact hl x hx

theorem corners_nil : Corners [] := by intro x hx; cases hx

def TentPlanes.Unit (t : TentPlanes) : Prop := TentPlanes.Rel (fun a _ => UnitPlane a) t t
def SidePlanes.Unit (t : SidePlanes) : Prop := SidePlanes.Rel (fun a _ => UnitPlane a) t t
def WallPlanes.Unit (t : WallPlanes) : Prop := WallPlanes.Rel (fun a _ => UnitPlane a) t t

theorem referencePoints_ok {r : Vec × Vec} {t : TentPlanes} {s : SidePlanes} {w : WallPlanes} {th : Plane} {pts : Points}
    (ht : t.Unit) (hs : s.Unit) (hw : w.Unit) (hth : UnitPlane th)
    (h : referencePoints r t s w th = .ok pts) (plan : Plan) (hp : plan.points = pts) (e1 : plan.tent = t) (e2 : plan.sides = s)
    (e3 : plan.walls = w) (e4 : plan.thumbL = th) :
    Corners (corners plan) ∧ pts.ridgeIRF = r.1 ∧ pts.ridgeORF = r.2 := by
  unfold referencePoints at h
  obtain ⟨_, h1, h⟩ := bind_ok h
  obtain ⟨_, h2, h⟩ := bind_ok h
  obtain ⟨_, h3, h⟩ := bind_ok h
  obtain ⟨_, h4, h⟩ := bind_ok h
  obtain ⟨_, h5, h⟩ := bind_ok h
  obtain ⟨_, h6, h⟩ := bind_ok h
  obtain ⟨_, h7, h⟩ := bind_ok h
  obtain ⟨_, h8, h⟩ := bind_ok h
  obtain ⟨_, h9, h⟩ := bind_ok h
  obtain ⟨_, h10, h⟩ := bind_ok h
  obtain ⟨_, h11, h⟩ := bind_ok h
  obtain ⟨_, h12, h⟩ := bind_ok h
  obtain ⟨_, h13, h⟩ := bind_ok h
  obtain ⟨_, h14, h⟩ := bind_ok h
  obtain ⟨_, h15, h⟩ := bind_ok h
  obtain ⟨_, h16, h⟩ := bind_ok h
  obtain ⟨_, h17, h⟩ := bind_ok h
  obtain ⟨_, h18, h⟩ := bind_ok h
  cases h
  obtain ⟨t1, t2, t3, t4, t5, t6, t7, t8, t9, t10⟩ := ht
  obtain ⟨s1, s2, s3, s4, s5, s6⟩ := hs
  obtain ⟨w1, w2, w3, w4⟩ := hw
  refine ⟨?_, rfl, rfl⟩
  unfold corners
  rw [hp, e1, e2, e3, e4]
  dsimp only
  refine corners_cons ?_ ?_ ?_ h1 (corners_cons ?_ ?_ ?_ h2 (corners_cons ?_ ?_ ?_ h3 (corners_cons ?_ ?_ ?_ h4
    (corners_cons ?_ ?_ ?_ h5 (corners_cons ?_ ?_ ?_ h6 (corners_cons ?_ ?_ ?_ h7 (corners_cons ?_ ?_ ?_ h8
    (corners_cons ?_ ?_ ?_ h9 (corners_cons ?_ ?_ ?_ h10 (corners_cons ?_ ?_ ?_ h11 (corners_cons ?_ ?_ ?_ h12
    (corners_cons ?_ ?_ ?_ h13 (corners_cons ?_ ?_ ?_ h14 (corners_cons ?_ ?_ ?_ h15 (corners_cons ?_ ?_ ?_ h16
    (corners_cons ?_ ?_ ?_ h17 (corners_cons ?_ ?_ ?_ h18 corners_nil))))))))))))))))) <;> assumption

/-- All planes and points are moved. -/
theorem corners_moved {P Q : Plan} {v : Vec} (h : Corners (corners P))
    (ht : TentPlanes.Rel (CarriedBy (shift v)) P.tent Q.tent) (hs : SidePlanes.Rel (CarriedBy (shift v)) P.sides Q.sides)
    (hw : WallPlanes.Rel (CarriedBy (shift v)) P.walls Q.walls) (hth : CarriedBy (shift v) P.thumbL Q.thumbL)
    (hp : Q.points = P.points.map (· + v)) : Corners (corners Q) := by
  have step : ∀ {r : Vec} {a b c a' b' c' : Plane}, (r, a, b, c) ∈ corners P → CarriedBy (shift v) a a' →
      CarriedBy (shift v) b b' → CarriedBy (shift v) c c' → UnitPlane a' ∧ UnitPlane b' ∧ UnitPlane c' ∧
      ∀ x, (a'.distance x = 0 ∧ b'.distance x = 0 ∧ c'.distance x = 0) ↔ x = r + v := by
    intro r a b c a' b' c' hm ha hb hc
    obtain ⟨u1, u2, u3, hx⟩ := h _ hm
    dsimp only at u1 u2 u3 hx
    obtain ⟨v1, k1⟩ := ha u1
    obtain ⟨v2, k2⟩ := hb u2
    obtain ⟨v3, k3⟩ := hc u3
    refine ⟨v1, v2, v3, fun x => ?_⟩
    have e : x = (x - v).transformed (shift v) := by
      rw [shift_apply]; ext <;> simp
    rw [e, k1, k2, k3, hx, ← e]
    constructor
    · intro h; rw [← h]; ext <;> simp
    · intro h; rw [h]; ext <;> simp
  obtain ⟨t1, t2, t3, t4, t5, t6, t7, t8, t9, t10⟩ := ht
  obtain ⟨s1, s2, s3, s4, s5, s6⟩ := hs
  obtain ⟨w1, w2, w3, w4⟩ := hw
  intro c hc
  unfold corners at hc
  rw [hp] at hc
  simp only [Points.map, List.mem_cons, List.not_mem_nil, or_false] at hc
  rcases hc with rfl | rfl | rfl | rfl | rfl | rfl | rfl | rfl | rfl | rfl | rfl | rfl | rfl | rfl | rfl | rfl | rfl | rfl <;>
    (refine step ?_ ‹_› ‹_› ‹_›; simp [corners])

end Chrumm.Part
