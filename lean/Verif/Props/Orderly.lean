import Verif.Spec.Orderly
import Verif.Props.HexGrid
import Verif.Props.PlanSucceeds
import Verif.Props.EncoderPart

/-! Computations that give a result or a `ValueError`. -/

namespace Chrumm.Part
open Geo Geo.Spec Spec Classical

theorem Spec.Orderly.ok {α : Type} {x : Py α} {v : α} (h : x = .ok v) : Orderly x := .inl ⟨v, h⟩

theorem Spec.Orderly.pure {α : Type} (v : α) : Orderly (Pure.pure v : Py α) := .inl ⟨v, rfl⟩

theorem Spec.Orderly.value {α : Type} : Orderly (.error .valueError : Py α) := .inr rfl

theorem Spec.Orderly.ex {α : Type} {x : Py α} (h : ∃ v, x = .ok v) : Orderly x := .inl h

theorem Spec.Orderly.bind {α β : Type} {x : Py α} {f : α → Py β} (hx : Orderly x) (hf : ∀ v, x = .ok v → Orderly (f v)) : Orderly (x >>= f) := by
  rcases hx with ⟨v, rfl⟩ | rfl
  · exact hf v rfl
  · exact .inr rfl

theorem Spec.Orderly.step {α β : Type} {x : Py α} {a : α} {f : α → Py β} (hx : x = .ok a) (hf : Orderly (f a)) : Orderly (x >>= f) := by
  rw [hx]
  exact hf

theorem Spec.Orderly.mapM {α β : Type} {f : α → Py β} : ∀ {l : List α}, (∀ x ∈ l, Orderly (f x)) → Orderly (l.mapM f)
  | [], _ => .pure []
  | x :: l, h => by
    rw [List.mapM_cons]
    exact .bind (h x (by simp)) fun v _ => .bind (Spec.Orderly.mapM fun y hy => h y (by simp [hy])) fun vs _ => .pure _

theorem orderly_first {l : List Vec} (h : l ≠ []) : Orderly (pyIndex l 0) := by
  cases l with
  | nil => exact absurd rfl h
  | cons a l => exact .ok (pyIndex_zero.mpr rfl)

theorem orderly_last {l : List Vec} (h : l ≠ []) : Orderly (pyIndex l (-1)) :=
  .ok (pyIndex_last.mpr (List.getLast?_eq_some_getLast h))

theorem orderly_div {a b : ℝ} (h : b ≠ 0) : Orderly (pyDiv a b) := by
  unfold pyDiv
  rw [if_neg h]
  exact .ok rfl

theorem orderly_max {l : List ℝ} : Orderly (pyMax l) := by
  cases l with
  | nil => exact .value
  | cons a l => exact .ok rfl

theorem orderly_min {l : List ℝ} : Orderly (pyMin l) := by
  cases l with
  | nil => exact .value
  | cons a l => exact .ok rfl

theorem orderly_vecDiv {a : Vec} {s : ℝ} (h : s ≠ 0) : Orderly (a.div s) := by
  unfold Vec.div
  rw [if_neg h]
  exact .ok rfl

theorem magnitude_ne_zero {v : Vec} (h : v ≠ 0) : v.magnitude ≠ 0 := by
  intro h0
  apply h
  unfold Vec.magnitude at h0
  rw [Real.sqrt_eq_zero (by nlinarith [mul_self_nonneg v.x, mul_self_nonneg v.y, mul_self_nonneg v.z])] at h0
  have hx : v.x = 0 := by nlinarith [mul_self_nonneg v.x, mul_self_nonneg v.y, mul_self_nonneg v.z]
  have hy : v.y = 0 := by nlinarith [mul_self_nonneg v.x, mul_self_nonneg v.y, mul_self_nonneg v.z]
  have hz : v.z = 0 := by nlinarith [mul_self_nonneg v.x, mul_self_nonneg v.y, mul_self_nonneg v.z]
  ext
  · exact hx
  · exact hy
  · exact hz

theorem orderly_normalized {v : Vec} (h : v ≠ 0) : Orderly v.normalized := orderly_vecDiv (magnitude_ne_zero h)

theorem orderly_line {p d : Vec} (h : d ≠ 0) : Orderly (Line.make p d) := by
  unfold Line.make
  exact .bind (orderly_normalized h) fun v _ => .pure _

theorem orderly_plane {p d : Vec} (h : d ≠ 0) : Orderly (Plane.make p d) := by
  unfold Plane.make
  exact .bind (orderly_normalized h) fun v _ => .pure _

theorem line_self {p d : Vec} (h : d.dot d = 1) : Line.make p d = .ok ⟨p, d⟩ := by
  unfold Line.make
  rw [normalized_self h]
  rfl

theorem plane_ok {p d : Vec} (h : d.dot d = 1) : Plane.make p d = .ok ⟨p, d⟩ := plane_self (p := ⟨p, d⟩) h

theorem orderly_onLine {pl : Plane} {l : Line} (h : 1 / 1000000 ≤ |pl.normal.dot l.dir|) : Orderly (pl.intersectLine l) := by
  unfold Plane.intersectLine
  dsimp only
  have h0 : ¬isZero (pl.normal.dot l.dir) := by unfold isZero; linarith
  rw [if_neg h0]
  exact .bind (orderly_div (by
    intro e
    rw [e, abs_zero] at h
    norm_num at h)) fun v _ => .pure _

theorem orderly_lines {l m : Line} (hl : l.dir.dot l.dir = 1) (hm : m.dir.dot m.dir = 1)
    (h : 1 / 1000000 ≤ 1 - (m.dir.dot l.dir) ^ 2) : Orderly (l.intersect m) := by
  have := intersect_eq hl hm
  dsimp only at this
  rw [this, if_neg (by unfold isZero; rw [abs_of_nonneg (by linarith)]; linarith)]
  exact .ok rfl

theorem orderly_arc {q : Quality} {r s w : ℝ} {c : Vec} (hq : 0 < q.maxChordAngle) (hh : 0 < q.maxChordHeight) (hw : w ≠ 0) :
    Orderly (arc2D q r s w c) := by
  obtain ⟨h1, h2, h3, -⟩ := C53_succeeds q r s w c hq hh
  rcases lt_or_ge r (1 / 1000000) with hr | hr
  · exact .ok (h1 hr)
  · rcases lt_or_ge (2 * r) q.maxChordHeight with hf | hf
    · exact .inr (h3 hr hf)
    · exact .ex ((h2 hr).mpr ⟨hf, hw⟩)

theorem arc_ne {q : Quality} {r s w : ℝ} {c : Vec} {pts : List Vec} (hq : 0 < q.maxChordAngle) (h : arc2D q r s w c = .ok pts) : pts ≠ [] := by
  rcases lt_or_ge r (1 / 1000000) with hr | hr
  · unfold arc2D at h
    rw [if_pos hr] at h
    obtain rfl := Except.ok.inj h
    simp
  · have := (C53_ends hr hq h).1
    rintro rfl
    simp at this

theorem orderly_corner {q : Quality} {r : ℝ} {a b c : Vec} (hq : 0 < q.maxChordAngle) (hh : 0 < q.maxChordHeight) (hr : 1 / 1000000 ≤ r)
    (hl : left b a c ≠ 0) : Orderly (cornerArc2D q r a b c) := by
  obtain ⟨pts, hp⟩ := C54_succeeds ⟨min q.maxChordHeight (2 * r), q.maxChordAngle⟩ r a b c hq (lt_min hh (by linarith)) hr
    (min_le_right _ _) hl
  unfold cornerArc2D at hp ⊢
  obtain ⟨u, h1, h2⟩ := bind_ok hp
  obtain ⟨w, h3, h4⟩ := bind_ok h2
  dsimp only at h4 ⊢
  obtain ⟨γ, h5, h6⟩ := bind_ok h4
  obtain ⟨d, h7, h8⟩ := bind_ok h6
  obtain ⟨e, h9, h10⟩ := bind_ok h8
  rw [h1]
  refine .bind (.ok rfl) fun u' hu => ?_
  obtain rfl := Except.ok.inj hu
  rw [h3]
  refine .bind (.ok rfl) fun w' hw => ?_
  obtain rfl := Except.ok.inj hw
  rw [h5]
  refine .bind (.ok rfl) fun w' hw => ?_
  obtain rfl := Except.ok.inj hw
  rw [h7]
  refine .bind (.ok rfl) fun w' hw => ?_
  obtain rfl := Except.ok.inj hw
  rw [h9]
  refine .bind (.ok rfl) fun w' hw => ?_
  obtain rfl := Except.ok.inj hw
  refine orderly_arc hq hh ?_
  intro h0
  rw [h0] at h10
  have := (C53_succeeds ⟨min q.maxChordHeight (2 * r), q.maxChordAngle⟩ r (angle2D (u.ortho2D * (if (w.cross u).z > 0 then (1 : ℝ) else -1))) 0 (b.xy + e * d) hq
    (lt_min hh (by linarith))).2.2.2 hr (min_le_right _ _)
  rw [this] at h10
  cases h10

end Chrumm.Part
