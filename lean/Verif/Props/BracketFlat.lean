import Verif.Props.Bracket
import Verif.Props.Flat

/-! C82: what the brackets leave to the split lies on the plane x = 0. -/

namespace Chrumm.Part
open Geo Geo.Spec Spec Classical

/-- All points are on the plane x = 0. -/
def OnSplit (l : List Vec) : Prop := ∀ p ∈ l, p.x = 0

/-- A line on the plane x = 0. -/
def Line0 (l : Line) : Prop := l.pos.x = 0 ∧ l.dir.x = 0

theorem div_x {v r : Vec} {s : ℝ} (h : v.div s = .ok r) (hv : v.x = 0) : r.x = 0 := by
  unfold Vec.div at h
  split_ifs at h
  obtain rfl := Except.ok.inj h
  simp [hv]

theorem normalized_x {v r : Vec} (h : v.normalized = .ok r) (hv : v.x = 0) : r.x = 0 := div_x h hv

theorem line0_make {p d : Vec} {l : Line} (h : Line.make p d = .ok l) (hp : p.x = 0) (hd : d.x = 0) : Line0 l := by
  unfold Line.make at h
  obtain ⟨e, he, h⟩ := bind_ok h
  obtain rfl := Except.ok.inj h
  exact ⟨hp, normalized_x he hd⟩

theorem line0_translated {l m : Line} {v : Vec} (h : l.translated v = .ok m) (hl : Line0 l) (hv : v.x = 0) : Line0 m :=
  line0_make h (by simp [hl.1, hv]) hl.2

theorem line0_intersect {l m : Line} {v : Vec} (h : l.intersect m = .ok v) (hl : Line0 l) (hm : Line0 m) : v.x = 0 := by
  unfold Line.intersect at h
  dsimp only at h
  split_ifs at h
  obtain ⟨a, -, h⟩ := bind_ok h
  obtain ⟨b, -, h⟩ := bind_ok h
  exact div_x h (by simp [hl.1, hl.2, hm.1, hm.2])

theorem archCorner_x {q : Quality} {r : ℝ} {a b c : Vec} {l : List Vec} (h : archCorner q r a b c = .ok l) : OnSplit l := by
  unfold archCorner at h
  obtain ⟨arc, -, h⟩ := bind_ok h
  obtain rfl := Except.ok.inj h
  intro p hp
  obtain ⟨q, -, rfl⟩ := List.mem_map.mp hp
  rfl

theorem onSplit_append {l m : List Vec} (hl : OnSplit l) (hm : OnSplit m) : OnSplit (l ++ m) := by
  intro p hp
  rcases List.mem_append.mp hp with h | h
  · exact hl p h
  · exact hm p h

theorem onSplit_nil : OnSplit [] := by intro p hp; simp at hp
theorem onSplit_cons {a : Vec} {l : List Vec} (ha : a.x = 0) (hl : OnSplit l) : OnSplit (a :: l) := by
  intro p hp
  rcases List.mem_cons.mp hp with h | h
  · rw [h, ha]
  · exact hl p h
theorem onSplit_one {a : Vec} (ha : a.x = 0) : OnSplit [a] := onSplit_cons ha onSplit_nil
theorem onSplit_reverse {l : List Vec} (hl : OnSplit l) : OnSplit l.reverse := fun p hp => hl p (by simpa using hp)
theorem onSplit_collapsed {l : List Vec} (d : ℝ) (hl : OnSplit l) : OnSplit (collapsed l d) :=
  fun p hp => hl p ((C35_subsequence l d).1.subset hp)
theorem onSplit_translated {l : List Vec} {v : Vec} (hl : OnSplit l) (hv : v.x = 0) : OnSplit (edgeTranslated l v) := by
  intro p hp
  obtain ⟨q, hq, rfl⟩ := List.mem_map.mp hp
  simp [hl q hq, hv]
theorem onSplit_map {α : Type} {f : α → Vec} {l : List α} (h : ∀ a ∈ l, (f a).x = 0) : OnSplit (l.map f) := by
  intro p hp
  obtain ⟨q, hq, rfl⟩ := List.mem_map.mp hp
  exact h q hq
theorem onSplit_mirroredY {l : List Vec} (hl : OnSplit l) : OnSplit (l.map Vec.mirroredY) :=
  onSplit_map fun a ha => hl a ha
theorem onSplit_index {l : List Vec} {i : ℤ} {p : Vec} (h : pyIndex l i = .ok p) (hl : OnSplit l) : p.x = 0 := by
  apply hl
  have key : ∀ n, pyGet l n = .ok p → p ∈ l := fun n hn => by
    unfold pyGet at hn
    cases he : l[n]? with
    | none => rw [he] at hn; simp at hn
    | some v =>
      rw [he] at hn
      obtain rfl := Except.ok.inj hn
      exact List.mem_of_getElem? he
  unfold pyIndex at h
  split_ifs at h
  · exact key _ h
  · exact key _ h

theorem screwHole_x {q : Quality} {taper : Option ℝ} {cfg : BracketCfg} {c : Vec} {n u : Bool} {ps : List Piece}
    {holeL boreR : List Vec} (h : screwHole q taper cfg c n u = .ok (ps, holeL, boreR)) (hc : c.x = 0) : OnSplit holeL := by
  unfold screwHole at h
  dsimp only at h
  obtain ⟨hole, -, h⟩ := bind_ok h
  obtain ⟨bore, -, h⟩ := bind_ok h
  have := Except.ok.inj h
  simp only [Prod.mk.injEq] at this
  obtain ⟨rfl, rfl, rfl⟩ := this
  exact onSplit_translated (onSplit_map fun _ _ => rfl) hc

/-! ### Corner brackets -/

theorem cornerSketch_x {q : Quality} {cfg : BracketCfg} {a b c : Vec} {x y : ℝ} {s : CornerSketch}
    (h : cornerSketch q cfg a b c x y = .ok s) (ha : a.x = 0) (hb : b.x = 0) (hc : c.x = 0) :
    s.screwCenter.x = 0 ∧ Line0 s.roofLine ∧ Line0 s.apexLine ∧ Line0 s.taperLine ∧ s.taperDir.x = 0 ∧ s.taperOrtho.x = 0 ∧
    s.archLBG.x = 0 ∧ s.archLFT.x = 0 ∧ OnSplit s.arcL := by
  unfold cornerSketch at h
  dsimp only at h
  obtain ⟨roofDir, i1, h⟩ := bind_ok h
  have x1 := normalized_x i1 (by simp [ha, hb])
  obtain ⟨wO, i2, h⟩ := bind_ok h
  have x2 := line0_make i2 (by simp [hc]) rfl
  obtain ⟨rO, i3, h⟩ := bind_ok h
  have x3 := line0_make i3 (by simp [ha]) x1
  obtain ⟨sc, i4, h⟩ := bind_ok h
  have x4 := line0_intersect i4 x3 x2
  obtain ⟨wL, i5, h⟩ := bind_ok h
  have x5 := line0_make i5 hc rfl
  obtain ⟨rL, i6, h⟩ := bind_ok h
  have x6 := line0_make i6 ha x1
  obtain ⟨aL, i7, h⟩ := bind_ok h
  have x7 := line0_make i7 (by simp [x4]) rfl
  obtain ⟨tL, i8, h⟩ := bind_ok h
  have x8 := line0_make i8 (by simp [x4]) rfl
  obtain ⟨p1, i9, h⟩ := bind_ok h
  obtain ⟨p2, i10, h⟩ := bind_ok h
  obtain ⟨p3, i11, h⟩ := bind_ok h
  obtain ⟨arc, i12, h⟩ := bind_ok h
  obtain rfl := Except.ok.inj h
  exact ⟨x4, x6, x7, x8, rfl, rfl, line0_intersect i9 x5 x7, line0_intersect i11 x8 x6, archCorner_x i12⟩

theorem zipHump_x {q : Quality} {cfg : BracketCfg} {cable : CableCfg} {s : CornerSketch} {l : List Vec} {p r : Vec}
    (h : zipHump q cfg cable s = .ok (l, p, r)) (h1 : Line0 s.roofLine) (h2 : Line0 s.apexLine) (h3 : Line0 s.taperLine)
    (h4 : s.taperOrtho.x = 0) : OnSplit l ∧ p.x = 0 ∧ r.x = 0 := by
  unfold zipHump at h
  dsimp only at h
  obtain ⟨cF, i1, h⟩ := bind_ok h
  have x1 := line0_translated i1 h3 (by simp [h4])
  obtain ⟨cT, i2, h⟩ := bind_ok h
  have x2 := line0_translated i2 h2 rfl
  obtain ⟨hc, i3, h⟩ := bind_ok h
  have x3 := line0_intersect i3 x1 x2
  split_ifs at h
  obtain ⟨_, -, h⟩ := bind_ok h
  obtain ⟨_, -, h⟩ := bind_ok h
  obtain ⟨arc, -, h⟩ := bind_ok h
  have x4 : OnSplit (arc.map fun p => (⟨0, -p.x, -p.y⟩ + hc : Vec)) := onSplit_map fun a _ => by simp [x3]
  generalize (arc.map fun p => (⟨0, -p.x, -p.y⟩ + hc : Vec)) = A at h x4
  obtain ⟨h0, i4, h⟩ := bind_ok h
  have x5 := onSplit_index i4 x4
  obtain ⟨h1', i5, h⟩ := bind_ok h
  have x6 := onSplit_index i5 x4
  obtain ⟨lF, i6, h⟩ := bind_ok h
  have x7 := line0_make i6 x5 h3.2
  obtain ⟨lB, i7, h⟩ := bind_ok h
  have x8 := line0_make i7 x6 (by simpa [Vec.mirroredY] using h3.2)
  obtain ⟨lG, i8, h⟩ := bind_ok h
  have x9 := line0_make i8 (by simp [h2.1]) rfl
  obtain ⟨p1, i9, h⟩ := bind_ok h
  have x10 := line0_intersect i9 x7 h1
  obtain ⟨p2, i10, h⟩ := bind_ok h
  have x11 := line0_intersect i10 x8 h2
  obtain ⟨p3, i11, h⟩ := bind_ok h
  have x12 := line0_intersect i11 x9 x7
  have := Except.ok.inj h
  simp only [Prod.mk.injEq] at this
  obtain ⟨rfl, rfl, rfl⟩ := this
  exact ⟨onSplit_collapsed _ (onSplit_append (onSplit_append (onSplit_one x10) x4) (onSplit_one x11)), x10, x12⟩

theorem zipHole_x {q : Quality} {cfg : BracketCfg} {cable : CableCfg} {s : CornerSketch} {l : List Vec} {p r : Vec}
    (h : zipHole q cfg cable s p r = .ok l) (h1 : p.x = 0) (h2 : r.x = 0) (h3 : s.taperDir.x = 0) (h4 : s.taperOrtho.x = 0) :
    OnSplit l := by
  unfold zipHole at h
  dsimp only at h
  obtain ⟨arc, -, h⟩ := bind_ok h
  generalize edgeTransformed arc ((1 : Mat).rotatedZ cfg.taperAngle) = H at h
  generalize H ++ (H.map Vec.mirroredX).map Vec.mirroredY = K at h
  obtain ⟨z0, i1, h⟩ := bind_ok h
  obtain ⟨a1, i2, h⟩ := bind_ok h
  obtain rfl := Except.ok.inj h
  have : OnSplit (K.map fun v => (⟨0, v.x, v.y⟩ + (p * (4 / 10 : ℝ) + r * (6 / 10 : ℝ) -
      s.taperOrtho * (cable.ziptieHeight / 2 + cfg.taperMargin)) : Vec)) := onSplit_map fun a _ => by simp [h1, h2, h4]
  split_ifs
  · exact onSplit_translated this (by simp [h3])
  · exact this

theorem cornerForward_x {q : Quality} {taper : Option ℝ} {cfg : BracketCfg} {zip : Option CableCfg} {a b c : Vec}
    {x y : ℝ} {n : Bool} {k : CornerBracket} (h : cornerForward q taper cfg zip a b c x y n = .ok k)
    (ha : a.x = 0) (hb : b.x = 0) (hc : c.x = 0) : OnSplit k.splitEdge ∧ ∀ e ∈ k.splitHoles, OnSplit e := by
  unfold cornerForward at h
  dsimp only at h
  obtain ⟨s, i1, h⟩ := bind_ok h
  obtain ⟨x1, x2, x3, x4, x5, x6, x7, x8, x9⟩ := cornerSketch_x i1 ha hb hc
  have xL : OnSplit ([s.archLBG] ++ s.arcL ++ [s.archLFT]) :=
    onSplit_append (onSplit_append (onSplit_one x7) x9) (onSplit_one x8)
  generalize [s.archLBG] ++ s.arcL ++ [s.archLFT] = L at h xL
  obtain ⟨l0, i1, h⟩ := bind_ok h
  obtain ⟨l1, i2, h⟩ := bind_ok h
  obtain ⟨r0, i3, h⟩ := bind_ok h
  obtain ⟨r1, i4, h⟩ := bind_ok h
  obtain ⟨⟨hp, holeL, holeR⟩, i5, h⟩ := bind_ok h
  have xH := screwHole_x i5 x1
  dsimp only at h
  cases zip with
  | none =>
    unfold cornerFinish at h
    obtain rfl := Except.ok.inj h
    refine ⟨xL, fun e he => ?_⟩
    obtain rfl := List.mem_singleton.mp he
    exact onSplit_reverse xH
  | some cable =>
    unfold cornerFinish at h
    dsimp only at h
    obtain ⟨⟨zp, newR, newL, split, roof, hole⟩, i6, h⟩ := bind_ok h
    obtain rfl := Except.ok.inj h
    unfold cornerZip at i6
    dsimp only at i6
    obtain ⟨⟨H, f1, f2⟩, j1, i6⟩ := bind_ok i6
    obtain ⟨y1, y2, y3⟩ := zipHump_x j1 x2 x3 x4 x6
    dsimp only at i6
    obtain ⟨Z, j2, i6⟩ := bind_ok i6
    have y4 := zipHole_x j2 y2 y3 x5 x6
    obtain ⟨l0', k1, i6⟩ := bind_ok i6
    have y5 := onSplit_index k1 xL
    obtain ⟨_, -, i6⟩ := bind_ok i6
    obtain ⟨_, -, i6⟩ := bind_ok i6
    obtain ⟨_, -, i6⟩ := bind_ok i6
    obtain ⟨_, -, i6⟩ := bind_ok i6
    obtain ⟨_, -, i6⟩ := bind_ok i6
    obtain ⟨_, -, i6⟩ := bind_ok i6
    obtain ⟨_, -, i6⟩ := bind_ok i6
    have := Except.ok.inj i6
    simp only [Prod.mk.injEq] at this
    obtain ⟨-, -, -, rfl, -, rfl⟩ := this
    refine ⟨onSplit_reverse (onSplit_append y1 (onSplit_one y5)), fun e he => ?_⟩
    rcases List.mem_append.mp he with he | he
    · obtain rfl := List.mem_singleton.mp he
      exact onSplit_reverse xH
    · obtain rfl := List.mem_singleton.mp he
      exact onSplit_reverse y4

/-! ### Floor brackets -/

theorem floorSketch_x {q : Quality} {cfg : BracketCfg} {g t z : ℝ} {l : List Vec} (h : floorSketch q cfg g t = .ok (l, z)) :
    OnSplit l := by
  unfold floorSketch at h
  dsimp only at h
  obtain ⟨lF, i1, h⟩ := bind_ok h
  have x1 := line0_make i1 (by simp) rfl
  obtain ⟨lB, i2, h⟩ := bind_ok h
  have x2 := line0_make i2 (by simpa [Vec.mirroredY] using x1.1) (by simpa [Vec.mirroredY] using x1.2)
  obtain ⟨lG, i3, h⟩ := bind_ok h
  have x3 := line0_make i3 rfl rfl
  obtain ⟨lT, i4, h⟩ := bind_ok h
  have x4 := line0_make i4 rfl rfl
  obtain ⟨lL, i5, h⟩ := bind_ok h
  have x5 := line0_make i5 rfl rfl
  obtain ⟨p1, i6, h⟩ := bind_ok h
  obtain ⟨p2, i7, h⟩ := bind_ok h
  obtain ⟨p3, i8, h⟩ := bind_ok h
  obtain ⟨p4, i9, h⟩ := bind_ok h
  split_ifs at h
  obtain ⟨cF, j1, h⟩ := bind_ok h
  obtain ⟨cB, j2, h⟩ := bind_ok h
  have := Except.ok.inj h
  simp only [Prod.mk.injEq] at this
  obtain ⟨rfl, rfl⟩ := this
  exact onSplit_collapsed _ (onSplit_append (onSplit_append (onSplit_append (onSplit_one (line0_intersect i9 x2 x3))
    (archCorner_x j2)) (archCorner_x j1)) (onSplit_one (line0_intersect i6 x1 x5)))

theorem floorForward_x {q : Quality} {taper : Option ℝ} {cfg : BracketCfg} {a c d e : Vec} {m : ℝ} {n : Bool}
    {k : FloorBracket} (h : floorForward q taper cfg a c d e m n = .ok k) (he : e.x = 0) :
    OnSplit k.splitEdge ∧ OnSplit k.splitHole := by
  unfold floorForward at h
  dsimp only at h
  obtain ⟨⟨L, z⟩, i1, h⟩ := bind_ok h
  have x1 := floorSketch_x i1
  dsimp only at h
  obtain ⟨a1, -, h⟩ := bind_ok h
  obtain ⟨⟨hp, holeL, holeR⟩, i2, h⟩ := bind_ok h
  have x2 := screwHole_x i2 rfl
  dsimp only at h
  obtain ⟨_, -, h⟩ := bind_ok h
  obtain ⟨_, -, h⟩ := bind_ok h
  obtain ⟨_, -, h⟩ := bind_ok h
  obtain rfl := Except.ok.inj h
  refine ⟨onSplit_reverse ?_, onSplit_reverse x2⟩
  have x3 : OnSplit (edgeTranslated L (Vec.xy ⟨0, floorCenterY cfg m d e a1, z⟩)) := onSplit_translated x1 rfl
  split_ifs
  · exact x3
  · exact onSplit_append x3 (onSplit_one he)

/-! ### Roof brackets -/

theorem roofSketch_x {q : Quality} {cfg : BracketCfg} {lF lB : List Vec} {t g : Vec}
    (h : roofSketch q cfg = .ok (lF, lB, t, g)) : OnSplit lF ∧ OnSplit lB ∧ t.x = 0 ∧ g.x = 0 := by
  unfold roofSketch at h
  dsimp only at h
  obtain ⟨lB, i1, h⟩ := bind_ok h
  have x1 := line0_make i1 (by simp) rfl
  obtain ⟨lF, i2, h⟩ := bind_ok h
  have x2 := line0_make i2 (by simpa [Vec.mirroredY] using x1.1) (by simpa [Vec.mirroredY] using x1.2)
  obtain ⟨lG, i3, h⟩ := bind_ok h
  have x3 := line0_make i3 rfl rfl
  obtain ⟨lT, i4, h⟩ := bind_ok h
  have x4 := line0_make i4 rfl rfl
  obtain ⟨p1, i6, h⟩ := bind_ok h
  obtain ⟨p2, i7, h⟩ := bind_ok h
  obtain ⟨p3, i8, h⟩ := bind_ok h
  obtain ⟨p4, i9, h⟩ := bind_ok h
  obtain ⟨cF, j1, h⟩ := bind_ok h
  obtain ⟨cB, j2, h⟩ := bind_ok h
  have := Except.ok.inj h
  simp only [Prod.mk.injEq] at this
  obtain ⟨rfl, rfl, rfl, rfl⟩ := this
  exact ⟨onSplit_cons (line0_intersect i6 x2 x4) (archCorner_x j1),
    onSplit_append (archCorner_x j2) (onSplit_one (line0_intersect i9 x1 x4)), x4.1, x3.1⟩

/-- The matrix that puts the sketch below the roof keeps x. -/
theorem roofAlign_x (t p v : Vec) (φ : ℝ) (ht : t.x = 0) (hp : p.x = 0) :
    (v.transformed ((((1 : Mat).translated (-t)).rotatedX φ).translated p)).x = v.x := by
  simp [Vec.transformed, Mat.translated, Mat.rotatedX, Mat.rotateBy, Mat.mul_def, Mat.one_def, ht, hp]

end Chrumm.Part
