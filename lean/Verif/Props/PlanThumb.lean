import Verif.Props.PlanRaise

/-! C70: the left front corner of the thumb keys' wall. -/

namespace Chrumm.Part
open Geo Geo.Spec
open Part.Spec

noncomputable section

/-- The direction to the back of a key. -/
def Spec.backOf (k : Key) : Vec := (⟨0, 1, 0⟩ : Vec).transformed k.matrix - (0 : Vec).transformed k.matrix

theorem back_unit {k : Key} (h : Motion k.matrix) : (backOf k).dot (backOf k) = 1 := by
  have := h.2.1 ⟨0, 1, 0⟩ 0
  unfold backOf
  simp only [distSq, Vec.zero_x, Vec.zero_y, Vec.zero_z, Vec.dot, Vec.sub_x, Vec.sub_y, Vec.sub_z] at this ⊢
  linarith

theorem back_normal {k : Key} (h : Motion k.matrix) : (⟨0, 1, 0⟩ : Vec).transformedNormal k.matrix = .ok (backOf k) := by
  have := normalized_self (back_unit h)
  rw [← this]
  unfold Vec.transformedNormal backOf
  congr 1
  ext <;> simp [Vec.transformed]

theorem back_shift {k : Key} (h : Mat.Affine k.matrix) (v : Vec) : backOf (k.transform (shift v)) = backOf k := by
  unfold backOf
  rw [show (k.transform (shift v)).matrix = k.matrix * shift v from rfl, Mat.transformed_mul h, Mat.transformed_mul h, shift_apply, shift_apply]
  ext <;> simp

theorem moved_motion {l : Layout} {m : Mat} (hm : Motion m) {s : Option Side} (h : ∀ k ∈ keys l s, Motion k.matrix) :
    ∀ k ∈ keys (l.moved m m m) s, Motion k.matrix := by
  intro k hk
  rw [keys_moved] at hk
  obtain ⟨k0, hk0, rfl⟩ := List.mem_map.mp hk
  exact (h k0 hk0).mul hm

theorem arranged_keys {cfg : PlanCfg} {side : Side} {l0 l1 : Layout} {pivot : Vec} {a p t : Mat}
    (h : Arranged cfg side l0 l1 pivot a p t) {s : Option Side} : ∀ k ∈ keys l1 s, Motion k.matrix := by
  obtain ⟨ma, mp, mt⟩ := arranged_motions h
  obtain ⟨f, -, ff, ft⟩ := make_flat h.make
  intro k hk
  rw [h.layout] at hk
  unfold keys at hk
  rw [fingers_moved _ _ _ _ _ (by norm_num), fingers_moved _ _ _ _ _ (by norm_num), thumbs_moved] at hk
  simp only [List.mem_append, List.mem_map] at hk
  rcases hk with (⟨k0, hk0, rfl⟩ | ⟨k0, hk0, rfl⟩) | ⟨k0, hk0, rfl⟩
  · exact (ff 0 (by norm_num) _ k0 hk0).motion.mul ma
  · exact (ff 1 (by norm_num) _ k0 hk0).motion.mul mp
  · exact (ft _ k0 hk0).motion.mul mt

/-- The corner of the thumb keys: a line on the left of them in their mean direction, and the corner where it meets the front
wall, at which a plane halves the angle between the front wall and the x axis. -/
structure Spec.ThumbCorner (layout : Layout) (lineF : Line) (thumbL : Plane) (line : Line) (corner : Vec) : Prop where
  planar : Planar line
  direction : ∃ kL kR, (layout.thumb (some .left)).head? = some kL ∧ (layout.thumb (some .right)).head? = some kR ∧
    SameDirection line.dir ((backOf kL).xy + (backOf kR).xy)
  beside : ∀ k ∈ layout.thumb, ∀ p ∈ k.bounds, left line.pos (line.pos + line.dir) p ≤ 0
  touches : ∃ k ∈ layout.thumb, ∃ p ∈ k.bounds, left line.pos (line.pos + line.dir) p = 0
  on_line : left line.pos (line.pos + line.dir) corner = 0
  on_wall : left lineF.pos (lineF.pos + lineF.dir) corner = 0
  plane : ∃ n, UnitOf n (lineF.dir + ⟨1, 0, 0⟩) ∧ ∀ v, above thumbL v = n.x * (v.x - corner.x) + n.y * (v.y - corner.y)

theorem thumbCorner_made {l : Layout} {lineF line : Line} {plane : Plane} (hF : Planar lineF)
    (hk : ∀ s, ∀ k ∈ l.thumb s, Motion k.matrix) (h : thumbCorner l lineF = .ok (line, plane)) :
    ∃ corner, ThumbCorner l lineF plane line corner := by
  unfold thumbCorner at h
  dsimp only at h
  obtain ⟨kL, h1, h⟩ := bind_ok h
  obtain ⟨dL, h2, h⟩ := bind_ok h
  obtain ⟨kR, h3, h⟩ := bind_ok h
  obtain ⟨dR, h4, h⟩ := bind_ok h
  obtain ⟨l1, h5, h⟩ := bind_ok h
  obtain ⟨ds, h6, h⟩ := bind_ok h
  obtain ⟨off, h7, h⟩ := bind_ok h
  obtain ⟨l2, h8, h⟩ := bind_ok h
  obtain ⟨pos, h9, h⟩ := bind_ok h
  obtain ⟨pl, h10, h⟩ := bind_ok h
  cases h
  have i1 := pyIndex_zero.mp h1
  rw [← List.head?_eq_getElem?] at i1
  have i3 := pyIndex_zero.mp h3
  rw [← List.head?_eq_getElem?] at i3
  rw [back_normal (hk _ kL (List.mem_of_head? i1))] at h2
  rw [back_normal (hk _ kR (List.mem_of_head? i3))] at h4
  cases h2
  cases h4
  obtain ⟨e5, u5⟩ := line_make h5
  have hP1 : Planar l1 := by
    obtain ⟨u, t, ht, e⟩ := u5
    have hz : l1.dir.z = 0 := by
      have := congrArg Vec.z e
      simp only [Vec.add_z, Vec.xy, Vec.mul_z, add_zero] at this
      rcases mul_eq_zero.mp this.symm with h | h
      · exact h
      · exact absurd h ht.ne'
    refine ⟨by rw [e5]; rfl, hz, ?_⟩
    simp only [Vec.dot, hz] at u
    linarith
  rw [translated_unit u5.1] at h8
  cases h8
  have hd : ∀ v, l1.distance2D v = .ok (-(left l1.pos (l1.pos + l1.dir) v)) := distance2D_unit hP1.2.2
  rw [mapM_ok_map _ (fun v => -(left l1.pos (l1.pos + l1.dir) v)) _ (fun v _ => hd v)] at h6
  cases h6
  obtain ⟨m1, m2⟩ := pyMin_ok h7
  have hP2 : Planar ⟨l1.pos + l1.dir.ortho2D * (-off), l1.dir⟩ := by
    refine ⟨?_, hP1.2.1, hP1.2.2⟩
    simp [hP1.1, Vec.ortho2D]
  have moved : ∀ v, left (l1.pos + l1.dir.ortho2D * (-off)) (l1.pos + l1.dir.ortho2D * (-off) + l1.dir) v =
      left l1.pos (l1.pos + l1.dir) v + off := by
    intro v
    simp only [left, Vec.add_x, Vec.add_y, Vec.mul_x, Vec.mul_y, Vec.ortho2D]
    linear_combination off * hP1.2.2
  obtain ⟨o1, o2⟩ := planar_intersect hF hP2 h9
  obtain ⟨e10, u10⟩ := plane_make h10
  refine ⟨pos, ⟨hP2, ⟨kL, kR, i1, i3, u5.2⟩, ?_, ?_, (planar_online hP2 o2).2, (planar_online hF o1).2, ⟨plane.normal, u10, ?_⟩⟩⟩
  · intro k hk p hp
    dsimp only
    rw [moved]
    have := m2 _ (List.mem_map_of_mem (List.mem_flatMap.mpr ⟨k, hk, hp⟩))
    linarith
  · obtain ⟨p, hp, e⟩ := List.mem_map.mp m1
    obtain ⟨k, hk, hp⟩ := List.mem_flatMap.mp hp
    refine ⟨k, hk, p, hp, ?_⟩
    dsimp only
    rw [moved]
    linarith
  · intro v
    have hz : plane.normal.z = 0 := by
      obtain ⟨-, t, ht, e⟩ := u10
      have := congrArg Vec.z e
      simp only [Vec.add_z, Vec.mul_z, hF.2.1, add_zero] at this
      rcases mul_eq_zero.mp this.symm with h | h
      · exact h
      · exact absurd h ht.ne'
    unfold above
    rw [e10]
    simp only [hz, Vec.dot, Vec.sub_x, Vec.sub_y, Vec.sub_z]
    ring

theorem pre_corner {cfg : PlanCfg} {side : Side} {p : Plan} (h : Plan.pre cfg side = .ok p) :
    (∀ s, ∀ k ∈ keys p.layout s, Motion k.matrix) ∧ ∃ line corner, ThumbCorner p.layout p.linesF.1 p.thumbL line corner := by
  unfold Plan.pre at h
  obtain ⟨⟨l, tp, sp⟩, h1, h⟩ := bind_ok h
  dsimp only at h
  obtain ⟨⟨b0, linesB, linesF, w0⟩, h2, h⟩ := bind_ok h
  dsimp only at h
  obtain ⟨delta, h3, h⟩ := bind_ok h
  obtain ⟨tp1, h4, h⟩ := bind_ok h
  obtain ⟨sp1, h5, h⟩ := bind_ok h
  obtain ⟨w1, h6, h⟩ := bind_ok h
  obtain ⟨linesB1, h7, h⟩ := bind_ok h
  obtain ⟨linesF1, h8, h⟩ := bind_ok h
  obtain ⟨⟨tline, thumbL⟩, h9, h⟩ := bind_ok h
  dsimp only at h
  obtain ⟨r, h10, h⟩ := bind_ok h
  obtain ⟨pts, h11, h⟩ := bind_ok h
  obtain ⟨l0, l1, pivot, a, pp, t, t0, s0, har, hto, hso, rfl, hrt, hrs⟩ := arrange_ok h1
  have hmM := tiltSplit_motion cfg.body
  generalize hM : tiltSplitMatrix cfg.body = M at *
  have two1 : TwoGroups l1 := by rw [har.layout]; exact (make_two har.make).moved _ _ _
  have two2 := two1.moved M M M
  have mo1 : ∀ s, ∀ k ∈ keys (l1.moved M M M) s, Motion k.matrix := fun s => moved_motion hmM (arranged_keys har)
  obtain ⟨hwo, hbo⟩ := vertical_ok two2 h2
  obtain ⟨i, o, dx, hi, ho, rfl, kx, ix, ox, tx⟩ := finalDeltaX_ok two2 h3
  rw [translate_fun, mapAll_eq] at h h9
  have e8 := translateLines_ok hwo.pairF h8
  have mo2 : ∀ s, ∀ k ∈ keys ((l1.moved M M M).moved (shift ⟨dx, 0, 0⟩) (shift ⟨dx, 0, 0⟩) (shift ⟨dx, 0, 0⟩)) s, Motion k.matrix :=
    fun s => moved_motion (shift_motion _) (mo1 s)
  cases h
  refine ⟨mo2, ?_⟩
  have hF : Planar linesF1.1 := by
    rw [e8]
    refine ⟨?_, hwo.pairF.1.2.1, hwo.pairF.1.2.2⟩
    simp [hwo.pairF.1.1]
  exact ⟨tline, thumbCorner_made hF (fun s k hk => mo2 s k (by rw [thumbs_eq] at hk; unfold keys; simp [hk])) h9⟩

/-- **C70** The thumb keys' left front corner is where the front wall meets the line that touches the thumb keys from the left. -/
theorem C70_thumb {cfg : PlanCfg} {side : Side} {plan : Plan} (h : Plan.make cfg side = .ok plan) :
    ∃ line corner, ThumbCorner plan.layout plan.linesF.1 plan.thumbL line corner := by
  rw [make_eq_pre] at h
  obtain ⟨p, hp, hz⟩ := bind_ok h
  have ok := pre_ok hp
  obtain ⟨dz, z1, -, -, -, z5, -, -, -, -, z10, -⟩ := finalZ_ok ok.two hz
  have hm : ∀ s, ∀ k ∈ p.layout.thumb s, Motion k.matrix :=
    fun s k hk => (pre_corner hp).1 s k (by rw [thumbs_eq] at hk; unfold keys; simp [hk])
  obtain ⟨line, corner, c⟩ := (pre_corner hp).2
  have ks : ∀ s, plan.layout.thumb s = (p.layout.thumb s).map (·.transform (shift ⟨0, 0, dz⟩)) := by
    intro s
    rw [thumbs_eq, thumbs_eq, z1, thumbs_moved]
  have bs : ∀ k ∈ p.layout.thumb, (k.transform (shift ⟨0, 0, dz⟩)).bounds = k.bounds.map (· + ⟨0, 0, dz⟩) := by
    intro k hk
    rw [Key.bounds_transform (hm _ k hk).1]
    simp only [shift_apply]
  have flat : ∀ v : Vec, left line.pos (line.pos + line.dir) (v + ⟨0, 0, dz⟩) = left line.pos (line.pos + line.dir) v := by
    intro v
    simp [left]
  refine ⟨line, corner, c.planar, ?_, ?_, ?_, c.on_line, by rw [z10]; exact c.on_wall, ?_⟩
  · obtain ⟨kL, kR, i1, i2, d⟩ := c.direction
    refine ⟨_, _, by rw [ks, List.head?_map, i1]; rfl, by rw [ks, List.head?_map, i2]; rfl, ?_⟩
    rw [back_shift (hm _ kL (List.mem_of_head? i1)).1, back_shift (hm _ kR (List.mem_of_head? i2)).1]
    exact d
  · intro k hk q hq
    rw [ks] at hk
    obtain ⟨k0, hk0, rfl⟩ := List.mem_map.mp hk
    rw [bs k0 hk0] at hq
    obtain ⟨q0, hq0, rfl⟩ := List.mem_map.mp hq
    rw [flat]
    exact c.beside k0 hk0 q0 hq0
  · obtain ⟨k0, hk0, q0, hq0, e⟩ := c.touches
    refine ⟨_, by rw [ks]; exact List.mem_map_of_mem hk0, q0 + ⟨0, 0, dz⟩, ?_, by rw [flat]; exact e⟩
    rw [bs k0 hk0]
    exact List.mem_map_of_mem hq0
  · obtain ⟨n, u, e⟩ := c.plane
    rw [z10]
    refine ⟨n, u, fun v => ?_⟩
    have := (z5 ok.thumb).2 (v - ⟨0, 0, dz⟩)
    rw [shift_apply, ← above_eq, ← above_eq, e] at this
    rw [show v - ⟨0, 0, dz⟩ + ⟨0, 0, dz⟩ = v by ext <;> simp] at this
    rw [this]
    simp

end

end Chrumm.Part
