import Verif.Geo.Move
import Verif.Props.Vector

/-! C24: the projections onto the coordinate planes, in terms of the mirror images. -/

namespace Chrumm.Geo
noncomputable section

/-- **C24** The projection onto a coordinate plane lies halfway between a point and its mirror image in
that plane: `xy` between the point and `mirroredZ`, `xz` and `mirroredY`, `yz` and `mirroredX`. -/
theorem C24_halfway (v : Vec) :
    v.xy = (v + v.mirroredZ) * (1 / 2 : ℝ) ∧ v.xz = (v + v.mirroredY) * (1 / 2 : ℝ) ∧
      v.yz = (v + v.mirroredX) * (1 / 2 : ℝ) := by
  refine ⟨?_, ?_, ?_⟩ <;> ext <;> simp [Vec.xy, Vec.xz, Vec.yz, Vec.mirroredX, Vec.mirroredY, Vec.mirroredZ] <;> ring

/-- **C24** No point of a coordinate plane is nearer than the projection: the points with `z = 0` for
`xy`, with `y = 0` for `xz`, with `x = 0` for `yz`. -/
theorem C24_nearest (v w : Vec) :
    (w.z = 0 → (v - v.xy).magnitude ≤ (v - w).magnitude) ∧
    (w.y = 0 → (v - v.xz).magnitude ≤ (v - w).magnitude) ∧
    (w.x = 0 → (v - v.yz).magnitude ≤ (v - w).magnitude) := by
  refine ⟨fun h => ?_, fun h => ?_, fun h => ?_⟩ <;> apply Real.sqrt_le_sqrt <;>
    simp only [Vec.sub_x, Vec.sub_y, Vec.sub_z, Vec.xy, Vec.xz, Vec.yz, h] <;>
    nlinarith [mul_self_nonneg (v.x - w.x), mul_self_nonneg (v.y - w.y), mul_self_nonneg (v.z - w.z)]

/-- **C24** A mirror image lies on the other side of the plane, at the same distance: the mirrored
vector differs from the original by twice the vector to the projection. -/
theorem C24_opposite (v : Vec) :
    v.mirroredZ - v = (v.xy - v) * (2 : ℝ) ∧ v.mirroredY - v = (v.xz - v) * (2 : ℝ) ∧
      v.mirroredX - v = (v.yz - v) * (2 : ℝ) := by
  refine ⟨?_, ?_, ?_⟩ <;> ext <;> simp [Vec.xy, Vec.xz, Vec.yz, Vec.mirroredX, Vec.mirroredY, Vec.mirroredZ] <;> ring

example : (⟨1, 2, 3⟩ : Vec).xz = ⟨1, 0, 3⟩ ∧ (⟨1, 2, 3⟩ : Vec).mirroredY = ⟨1, -2, 3⟩ := by
  constructor <;> ext <;> simp [Vec.xz, Vec.mirroredY]

end
end Chrumm.Geo
