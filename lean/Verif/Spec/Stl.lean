import Verif.App.Stl
import Verif.Spec.Geometry

/-! The binary STL format: positions of the values in a file. -/

namespace Chrumm.App.Spec
open Geo

/-- The byte at position `i` of a file. -/
def byteAt (file : List UInt8) (i : ℕ) : ℕ := (file.getD i 0).toNat

/-- The little endian number in the four bytes at position `i`. -/
def uintAt (file : List UInt8) (i : ℕ) : ℕ :=
  byteAt file i + 256 * byteAt file (i + 1) + 256 ^ 2 * byteAt file (i + 2) + 256 ^ 3 * byteAt file (i + 3)

/-- The four bytes at position `i`. -/
def wordAt (file : List UInt8) (i : ℕ) : Word :=
  (file.getD i 0, file.getD (i + 1) 0, file.getD (i + 2) 0, file.getD (i + 3) 0)

/-- At position `i`, the file has the vector `v`. -/
def VectorAt (f32 : ℝ → Option Word) (file : List UInt8) (i : ℕ) (v : Vec) : Prop :=
  f32 v.x = some (wordAt file i) ∧ f32 v.y = some (wordAt file (i + 4)) ∧ f32 v.z = some (wordAt file (i + 8))

/-- A binary STL file with the triangles `ts`: a header of 80 bytes that does not start like a text file ("solid"),
their number, and 50 bytes for each one: its unit normal, its corners, and two zero bytes. -/
def IsStl (f32 : ℝ → Option Word) (file : List UInt8) (ts : List (Tri Vec)) : Prop :=
  file.length = 84 + 50 * ts.length ∧ byteAt file 0 ≠ 's'.toNat ∧ uintAt file 80 = ts.length ∧
  ∀ (i : ℕ) (hi : i < ts.length),
    (∃ n, Geo.Spec.UnitOf n (Geo.Spec.normalOf ts[i]) ∧ VectorAt f32 file (84 + 50 * i) n) ∧
    VectorAt f32 file (84 + 50 * i + 12) ts[i].a ∧ VectorAt f32 file (84 + 50 * i + 24) ts[i].b ∧
    VectorAt f32 file (84 + 50 * i + 36) ts[i].c ∧
    byteAt file (84 + 50 * i + 48) = 0 ∧ byteAt file (84 + 50 * i + 49) = 0

/-- The coordinates of a vector can be encoded. -/
def Fits (f32 : ℝ → Option Word) (v : Vec) : Prop := f32 v.x ≠ none ∧ f32 v.y ≠ none ∧ f32 v.z ≠ none

end Chrumm.App.Spec
