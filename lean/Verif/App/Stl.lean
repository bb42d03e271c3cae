import Verif.Geo.Mat

/-! `stl.py`: the binary STL format. -/

namespace Chrumm.App
open Geo

/-- Four bytes. -/
abbrev Word := UInt8 × UInt8 × UInt8 × UInt8

/-- The bytes of a word. -/
def Word.toList (w : Word) : List UInt8 := [w.1, w.2.1, w.2.2.1, w.2.2.2]

noncomputable section

/-- `" Made with chrumm 1.0.2 ".encode().rjust(80, b"\0")`, stl.py:11-14 and `__version__`, __init__.py:11. -/
def header : List UInt8 :=
  let text := " Made with chrumm 1.0.2 ".toList.map fun c => UInt8.ofNat c.toNat
  List.replicate (80 - text.length) 0 ++ text

/-- `struct.pack("<I", n)`, stl.py:15. -/
def packCount (n : ℕ) : Py (List UInt8) :=
  if n < 2 ^ 32 then
    .ok [UInt8.ofNat n, UInt8.ofNat (n / 2 ^ 8), UInt8.ofNat (n / 2 ^ 16), UInt8.ofNat (n / 2 ^ 24)]
  else .error .structError

/-- One value of `struct.pack("<3f", ...)`. The encoding of a number as a float32 is a parameter; numbers that are
too large have none. -/
def packFloat (f32 : ℝ → Option Word) (x : ℝ) : Py (List UInt8) :=
  match f32 x with
  | some w => .ok w.toList
  | none => .error .overflow

/-- stl.py:19. -/
def packVector (f32 : ℝ → Option Word) (v : Vec) : Py (List UInt8) := do
  let x ← packFloat f32 v.x
  let y ← packFloat f32 v.y
  let z ← packFloat f32 v.z
  pure (x ++ y ++ z)

/-- stl.py:18-20. -/
def packTriangle (f32 : ℝ → Option Word) (t : Tri Vec) : Py (List UInt8) := do
  let normal ← t.normal
  let parts ← [normal, t.a, t.b, t.c].mapM (packVector f32)
  pure (parts.flatten ++ [0, 0])

/-- `toBytes`, stl.py:7-22. -/
def toBytes (f32 : ℝ → Option Word) (triangles : List (Tri Vec)) : Py (List UInt8) := do
  let count ← packCount triangles.length
  let parts ← triangles.mapM (packTriangle f32)
  pure (header ++ count ++ parts.flatten)

end

end Chrumm.App
