import Verif.Geo.Vec

/-! `cfg.py`: merging of JSON configurations. -/

namespace Chrumm.App

/-- What `json.loads` returns. Numbers are real numbers. The entries of an object are those of a Python dict:
in order, without duplicate keys. -/
inductive Json where
  | null
  | bool (b : Bool)
  | num (x : ℝ)
  | str (s : String)
  | arr (l : List Json)
  | obj (l : List (String × Json))

/-- A configuration value: a `SimpleNamespace`, seen as the map of its attributes, or anything else. -/
inductive Val where
  | leaf (j : Json)
  | space (m : String → Option Val)

/-- A dict of configuration values: `globals()`, or the `__dict__` of a namespace. -/
abbrev Dict := String → Option Val

noncomputable section
open Classical

/-- `target[key] = value`. -/
def Dict.set (d : Dict) (key : String) (v : Val) : Dict := fun k => if k = key then some v else d k

/-- `key.isidentifier() and not key.startswith("_")`, cfg.py:11. The identifiers are a parameter. -/
def isPublic (ident : String → Prop) (key : String) : Prop := ident key ∧ ¬ key.startsWith "_"

/-- `key.lower().endswith("angle")`, cfg.py:16. -/
def isAngle (key : String) : Prop := key.toLower.endsWith "angle"

/-- `math.radians(value)`: numbers and booleans, everything else raises a TypeError. -/
def radians : Json → Py Json
  | .num x => .ok (.num (x * (Real.pi / 180)))
  | .bool b => .ok (.num ((if b then 1 else 0) * (Real.pi / 180)))
  | _ => .error .typeError

/-- The `else` branch of cfg.py:16-18: the value to be stored. -/
def convert (key : String) (value : Json) : Py Json := if isAngle key then radians value else .ok value

/-- `target.setdefault(key, SimpleNamespace()).__dict__`, cfg.py:13-14. Other values have no `__dict__`. -/
def subDict (target : Dict) (key : String) : Py Dict :=
  match target key with
  | none => .ok fun _ => none
  | some (.space m) => .ok m
  | some (.leaf _) => .error .attributeError

/-- `mergeDicts`, cfg.py:9-18. The namespace is changed in place, which is the same as storing the changed one,
since it is only reachable from here. A raised exception is not the same: then Python leaves the entries that
were merged so far; see `init`. -/
def mergeDicts (ident : String → Prop) : List (String × Json) → Dict → Py Dict
  | [], target => .ok target
  | (key, value) :: rest, target =>
    if isPublic ident key then
      match value with
      | .obj o => do
        let sub ← subDict target key
        let sub ← mergeDicts ident o sub
        mergeDicts ident rest (target.set key (.space sub))
      | v => do
        let w ← convert key v
        mergeDicts ident rest (target.set key (.leaf w))
    else mergeDicts ident rest target

/-- cfg.py:21-23: delete all public names. -/
def clear (globals : Dict) : Dict := fun k => if k.startsWith "_" then globals k else none

/-- One round of cfg.py:26-27, after `json.loads`. Only objects have `items`. -/
def mergeOne (ident : String → Prop) (globals : Dict) : Json → Py Dict
  | .obj o => mergeDicts ident o globals
  | _ => .error .attributeError

/-- `_init`, cfg.py:1-27, for strings that were parsed to `docs`. When it raises, the program ends (C47), or
the next `_init` clears the names again (C50). -/
def init (ident : String → Prop) (globals : Dict) (docs : List Json) : Py Dict :=
  docs.foldlM (mergeOne ident) (clear globals)

end

end Chrumm.App
