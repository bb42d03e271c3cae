import Verif.App.Cfg

/-! Vocabulary for configurations. -/

namespace Chrumm.App.Spec

/-- The value of an entry of a JSON object. -/
def entry (o : List (String × Json)) (key : String) : Option Json := o.lookup key

/-- What a JSON object says about a path of keys, like `body.splitAngle`: the value at the end of the path. -/
def at? : List (String × Json) → List String → Option Json
  | _, [] => none
  | o, [key] => entry o key
  | o, key :: k :: path =>
    match entry o key with
    | some (.obj o') => at? o' (k :: path)
    | _ => none

/-- The JSON object gives the path the value `w`, which is not an object. -/
def Gives (o : List (String × Json)) (path : List String) (w : Json) : Prop :=
  at? o path = some w ∧ ∀ o', w ≠ .obj o'

/-- The JSON object has an object at the path. -/
def HasObject (o : List (String × Json)) (path : List String) : Prop := ∃ o', at? o path = some (.obj o')

/-- The value of the configuration at a path, like `cfg.body.splitAngle`, if it is not a namespace. -/
def value : Dict → List String → Option Json
  | _, [] => none
  | d, [key] =>
    match d key with
    | some (.leaf j) => some j
    | _ => none
  | d, key :: k :: path =>
    match d key with
    | some (.space m) => value m (k :: path)
    | _ => none

/-- JSON objects have no duplicate keys. -/
inductive NoDuplicates : Json → Prop
  | null : NoDuplicates .null
  | bool (b) : NoDuplicates (.bool b)
  | num (x) : NoDuplicates (.num x)
  | str (s) : NoDuplicates (.str s)
  | arr (l) : NoDuplicates (.arr l)
  | obj (o : List (String × Json)) : (o.map Prod.fst).Nodup → (∀ e ∈ o, NoDuplicates e.2) → NoDuplicates (.obj o)

/-- All keys of the path are public identifiers. -/
def PublicPath (ident : String → Prop) (path : List String) : Prop := ∀ k ∈ path, ident k ∧ ¬ k.startsWith "_"

/-- The last key of a path ends with "angle", in lower or upper case. -/
def AnglePath (path : List String) : Prop := ∃ k, path.getLast? = some k ∧ k.toLower.endsWith "angle"

/-- A number, or a boolean, which Python treats as 1 or 0. -/
noncomputable def number : Json → Option ℝ
  | .num x => some x
  | .bool true => some 1
  | .bool false => some 0
  | _ => none

/-- The value `v` that is stored for a JSON value `w` at a path: degrees become radians. -/
def Stored (path : List String) (w v : Json) : Prop :=
  (AnglePath path ∧ ∃ x, number w = some x ∧ v = .num (x * Real.pi / 180)) ∨ (¬ AnglePath path ∧ v = w)

/-- An angle of the JSON object that is not a number. -/
def BadAngle (ident : String → Prop) (o : List (String × Json)) : Prop :=
  ∃ p w, PublicPath ident p ∧ AnglePath p ∧ Gives o p w ∧ number w = none

/-- The JSON object has an object where the configuration has a value. -/
def Clash (ident : String → Prop) (d : Dict) (o : List (String × Json)) : Prop :=
  ∃ p v, PublicPath ident p ∧ HasObject o p ∧ value d p = some v

end Chrumm.App.Spec
