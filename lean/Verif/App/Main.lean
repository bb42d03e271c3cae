import Verif.App.Make

/-! `__main__.py`: the command line tool. Strings of the command line are lists of characters. -/

namespace Chrumm.App
open Geo

/-- The characters of a command line argument. -/
abbrev Str := List Char

/-- The long options, __main__.py:37-38. -/
def longOptions : List Str := ["help".toList, "version".toList, "log=".toList, "threads=".toList, "knob".toList]

/-- `getopt.long_has_args` of the Python library: whether the option has an argument, and its full name. -/
def longHasArgs (opt : Str) : Py (Bool × Str) :=
  let possibilities := longOptions.filter fun o => opt.isPrefixOf o
  match possibilities with
  | [] => .error .getoptError
  | unique :: more =>
    if opt ∈ possibilities then .ok (false, opt)
    else if opt ++ ['='] ∈ possibilities then .ok (true, opt)
    else if more ≠ [] then .error .getoptError
    else if unique.getLast? = some '=' then .ok (true, unique.dropLast)
    else .ok (false, unique)

/-- Splits at the first `=`, if there is one. -/
def splitEquals : Str → Str × Option Str
  | [] => ([], none)
  | c :: cs => if c = '=' then ([], some cs) else ((c :: (splitEquals cs).1), (splitEquals cs).2)

/-- `getopt.do_longs` of the Python library: one option with its argument, and the remaining arguments. -/
def doLong (opt : Str) (args : List Str) : Py ((Str × Str) × List Str) := do
  let (name, optarg) := splitEquals opt
  let (hasArg, name) ← longHasArgs name
  if hasArg then
    match optarg, args with
    | none, [] => .error .getoptError
    | none, arg :: args => .ok (("--".toList ++ name, arg), args)
    | some arg, args => .ok (("--".toList ++ name, arg), args)
  else
    match optarg with
    | some _ => .error .getoptError
    | none => .ok (("--".toList ++ name, []), args)

/-- `getopt.do_shorts` of the Python library: the only short option is `h`, and has no argument. -/
def doShorts : Str → Py (List (Str × Str))
  | [] => .ok []
  | c :: cs => if c = 'h' then do
      let opts ← doShorts cs
      pure ((['-', c], []) :: opts)
    else .error .getoptError

/-- `getopt.getopt(args, "h", longOptions)` of the Python library. The fuel is the number of arguments. -/
def getoptLoop : ℕ → List Str → Py (List (Str × Str) × List Str)
  | 0, args => .ok ([], args)
  | fuel + 1, args =>
    match args with
    | [] => .ok ([], [])
    | arg :: rest =>
      if arg.head? ≠ some '-' ∨ arg = ['-'] then .ok ([], arg :: rest)
      else if arg = ['-', '-'] then .ok ([], rest)
      else if ['-', '-'].isPrefixOf arg then do
        let (opt, rest) ← doLong (arg.drop 2) rest
        let (opts, files) ← getoptLoop fuel rest
        pure (opt :: opts, files)
      else do
        let opts ← doShorts (arg.drop 1)
        let (opts', files) ← getoptLoop fuel rest
        pure (opts ++ opts', files)

/-- __main__.py:37-38. -/
def getopt (args : List Str) : Py (List (Str × Str) × List Str) := getoptLoop args.length args

/-- The names of the levels, `logging._nameToLevel` of the Python library. -/
def levels : List Str := ["CRITICAL".toList, "FATAL".toList, "ERROR".toList, "WARN".toList, "WARNING".toList,
  "INFO".toList, "DEBUG".toList, "NOTSET".toList]

/-- What the program does not define itself. -/
structure Env where
  /-- `sys.argv[1:]`. -/
  argv : List Str
  /-- `int(arg)`, `none` for a ValueError. -/
  int : Str → Option ℤ
  /-- `pathlib.Path(f).read_text()`. -/
  read : Str → Py String
  /-- `pathlib.Path(f).stem`. -/
  stem : Str → String
  /-- The n-th write: none if it succeeds. -/
  write : ℕ → String → Data → Option Exn

/-- What the program prints on the standard output. -/
inductive Printed where
  | help
  | version
deriving DecidableEq

/-- How a piece of the program ends early. -/
inductive Stop where
  | exit (code : ℤ) (printed : Printed)
  | raised (e : Exn)

/-- __main__.py:40-52, starting with the given values of `threads` and `isKnob`. An option that matches nothing is
ignored. -/
def readOptions (int : Str → Option ℤ) : List (Str × Str) → ℤ → Bool → Except Stop (ℤ × Bool)
  | [], threads, isKnob => .ok (threads, isKnob)
  | (name, arg) :: rest, threads, isKnob =>
    if name = "-h".toList ∨ name = "--help".toList then .error (.exit 0 .help)
    else if name = "--version".toList then .error (.exit 0 .version)
    else if name = "--log".toList then
      if arg ∈ levels then readOptions int rest threads isKnob else .error (.raised .valueError)
    else if name = "--threads".toList then
      match int arg with
      | some n => readOptions int rest n isKnob
      | none => .error (.raised .valueError)
    else if name = "--knob".toList then readOptions int rest threads true
    else readOptions int rest threads isKnob

/-- An attempt to write a file. -/
structure Attempt where
  path : String
  data : Data
  succeeded : Bool

/-- __main__.py:71-77: the attempts, and the exception that ended the loop. -/
def writeFiles (write : ℕ → String → Data → Option Exn) (stem : String) : ℕ → Files → List Attempt × Option Exn
  | _, [] => ([], none)
  | n, (name, data) :: rest =>
    let path := stem ++ "-" ++ name
    match write n path data with
    | some e => ([⟨path, data, false⟩], some e)
    | none => (⟨path, data, true⟩ :: (writeFiles write stem (n + 1) rest).1, (writeFiles write stem (n + 1) rest).2)

/-- The observable effects. -/
structure Outcome where
  exitCode : ℤ
  printed : Option Printed
  attempts : List Attempt

noncomputable section

variable {C P F : Type}

/-- __main__.py:54-69: the files, and the stem. -/
def generate (code : Code C P F) (schedule : ℤ → ℕ → List ℕ) (env : Env) (jsonFiles : List Str) (threads : ℤ)
    (isKnob : Bool) : Py (String × Files) := do
  match jsonFiles.getLast? with
  | none => .error .getoptError
  | some last =>
    let jsonStrings ← jsonFiles.mapM env.read
    let files ← make code jsonStrings threads isKnob (schedule threads)
    pure (env.stem last, files)

/-- `main`, __main__.py:31-101. All exceptions lead to the exit code 1; `sys.exit` is not caught. Without an explicit
exit, the exit code is 0. The output of the logger is not modelled. -/
def main (code : Code C P F) (schedule : ℤ → ℕ → List ℕ) (env : Env) : Outcome :=
  match getopt env.argv with
  | .error _ => ⟨1, none, []⟩
  | .ok (options, jsonFiles) =>
    match readOptions env.int options 8 false with
    | .error (.exit c p) => ⟨c, some p, []⟩
    | .error (.raised _) => ⟨1, none, []⟩
    | .ok (threads, isKnob) =>
      match generate code schedule env jsonFiles threads isKnob with
      | .error _ => ⟨1, none, []⟩
      | .ok (stem, files) =>
        match writeFiles env.write stem 0 files with
        | (attempts, some _) => ⟨1, none, attempts⟩
        | (attempts, none) => ⟨0, none, attempts⟩

end

end Chrumm.App
