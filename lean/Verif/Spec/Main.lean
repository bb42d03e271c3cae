import Verif.App.Main
import Verif.Spec.Make

/-! The command line syntax, and what the tool should do. -/

namespace Chrumm.App.Spec
open Geo

/-- A command line option. -/
inductive Opt where
  | help
  | version
  | log (level : Str)
  | threads (number : Str)
  | knob

/-- Options without an argument. -/
inductive Flag where
  | help
  | version
  | knob

/-- Options with an argument. -/
inductive Valued where
  | log
  | threads

def Flag.name : Flag → Str
  | .help => "help".toList
  | .version => "version".toList
  | .knob => "knob".toList

def Flag.opt : Flag → Opt
  | .help => .help
  | .version => .version
  | .knob => .knob

def Valued.name : Valued → Str
  | .log => "log".toList
  | .threads => "threads".toList

def Valued.opt : Valued → Str → Opt
  | .log, s => .log s
  | .threads, s => .threads s

/-- The names of the options start with different letters, so that any first letters of a name will do. -/
def Abbreviates (p name : Str) : Prop := p ≠ [] ∧ p <+: name

/-- The command line: options, and then the files. -/
inductive CommandLine : List Str → List Opt → List Str → Prop where
  | end : CommandLine [] [] []
  | file (f : Str) (files : List Str) (h : f = ['-'] ∨ ∀ s, f ≠ '-' :: s) : CommandLine (f :: files) [] (f :: files)
  | separator (files : List Str) : CommandLine (['-', '-'] :: files) [] files
  | short (n : ℕ) {args opts files} (h : CommandLine args opts files) :
      CommandLine (('-' :: List.replicate (n + 1) 'h') :: args) (List.replicate (n + 1) .help ++ opts) files
  | flag (o : Flag) (p : Str) (hp : Abbreviates p o.name) {args opts files} (h : CommandLine args opts files) :
      CommandLine (('-' :: '-' :: p) :: args) (o.opt :: opts) files
  | next (o : Valued) (p s : Str) (hp : Abbreviates p o.name) {args opts files} (h : CommandLine args opts files) :
      CommandLine (('-' :: '-' :: p) :: s :: args) (o.opt s :: opts) files
  | equals (o : Valued) (p s : Str) (hp : Abbreviates p o.name) {args opts files} (h : CommandLine args opts files) :
      CommandLine (('-' :: '-' :: p ++ '=' :: s) :: args) (o.opt s :: opts) files

/-- An option as a pair of strings: its full name with dashes, and its argument. -/
def Denotes : Str × Str → Opt → Prop
  | (name, arg), .help => (name = "-h".toList ∨ name = "--help".toList) ∧ arg = []
  | (name, arg), .version => name = "--version".toList ∧ arg = []
  | (name, arg), .log s => name = "--log".toList ∧ arg = s
  | (name, arg), .threads s => name = "--threads".toList ∧ arg = s
  | (name, arg), .knob => name = "--knob".toList ∧ arg = []

/-- An option that is neither an error nor ends the program. -/
def Opt.Harmless (int : Str → Option ℤ) : Opt → Prop
  | .help => False
  | .version => False
  | .log level => level ∈ levels
  | .threads s => (int s).isSome
  | .knob => True

/-- The number of threads: the last one that is given, or eight. -/
def threadsOf (int : Str → Option ℤ) (opts : List Opt) : ℤ :=
  ((opts.filterMap fun | .threads s => int s | _ => none).getLast?).getD 8

def Opt.isKnob : Opt → Bool
  | .knob => true
  | _ => false

end Chrumm.App.Spec
