import Verif.Spec.Main
import Verif.Props.Make
import Verif.Props.Cfg

/-! C47 and C66: the command line tool. -/

namespace Chrumm.App
open Geo Spec

variable {C P F : Type}

/-! ### C66: the syntax -/

theorem longHasArgs_flag (o : Flag) (p : Str) (hp : Abbreviates p o.name) : longHasArgs p = .ok (false, o.name) := by
  obtain ⟨h1, h2⟩ := hp
  rw [← List.mem_inits] at h2
  revert p
  cases o
  · change ∀ p : Str, p ≠ [] → p ∈ ["".toList, "h".toList, "he".toList, "hel".toList, "help".toList] → _
    intro p h1 h2
    simp only [List.mem_cons, List.not_mem_nil, or_false] at h2
    rcases h2 with rfl | rfl | rfl | rfl | rfl
    · exact absurd rfl h1
    all_goals rfl
  · change ∀ p : Str, p ≠ [] → p ∈ ["".toList, "v".toList, "ve".toList, "ver".toList, "vers".toList, "versi".toList, "versio".toList, "version".toList] → _
    intro p h1 h2
    simp only [List.mem_cons, List.not_mem_nil, or_false] at h2
    rcases h2 with rfl | rfl | rfl | rfl | rfl | rfl | rfl | rfl
    · exact absurd rfl h1
    all_goals rfl
  · change ∀ p : Str, p ≠ [] → p ∈ ["".toList, "k".toList, "kn".toList, "kno".toList, "knob".toList] → _
    intro p h1 h2
    simp only [List.mem_cons, List.not_mem_nil, or_false] at h2
    rcases h2 with rfl | rfl | rfl | rfl | rfl
    · exact absurd rfl h1
    all_goals rfl

theorem longHasArgs_valued (o : Valued) (p : Str) (hp : Abbreviates p o.name) : longHasArgs p = .ok (true, o.name) := by
  obtain ⟨h1, h2⟩ := hp
  rw [← List.mem_inits] at h2
  revert p
  cases o
  · change ∀ p : Str, p ≠ [] → p ∈ ["".toList, "l".toList, "lo".toList, "log".toList] → _
    intro p h1 h2
    simp only [List.mem_cons, List.not_mem_nil, or_false] at h2
    rcases h2 with rfl | rfl | rfl | rfl
    · exact absurd rfl h1
    all_goals rfl
  · change ∀ p : Str, p ≠ [] → p ∈ ["".toList, "t".toList, "th".toList, "thr".toList, "thre".toList, "threa".toList, "thread".toList, "threads".toList] → _
    intro p h1 h2
    simp only [List.mem_cons, List.not_mem_nil, or_false] at h2
    rcases h2 with rfl | rfl | rfl | rfl | rfl | rfl | rfl | rfl
    · exact absurd rfl h1
    all_goals rfl

theorem prefix_of_snoc {p s : Str} {c : Char} (h : p <+: s ++ [c]) (hc : c ∉ p) : p <+: s := by
  rcases List.prefix_concat_iff.mp h with rfl | h
  · simp at hc
  · exact h

theorem longHasArgs_ok {p name : Str} {b : Bool} (h : longHasArgs p = .ok (b, name)) (hp : '=' ∉ p) :
    (∃ o : Flag, Abbreviates p o.name ∧ b = false ∧ name = o.name) ∨
      ∃ o : Valued, Abbreviates p o.name ∧ b = true ∧ name = o.name := by
  have hne : p ≠ [] := by
    rintro rfl
    revert h
    exact nofun
  have key : (∃ o : Flag, Abbreviates p o.name) ∨ ∃ o : Valued, Abbreviates p o.name := by
    have : ∃ o ∈ longOptions, p <+: o := by
      by_contra hcon
      push Not at hcon
      have hf : longOptions.filter (fun o => p.isPrefixOf o) = [] := by
        rw [List.filter_eq_nil_iff]
        intro o ho
        rw [List.isPrefixOf_iff_prefix]
        exact hcon o ho
      unfold longHasArgs at h
      rw [hf] at h
      cases h
    obtain ⟨o, ho, hpo⟩ := this
    simp only [longOptions, List.mem_cons, List.not_mem_nil, or_false] at ho
    rcases ho with rfl | rfl | rfl | rfl | rfl
    · exact .inl ⟨.help, hne, hpo⟩
    · exact .inl ⟨.version, hne, hpo⟩
    · exact .inr ⟨.log, hne, prefix_of_snoc (s := "log".toList) hpo hp⟩
    · exact .inr ⟨.threads, hne, prefix_of_snoc (s := "threads".toList) hpo hp⟩
    · exact .inl ⟨.knob, hne, hpo⟩
  rcases key with ⟨o, ho⟩ | ⟨o, ho⟩
  · rw [longHasArgs_flag o p ho] at h
    cases h
    exact .inl ⟨o, ho, rfl, rfl⟩
  · rw [longHasArgs_valued o p ho] at h
    cases h
    exact .inr ⟨o, ho, rfl, rfl⟩

theorem splitEquals_none {s : Str} (h : '=' ∉ s) : splitEquals s = (s, none) := by
  induction s with
  | nil => rfl
  | cons c s ih =>
    simp only [List.mem_cons, not_or] at h
    rw [splitEquals, if_neg (Ne.symm h.1), ih h.2]

theorem splitEquals_some {p : Str} (s : Str) (h : '=' ∉ p) : splitEquals (p ++ '=' :: s) = (p, some s) := by
  induction p with
  | nil => simp [splitEquals]
  | cons c p ih =>
    simp only [List.mem_cons, not_or] at h
    rw [List.cons_append, splitEquals, if_neg (Ne.symm h.1), ih h.2]

theorem splitEquals_cases (s : Str) : ('=' ∉ s ∧ splitEquals s = (s, none)) ∨
    ∃ p t, '=' ∉ p ∧ s = p ++ '=' :: t ∧ splitEquals s = (p, some t) := by
  induction s with
  | nil => exact .inl ⟨by simp, rfl⟩
  | cons c s ih =>
    by_cases hc : c = '='
    · subst hc
      exact .inr ⟨[], s, by simp, rfl, by simp [splitEquals]⟩
    · rcases ih with ⟨h1, h2⟩ | ⟨p, t, h1, rfl, h3⟩
      · have : '=' ∉ c :: s := by simp [h1, Ne.symm hc]
        exact .inl ⟨this, splitEquals_none this⟩
      · have : '=' ∉ c :: p := by simp [h1, Ne.symm hc]
        exact .inr ⟨c :: p, t, this, rfl, splitEquals_some t this⟩

theorem abbrev_noEq_flag {o : Flag} {p : Str} (h : Abbreviates p o.name) : '=' ∉ p := by
  intro hm
  have := h.2.subset hm
  cases o <;> revert this <;> decide +kernel

theorem abbrev_noEq_valued {o : Valued} {p : Str} (h : Abbreviates p o.name) : '=' ∉ p := by
  intro hm
  have := h.2.subset hm
  cases o <;> revert this <;> decide +kernel

theorem denotes_flag (o : Flag) : Denotes ("--".toList ++ o.name, []) o.opt := by
  cases o
  · exact ⟨.inr (by decide +kernel), rfl⟩
  · exact ⟨by decide +kernel, rfl⟩
  · exact ⟨by decide +kernel, rfl⟩

theorem denotes_valued (o : Valued) (s : Str) : Denotes ("--".toList ++ o.name, s) (o.opt s) := by
  cases o
  · exact ⟨by decide +kernel, rfl⟩
  · exact ⟨by decide +kernel, rfl⟩

theorem doShorts_replicate (n : ℕ) : doShorts (List.replicate n 'h') = .ok (List.replicate n ("-h".toList, [])) := by
  induction n with
  | zero => rfl
  | succ n ih => rw [List.replicate_succ, doShorts, if_pos rfl, ih]; rfl

theorem doShorts_ok {s : Str} {opts : List (Str × Str)} (h : doShorts s = .ok opts) :
    s = List.replicate s.length 'h' ∧ opts = List.replicate s.length ("-h".toList, []) := by
  have key : s = List.replicate s.length 'h' := by
    induction s generalizing opts with
    | nil => rfl
    | cons c s ih =>
      rw [doShorts] at h
      split at h
      · next hc =>
        obtain ⟨o, ho, h⟩ := bind_ok h
        subst hc
        rw [List.length_cons, List.replicate_succ, ← ih ho]
      · cases h
  refine ⟨key, ?_⟩
  rw [key, doShorts_replicate] at h
  cases h
  rfl

theorem forall2_replicate (n : ℕ) : List.Forall₂ Denotes (List.replicate n ("-h".toList, [])) (List.replicate n Opt.help) := by
  induction n with
  | zero => exact .nil
  | succ n ih => exact .cons ⟨.inl rfl, rfl⟩ ih

theorem getoptLoop_complete {args : List Str} {opts : List Opt} {files : List Str} (h : CommandLine args opts files) :
    ∀ fuel, args.length ≤ fuel → ∃ pairs, getoptLoop fuel args = .ok (pairs, files) ∧ List.Forall₂ Denotes pairs opts := by
  induction h with
  | «end» => intro fuel _; cases fuel <;> exact ⟨[], rfl, .nil⟩
  | file f files h =>
    intro fuel hf
    obtain ⟨fuel, rfl⟩ : ∃ k, fuel = k + 1 := ⟨fuel - 1, by simp at hf; omega⟩
    refine ⟨[], ?_, .nil⟩
    rw [getoptLoop]
    dsimp only
    rw [if_pos]
    rcases h with h | h
    · exact .inr h
    · left
      intro hh
      cases f with
      | nil => cases hh
      | cons c f => cases hh; exact h f rfl
  | separator files =>
    intro fuel hf
    obtain ⟨fuel, rfl⟩ : ∃ k, fuel = k + 1 := ⟨fuel - 1, by simp at hf; omega⟩
    exact ⟨[], by simp [getoptLoop], .nil⟩
  | @short n args opts files _ ih =>
    intro fuel hf
    obtain ⟨fuel, rfl⟩ : ∃ k, fuel = k + 1 := ⟨fuel - 1, by simp at hf; omega⟩
    obtain ⟨pairs, h1, h2⟩ := ih fuel (by simp at hf; omega)
    refine ⟨List.replicate (n + 1) ("-h".toList, []) ++ pairs, ?_, List.rel_append (forall2_replicate _) h2⟩
    rw [getoptLoop]
    dsimp only
    rw [if_neg (by simp [List.replicate_succ]), if_neg (by simp [List.replicate_succ]),
      if_neg (by simp [List.replicate_succ])]
    simp only [List.drop_succ_cons, List.drop_zero, doShorts_replicate, h1]
    rfl
  | @flag o p hp args opts files _ ih =>
    intro fuel hf
    obtain ⟨fuel, rfl⟩ : ∃ k, fuel = k + 1 := ⟨fuel - 1, by simp at hf; omega⟩
    obtain ⟨pairs, h1, h2⟩ := ih fuel (by simp at hf; omega)
    refine ⟨("--".toList ++ o.name, []) :: pairs, ?_, .cons (denotes_flag o) h2⟩
    rw [getoptLoop]
    dsimp only
    rw [if_neg (by simp), if_neg (by simpa using hp.1), if_pos (by simp)]
    simp only [List.drop_succ_cons, List.drop_zero, doLong, splitEquals_none (abbrev_noEq_flag hp),
      longHasArgs_flag o p hp, bind, Except.bind, Bool.false_eq_true, if_false, h1]
    rfl
  | @next o p s hp args opts files _ ih =>
    intro fuel hf
    obtain ⟨fuel, rfl⟩ : ∃ k, fuel = k + 1 := ⟨fuel - 1, by simp at hf; omega⟩
    obtain ⟨pairs, h1, h2⟩ := ih fuel (by simp at hf; omega)
    refine ⟨("--".toList ++ o.name, s) :: pairs, ?_, .cons (denotes_valued o s) h2⟩
    rw [getoptLoop]
    dsimp only
    rw [if_neg (by simp), if_neg (by simpa using hp.1), if_pos (by simp)]
    simp only [List.drop_succ_cons, List.drop_zero, doLong, splitEquals_none (abbrev_noEq_valued hp),
      longHasArgs_valued o p hp, bind, Except.bind, if_true, h1]
    rfl
  | @equals o p s hp args opts files _ ih =>
    intro fuel hf
    obtain ⟨fuel, rfl⟩ : ∃ k, fuel = k + 1 := ⟨fuel - 1, by simp at hf; omega⟩
    obtain ⟨pairs, h1, h2⟩ := ih fuel (by simp at hf; omega)
    refine ⟨("--".toList ++ o.name, s) :: pairs, ?_, .cons (denotes_valued o s) h2⟩
    rw [getoptLoop]
    dsimp only
    rw [if_neg (by simp), if_neg (by simp), if_pos (by simp)]
    simp only [List.cons_append, List.drop_succ_cons, List.drop_zero, doLong, splitEquals_some s (abbrev_noEq_valued hp),
      longHasArgs_valued o p hp, bind, Except.bind, if_true, h1]
    rfl

theorem getoptLoop_sound (fuel : ℕ) {args : List Str} {pairs : List (Str × Str)} {files : List Str}
    (hf : args.length ≤ fuel) (h : getoptLoop fuel args = .ok (pairs, files)) :
    ∃ opts, CommandLine args opts files ∧ List.Forall₂ Denotes pairs opts := by
  induction fuel using Nat.strong_induction_on generalizing args pairs files with
  | _ fuel ih =>
  match fuel, hf, ih, h with
  | 0, hf, _, h =>
    have : args = [] := List.length_eq_zero_iff.mp (by omega)
    subst this
    cases h
    exact ⟨[], .end, .nil⟩
  | fuel + 1, hf, ih, h =>
    cases args with
    | nil => cases h; exact ⟨[], .end, .nil⟩
    | cons arg rest =>
      rw [getoptLoop] at h
      dsimp only at h
      have hr : rest.length ≤ fuel := by simpa using hf
      clear hf
      split at h
      · next hc =>
        cases h
        refine ⟨[], .file arg rest ?_, .nil⟩
        rcases hc with hc | hc
        · right
          rintro s rfl
          exact hc rfl
        · exact .inl hc
      next hc =>
      simp only [not_or, not_not] at hc
      split at h
      · next hc2 => cases h; subst hc2; exact ⟨[], .separator _, .nil⟩
      next hc2 =>
      split at h
      · next hc3 =>
        rw [List.isPrefixOf_iff_prefix] at hc3
        obtain ⟨s, rfl⟩ := hc3
        obtain ⟨⟨opt, rest'⟩, h1, h⟩ := bind_ok h
        obtain ⟨⟨opts, files'⟩, h2, h⟩ := bind_ok h
        cases h
        simp only [List.cons_append, List.nil_append, List.drop_succ_cons, List.drop_zero] at h1
        unfold doLong at h1
        rcases splitEquals_cases s with ⟨hs, e⟩ | ⟨p, t, hp, rfl, e⟩
        · rw [e] at h1
          obtain ⟨⟨b, name⟩, h3, h1⟩ := bind_ok h1
          rcases longHasArgs_ok h3 hs with ⟨o, ho, rfl, rfl⟩ | ⟨o, ho, rfl, rfl⟩
          · cases h1
            obtain ⟨opts', h4, h5⟩ := ih fuel (by omega) hr h2
            exact ⟨_, .flag o s ho h4, .cons (denotes_flag o) h5⟩
          · cases rest with
            | nil => cases h1
            | cons arg rest =>
              cases h1
              obtain ⟨opts', h4, h5⟩ := ih fuel (by omega) (by simp only [List.length_cons] at hr; exact Nat.le_of_succ_le hr) h2
              exact ⟨_, .next o s arg ho h4, .cons (denotes_valued o arg) h5⟩
        · rw [e] at h1
          obtain ⟨⟨b, name⟩, h3, h1⟩ := bind_ok h1
          rcases longHasArgs_ok h3 hp with ⟨o, ho, rfl, rfl⟩ | ⟨o, ho, rfl, rfl⟩
          · cases h1
          · cases h1
            obtain ⟨opts', h4, h5⟩ := ih fuel (by omega) hr h2
            exact ⟨_, .equals o p t ho h4, .cons (denotes_valued o t) h5⟩
      · next hc3 =>
        obtain ⟨opts, h1, h⟩ := bind_ok h
        obtain ⟨⟨opts', files'⟩, h2, h⟩ := bind_ok h
        cases h
        obtain ⟨opts'', h4, h5⟩ := ih fuel (by omega) hr h2
        cases arg with
        | nil => simp at hc
        | cons c s =>
          obtain ⟨rfl, hne⟩ : c = '-' ∧ s ≠ [] := ⟨by simpa using hc.1, fun h => by simp_all⟩
          simp only [List.drop_succ_cons, List.drop_zero] at h1
          obtain ⟨e1, e2⟩ := doShorts_ok h1
          obtain ⟨n, hn⟩ : ∃ n, s.length = n + 1 := ⟨s.length - 1, by have := List.length_pos_of_ne_nil hne; omega⟩
          rw [hn] at e1 e2
          subst e2
          rw [e1]
          exact ⟨_, .short n h4, List.rel_append (forall2_replicate _) h5⟩

/-- C66. A command line is accepted exactly if it has the expected syntax, and its options and files are recognized. -/
theorem C66_syntax (args : List Str) (files : List Str) :
    (∀ opts, CommandLine args opts files →
      ∃ pairs, getopt args = .ok (pairs, files) ∧ List.Forall₂ Denotes pairs opts) ∧
    (∀ pairs, getopt args = .ok (pairs, files) →
      ∃ opts, CommandLine args opts files ∧ List.Forall₂ Denotes pairs opts) :=
  ⟨fun _ h => getoptLoop_complete h _ le_rfl, fun _ h => getoptLoop_sound _ le_rfl h⟩

/-- C66. A command line with a wrong syntax is an error: nothing is printed or written. -/
theorem C66_rejected (code : Code C P F) (schedule : ℤ → ℕ → List ℕ) (env : Env)
    (h : ∀ opts files, ¬ CommandLine env.argv opts files) : main code schedule env = ⟨1, none, []⟩ := by
  unfold main
  cases hg : getopt env.argv with
  | error e => rfl
  | ok r =>
    obtain ⟨opts, ho, -⟩ := (C66_syntax env.argv r.2).2 r.1 hg
    exact absurd ho (h _ _)

theorem readOptions_harmless {int : Str → Option ℤ} {pairs : List (Str × Str)} {opts : List Opt}
    (hd : List.Forall₂ Denotes pairs opts) (hh : ∀ o ∈ opts, o.Harmless int) (more : List (Str × Str)) (threads : ℤ)
    (knob : Bool) : readOptions int (pairs ++ more) threads knob = readOptions int more
      (((opts.filterMap fun | .threads s => int s | _ => none).getLast?).getD threads) (knob || opts.any Opt.isKnob) := by
  induction hd generalizing threads knob with
  | nil => simp
  | @cons p o ps os h1 _ ih =>
    obtain ⟨name, arg⟩ := p
    have ih := ih (fun o ho => hh o (.tail _ ho))
    have ho := hh o List.mem_cons_self
    rw [List.cons_append, readOptions]
    cases o with
    | help => exact ho.elim
    | version => exact ho.elim
    | log s =>
      obtain ⟨rfl, rfl⟩ := h1
      rw [if_neg (by decide +kernel), if_neg (by decide +kernel), if_pos rfl, if_pos (show arg ∈ levels from ho), ih]
      rfl
    | threads s =>
      obtain ⟨rfl, rfl⟩ := h1
      obtain ⟨n, hn⟩ := Option.isSome_iff_exists.mp ho
      rw [if_neg (by decide +kernel), if_neg (by decide +kernel), if_neg (by decide +kernel), if_pos rfl, hn]
      dsimp only
      rw [ih, List.filterMap_cons]
      simp only [hn, List.getLast?_cons, Option.getD_some]
      rfl
    | knob =>
      obtain ⟨rfl, rfl⟩ := h1
      rw [if_neg (by decide +kernel), if_neg (by decide +kernel), if_neg (by decide +kernel),
        if_neg (by decide +kernel), if_pos rfl, ih]
      simp [Opt.isKnob]

/-- Splits the options at the first one that is not harmless. -/
theorem split_harmless (int : Str → Option ℤ) (opts : List Opt) : (∀ o ∈ opts, o.Harmless int) ∨
    ∃ pre o post, opts = pre ++ o :: post ∧ (∀ o ∈ pre, o.Harmless int) ∧ ¬ o.Harmless int := by
  classical
  induction opts with
  | nil => left; simp
  | cons o opts ih =>
    by_cases ho : o.Harmless int
    · rcases ih with ih | ⟨pre, o', post, rfl, h1, h2⟩
      · left
        intro x hx
        rcases List.mem_cons.mp hx with rfl | hx
        · exact ho
        · exact ih x hx
      · refine .inr ⟨o :: pre, o', post, rfl, ?_, h2⟩
        intro x hx
        rcases List.mem_cons.mp hx with rfl | hx
        · exact ho
        · exact h1 x hx
    · exact .inr ⟨[], o, opts, rfl, by simp, ho⟩

theorem forall2_append {A B : Type} {R : A → B → Prop} {xs : List A} {ys zs : List B} (h : List.Forall₂ R xs (ys ++ zs)) :
    ∃ as bs, List.Forall₂ R as ys ∧ List.Forall₂ R bs zs ∧ xs = as ++ bs := by
  induction ys generalizing xs with
  | nil => exact ⟨[], xs, .nil, h, rfl⟩
  | cons y ys ih =>
    cases h with
    | cons h1 h2 =>
      obtain ⟨as, bs, h3, h4, rfl⟩ := ih h2
      exact ⟨_ :: as, bs, .cons h1 h3, h4, rfl⟩

theorem readOptions_stop {int : Str → Option ℤ} {pairs : List (Str × Str)} {pre post : List Opt} {o : Opt}
    (hd : List.Forall₂ Denotes pairs (pre ++ o :: post)) (hh : ∀ o ∈ pre, o.Harmless int) (ho : ¬ o.Harmless int)
    (threads : ℤ) (knob : Bool) : readOptions int pairs threads knob = .error (match o with
      | .help => .exit 0 .help
      | .version => .exit 0 .version
      | _ => .raised .valueError) := by
  obtain ⟨ps1, ps2, h1, h2, rfl⟩ := forall2_append hd
  cases h2 with
  | @cons p _ ps _ hp _ =>
  rw [readOptions_harmless h1 hh]
  obtain ⟨name, arg⟩ := p
  rw [readOptions]
  cases o with
  | help => rw [if_pos hp.1]
  | version =>
    obtain ⟨rfl, rfl⟩ := hp
    rw [if_neg (by decide +kernel), if_pos rfl]
  | log s =>
    obtain ⟨rfl, rfl⟩ := hp
    rw [if_neg (by decide +kernel), if_neg (by decide +kernel), if_pos rfl, if_neg (show arg ∉ levels from ho)]
  | threads s =>
    obtain ⟨rfl, rfl⟩ := hp
    rw [if_neg (by decide +kernel), if_neg (by decide +kernel), if_neg (by decide +kernel), if_pos rfl]
    have : int arg = none := by simpa [Opt.Harmless] using ho
    rw [this]
  | knob => exact absurd trivial ho

/-- C66. The first option that is not harmless decides: help and version are printed, and anything else is an error.
Nothing is read or written. -/
theorem C66_first (code : Code C P F) (schedule : ℤ → ℕ → List ℕ) (env : Env) (pre post : List Opt) (o : Opt)
    (files : List Str) (h : CommandLine env.argv (pre ++ o :: post) files) (hpre : ∀ o ∈ pre, o.Harmless env.int)
    (ho : ¬ o.Harmless env.int) : main code schedule env = match o with
      | .help => ⟨0, some .help, []⟩
      | .version => ⟨0, some .version, []⟩
      | _ => ⟨1, none, []⟩ := by
  obtain ⟨pairs, hg, hd⟩ := (C66_syntax env.argv files).1 _ h
  unfold main
  rw [hg]
  dsimp only
  rw [readOptions_stop hd hpre ho]
  cases o <;> rfl

/-! ### C47 -/

theorem main_settings (code : Code C P F) (schedule : ℤ → ℕ → List ℕ) (env : Env) (opts : List Opt)
    (files : List Str) (h : CommandLine env.argv opts files) (ho : ∀ o ∈ opts, o.Harmless env.int) :
    main code schedule env =
      match generate code schedule env files (threadsOf env.int opts) (opts.any Opt.isKnob) with
      | .error _ => ⟨1, none, []⟩
      | .ok (stem, files) =>
        match writeFiles env.write stem 0 files with
        | (attempts, some _) => ⟨1, none, attempts⟩
        | (attempts, none) => ⟨0, none, attempts⟩ := by
  obtain ⟨pairs, hg, hd⟩ := (C66_syntax env.argv files).1 _ h
  unfold main
  rw [hg]
  dsimp only
  have := readOptions_harmless hd ho [] 8 false
  rw [List.append_nil, Bool.false_or] at this
  rw [this]
  rfl

theorem generate_ok {code : Code C P F} {schedule : ℤ → ℕ → List ℕ} {env : Env} {jsonFiles : List Str} {threads : ℤ}
    {knob : Bool} {stem : String} {files : Files} :
    generate code schedule env jsonFiles threads knob = .ok (stem, files) ↔
      ∃ last js, jsonFiles.getLast? = some last ∧ stem = env.stem last ∧
        List.Forall₂ (fun f s => env.read f = .ok s) jsonFiles js ∧
        make code js threads knob (schedule threads) = .ok files := by
  unfold generate
  constructor
  · intro h
    cases hl : jsonFiles.getLast? with
    | none => rw [hl] at h; cases h
    | some last =>
      rw [hl] at h
      obtain ⟨js, h1, h⟩ := bind_ok h
      obtain ⟨fs, h2, h⟩ := bind_ok h
      cases h
      exact ⟨last, js, rfl, rfl, mapM_ok_iff.mp h1, h2⟩
  · rintro ⟨last, js, h1, rfl, h2, h3⟩
    rw [h1]
    dsimp only
    rw [mapM_ok_iff.mpr h2]
    simp only [bind, Except.bind, h3]
    rfl

theorem writeFiles_ok {write : ℕ → String → Data → Option Exn} {stem : String} (files : Files) (n : ℕ) :
    ((writeFiles write stem n files).2 = none →
      (writeFiles write stem n files).1 = files.map fun f => ⟨stem ++ "-" ++ f.1, f.2, true⟩) ∧
    ((∀ k name data, files[k]? = some (name, data) → write (n + k) (stem ++ "-" ++ name) data = none) →
      (writeFiles write stem n files).2 = none) ∧
    (∀ e, (writeFiles write stem n files).2 = some e → ∃ k name data, files[k]? = some (name, data) ∧
      write (n + k) (stem ++ "-" ++ name) data = some e ∧
      (∀ j < k, ∀ name data, files[j]? = some (name, data) → write (n + j) (stem ++ "-" ++ name) data = none) ∧
      (writeFiles write stem n files).1 =
        ((files.take k).map fun f => ⟨stem ++ "-" ++ f.1, f.2, true⟩) ++ [⟨stem ++ "-" ++ name, data, false⟩]) := by
  induction files generalizing n with
  | nil => exact ⟨fun _ => rfl, fun _ => rfl, nofun⟩
  | cons f files ih =>
    obtain ⟨name, data⟩ := f
    obtain ⟨ih1, ih2, ih3⟩ := ih (n + 1)
    rw [writeFiles]
    cases hw : write n (stem ++ "-" ++ name) data with
    | some e =>
      refine ⟨nofun, fun h => ?_, fun e' he' => ?_⟩
      · have := h 0 name data rfl
        rw [Nat.add_zero, hw] at this
        cases this
      · cases he'
        exact ⟨0, name, data, rfl, hw, by simp, by simp⟩
    | none =>
      dsimp only
      refine ⟨fun h => ?_, fun h => ?_, fun e he => ?_⟩
      · rw [ih1 h]; rfl
      · apply ih2
        intro k name' data' hk
        have := h (k + 1) name' data' (by simpa using hk)
        rwa [← Nat.add_assoc, Nat.add_right_comm] at this
      · obtain ⟨k, name', data', h1, h2, h3, h4⟩ := ih3 e he
        refine ⟨k + 1, name', data', by simpa using h1, by rwa [← Nat.add_assoc, Nat.add_right_comm], ?_, ?_⟩
        · intro j hj name'' data'' hjf
          cases j with
          | zero => cases hjf; exact hw
          | succ j =>
            rw [← Nat.add_assoc, Nat.add_right_comm]
            exact h3 j (by omega) _ _ (by simpa using hjf)
        · rw [h4]; simp

/-- C47. If the command line and the options are fine, all JSON files can be read, the files can be generated, and can
be written, then all of them are written, and the program succeeds. -/
theorem C47_success (code : Code C P F) (schedule : ℤ → ℕ → List ℕ) (env : Env) (opts : List Opt)
    (jsonFiles : List Str) (js : List String) (last : Str) (files : Files)
    (h : CommandLine env.argv opts jsonFiles) (ho : ∀ o ∈ opts, o.Harmless env.int)
    (hlast : jsonFiles.getLast? = some last) (hread : List.Forall₂ (fun f s => env.read f = .ok s) jsonFiles js)
    (hmake : make code js (threadsOf env.int opts) (opts.any Opt.isKnob) (schedule (threadsOf env.int opts)) = .ok files)
    (hwrite : ∀ k name data, files[k]? = some (name, data) → env.write k (env.stem last ++ "-" ++ name) data = none) :
    main code schedule env = ⟨0, none, files.map fun f => ⟨env.stem last ++ "-" ++ f.1, f.2, true⟩⟩ := by
  rw [main_settings code schedule env opts jsonFiles h ho, generate_ok.mpr ⟨last, js, hlast, rfl, hread, hmake⟩]
  dsimp only
  obtain ⟨h1, h2, -⟩ := writeFiles_ok (write := env.write) (stem := env.stem last) files 0
  have h3 := h2 (by simpa using hwrite)
  rw [← h1 h3]
  rw [show writeFiles env.write (env.stem last) 0 files = ((writeFiles env.write (env.stem last) 0 files).1, none) from
    Prod.ext rfl h3]

/-- C47. If a JSON file cannot be read, or the files cannot be generated from them, then nothing is written. -/
theorem C47_nothing (code : Code C P F) (schedule : ℤ → ℕ → List ℕ) (env : Env) (opts : List Opt)
    (jsonFiles : List Str) (h : CommandLine env.argv opts jsonFiles) (ho : ∀ o ∈ opts, o.Harmless env.int)
    (hfail : jsonFiles = [] ∨ (∃ f ∈ jsonFiles, ∃ e, env.read f = .error e) ∨
      ∃ js e, List.Forall₂ (fun f s => env.read f = .ok s) jsonFiles js ∧
        make code js (threadsOf env.int opts) (opts.any Opt.isKnob) (schedule (threadsOf env.int opts)) = .error e) :
    main code schedule env = ⟨1, none, []⟩ := by
  rw [main_settings code schedule env opts jsonFiles h ho]
  cases hg : generate code schedule env jsonFiles (threadsOf env.int opts) (opts.any Opt.isKnob) with
  | error e => rfl
  | ok r =>
    exfalso
    obtain ⟨last, js, h1, -, h2, h3⟩ := generate_ok.mp hg
    rcases hfail with rfl | ⟨f, hf, e, he⟩ | ⟨js', e, h4, h5⟩
    · cases h1
    · clear * - h2 hf he
      induction h2 with
      | nil => cases hf
      | cons h _ ih =>
        rcases List.mem_cons.mp hf with rfl | hf
        · rw [he] at h; cases h
        · exact ih hf
    · have : js = js' := by
        have e1 := mapM_ok_iff.mpr h2
        rw [mapM_ok_iff.mpr h4] at e1
        cases e1; rfl
      subst this
      rw [h3] at h5
      cases h5

/-- C47. Whatever happens: the exit code is 0 or 1. With 0, either help or version has been printed and nothing was
written, or the complete set of files has been written. With 1, either nothing was written, or the complete set of
files was generated and the first `k` of them have been written, before writing the next one failed. -/
theorem C47_outcome (code : Code C P F) (schedule : ℤ → ℕ → List ℕ) (env : Env) (out : Outcome)
    (h : main code schedule env = out) :
    (∃ p, out = ⟨0, some p, []⟩) ∨ out = ⟨1, none, []⟩ ∨
    ∃ opts jsonFiles js last files, CommandLine env.argv opts jsonFiles ∧ (∀ o ∈ opts, o.Harmless env.int) ∧
      jsonFiles.getLast? = some last ∧ List.Forall₂ (fun f s => env.read f = .ok s) jsonFiles js ∧
      make code js (threadsOf env.int opts) (opts.any Opt.isKnob) (schedule (threadsOf env.int opts)) = .ok files ∧
      (out = ⟨0, none, files.map fun f => ⟨env.stem last ++ "-" ++ f.1, f.2, true⟩⟩ ∨
       ∃ k name data e, files[k]? = some (name, data) ∧ env.write k (env.stem last ++ "-" ++ name) data = some e ∧
         out = ⟨1, none, ((files.take k).map fun f => ⟨env.stem last ++ "-" ++ f.1, f.2, true⟩) ++
           [⟨env.stem last ++ "-" ++ name, data, false⟩]⟩) := by
  by_cases hc : ∃ opts files, CommandLine env.argv opts files
  · obtain ⟨opts, jsonFiles, hcl⟩ := hc
    rcases split_harmless env.int opts with ho | ⟨pre, o, post, rfl, h1, h2⟩
    · rw [main_settings code schedule env opts jsonFiles hcl ho] at h
      cases hg : generate code schedule env jsonFiles (threadsOf env.int opts) (opts.any Opt.isKnob) with
      | error e => rw [hg] at h; exact .inr (.inl h.symm)
      | ok r =>
        obtain ⟨stem, files⟩ := r
        rw [hg] at h
        dsimp only at h
        obtain ⟨last, js, h1, rfl, h3, h4⟩ := generate_ok.mp hg
        refine .inr (.inr ⟨opts, jsonFiles, js, last, files, hcl, ho, h1, h3, h4, ?_⟩)
        obtain ⟨w1, -, w3⟩ := writeFiles_ok (write := env.write) (stem := env.stem last) files 0
        cases hw : (writeFiles env.write (env.stem last) 0 files).2 with
        | none =>
          rw [show writeFiles env.write (env.stem last) 0 files = ((writeFiles env.write (env.stem last) 0 files).1, none)
            from Prod.ext rfl hw, w1 hw] at h
          exact .inl h.symm
        | some e =>
          obtain ⟨k, name, data, k1, k2, -, k4⟩ := w3 e hw
          rw [show writeFiles env.write (env.stem last) 0 files = ((writeFiles env.write (env.stem last) 0 files).1, some e)
            from Prod.ext rfl hw, k4] at h
          rw [Nat.zero_add] at k2
          exact .inr ⟨k, name, data, e, k1, k2, h.symm⟩
    · rw [C66_first code schedule env pre post o jsonFiles hcl h1 h2] at h
      cases o with
      | help => exact .inl ⟨.help, h.symm⟩
      | version => exact .inl ⟨.version, h.symm⟩
      | _ => exact .inr (.inl h.symm)
  · push Not at hc
    rw [C66_rejected code schedule env hc] at h
    exact .inr (.inl h.symm)

/-- C47. If the program succeeds without printing help or version, then the names of the written files are exactly
the selected ones with the stem of the last JSON file; they are different, and in the current directory. -/
theorem C47_names (code : Code C P F) (schedule : ℤ → ℕ → List ℕ) (hs : ∀ threads, Fair threads (schedule threads))
    (env : Env) (hstem : ∀ f, '/' ∉ (env.stem f).toList) (attempts : List Attempt)
    (h : main code schedule env = ⟨0, none, attempts⟩) :
    ∃ opts jsonFiles last knob palm support pcb, CommandLine env.argv opts jsonFiles ∧
      jsonFiles.getLast? = some last ∧
      attempts.map Attempt.path = (expectedNames knob palm support pcb (opts.any Opt.isKnob)).map
        (fun name => env.stem last ++ "-" ++ name) ∧
      (attempts.map Attempt.path).Nodup ∧ (∀ a ∈ attempts, '/' ∉ a.path.toList) ∧ ∀ a ∈ attempts, a.succeeded = true := by
  rcases C47_outcome code schedule env _ h with ⟨p, hp⟩ | hp | ⟨opts, jsonFiles, js, last, files, h1, h2, h3, h4, h5, h6⟩
  · cases hp
  · cases hp
  rcases h6 with h6 | ⟨k, name, data, e, -, -, h6⟩
  · cases h6
    obtain ⟨cfg, knob, palm, support, pcb, -, -, -, hn, hnd⟩ := C44_names code js _ _ _ files (hs _) h5
    have e1 : (files.map fun f => (⟨env.stem last ++ "-" ++ f.1, f.2, true⟩ : Attempt)).map Attempt.path =
        (files.map Prod.fst).map fun name => env.stem last ++ "-" ++ name := by
      rw [List.map_map, List.map_map]; rfl
    refine ⟨opts, jsonFiles, last, knob, palm, support, pcb, h1, h3, by rw [e1, hn], ?_, ?_, ?_⟩
    · rw [e1]
      refine hnd.map ?_
      intro a b hab
      exact String.append_right_inj .. |>.mp hab
    · intro a ha
      obtain ⟨f, hf, rfl⟩ := List.mem_map.mp ha
      have : f.1 ∈ expectedNames knob palm support pcb (opts.any Opt.isKnob) := hn ▸ List.mem_map_of_mem (f := Prod.fst) hf
      have hslash : '/' ∉ f.1.toList := by
        revert this
        generalize f.1 = s
        generalize opts.any Opt.isKnob = ko
        revert s
        cases knob <;> cases palm <;> cases support <;> cases pcb <;> cases ko <;> decide +kernel
      simp [hstem last, hslash]
    · intro a ha
      obtain ⟨f, hf, rfl⟩ := List.mem_map.mp ha
      rfl
  · cases h6

/-! ### An example -/

namespace Example

/-- A command line for the example keyboard. -/
def env (argv : List Str) : Env where
  argv := argv
  int s := if s = "2".toList then some 2 else none
  read f := if f = "a.json".toList ∨ f = "b.json".toList then .ok "{}" else .error .osError
  stem f := String.ofList (f.take 1)
  write n _ _ := if n < 9 then none else some .osError

/-- Options in several forms. -/
theorem line : CommandLine ["--th".toList, "2".toList, "--log=INFO".toList, "a.json".toList, "b.json".toList]
    [.threads "2".toList, .log "INFO".toList] ["a.json".toList, "b.json".toList] :=
  .next .threads "th".toList _ ⟨by decide +kernel, by decide +kernel⟩
    (.equals .log "log".toList "INFO".toList ⟨by decide +kernel, by decide +kernel⟩
      (.file _ _ (.inr (fun s h => by revert h; exact nofun))))

/-- The tenth write fails: nine files are written. -/
example : ∃ attempts, main code (fun _ n => (List.range (chunkCount n (chunkSize n 2))).reverse)
    (env ["--th".toList, "2".toList, "--log=INFO".toList, "a.json".toList, "b.json".toList]) = ⟨1, none, attempts⟩ ∧
      attempts.length = 10 := by
  obtain ⟨files, h⟩ := makes
  have hf2 : Fair 2 fun n => (List.range (chunkCount n (chunkSize n 2))).reverse := fun n => completes n 2
  have h' := C45_threads code [] 1 2 false _ (fun n => (List.range (chunkCount n (chunkSize n 2))).reverse)
    (fun n => List.Perm.refl _) hf2 (by rintro cfg plan part h; cases h; simp) files h
  have h'' : make code ["{}", "{}"] 2 false (fun n => (List.range (chunkCount n (chunkSize n 2))).reverse) = .ok files := h'
  have hlen : files.length = 10 := by
    obtain ⟨_, knob, palm, support, pcb, -, h2, h3, h4, -⟩ := C44_names code [] 2 false _ files hf2 h'
    obtain ⟨h5, h6, h7⟩ := h3 rfl
    cases h2; cases h5; cases h6; cases h7
    have := congrArg List.length h4
    simpa [expectedNames] using this
  rw [main_settings _ _ (env _) _ _ line (by
    intro o ho
    simp only [List.mem_cons, List.not_mem_nil, or_false] at ho
    rcases ho with rfl | rfl
    · show Option.isSome ((env []).int "2".toList) = true
      decide +kernel
    · show _ ∈ levels
      decide +kernel)]
  have ht : threadsOf (env ["--th".toList, "2".toList, "--log=INFO".toList, "a.json".toList, "b.json".toList]).int
      [.threads "2".toList, .log "INFO".toList] = 2 := by decide +kernel
  have hg := (generate_ok (code := code) (schedule := fun _ n => (List.range (chunkCount n (chunkSize n 2))).reverse)
    (env := env ["--th".toList, "2".toList, "--log=INFO".toList, "a.json".toList, "b.json".toList])
    (jsonFiles := ["a.json".toList, "b.json".toList]) (threads := 2) (knob := false) (stem := "b") (files := files)).mpr
    ⟨"b.json".toList, ["{}", "{}"], rfl, by decide +kernel, .cons rfl (.cons rfl .nil), h''⟩
  rw [ht, show [Opt.threads "2".toList, Opt.log "INFO".toList].any Opt.isKnob = false from rfl, hg]
  dsimp only
  obtain ⟨-, -, w⟩ := writeFiles_ok (write := (env ["--th".toList, "2".toList, "--log=INFO".toList, "a.json".toList, "b.json".toList]).write)
    (stem := "b") files 0
  cases hw : (writeFiles (env ["--th".toList, "2".toList, "--log=INFO".toList, "a.json".toList, "b.json".toList]).write "b" 0 files).2 with
  | none =>
    exfalso
    match files, hlen with
    | [_, _, _, _, _, _, _, _, _, _], _ => revert hw; exact nofun
  | some e =>
    obtain ⟨k, name, data, k1, k2, -, k4⟩ := w e hw
    refine ⟨_, by rw [show writeFiles _ "b" 0 files = (_, some e) from Prod.ext rfl hw], ?_⟩
    have hk : ¬ k < 9 := by
      intro hk
      have : (if 0 + k < 9 then none else some Exn.osError) = some e := k2
      rw [if_pos (by omega)] at this
      cases this
    have := (List.getElem?_eq_some_iff.mp k1).1
    refine (congrArg List.length k4).trans ?_
    simp
    omega

/-- Help before a wrong number of threads; the option after the file is a file. -/
example : main code (fun _ => fwd) (env ["-h".toList, "--threads=x".toList, "a.json".toList]) = ⟨0, some .help, []⟩ ∧
    main code (fun _ => fwd) (env ["--threads=x".toList, "-h".toList, "a.json".toList]) = ⟨1, none, []⟩ ∧
    main code (fun _ => fwd) (env ["a.json".toList, "--knob".toList]) = ⟨1, none, []⟩ := by
  refine ⟨rfl, rfl, ?_⟩
  refine C47_nothing _ _ _ [] ["a.json".toList, "--knob".toList] (.file _ _ (.inr (fun s h => by revert h; exact nofun)))
    (by simp) (.inr (.inl ⟨"--knob".toList, by simp, .osError, rfl⟩))

end Example

end Chrumm.App
