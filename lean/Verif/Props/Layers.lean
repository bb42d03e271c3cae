import Verif.Fw.Layers
import Verif.Props.Hid

/-! C10, C11: the Fn layer and the bootloader. In all theorems `kinds c trace` is the list of key
events of the whole run, classified from the observable trace alone (`Spec.kinds`). -/

namespace Chrumm.Fw
open Spec

private abbrev keysAfter (c : Cfg) (ks : List KEv) : Keys := ks.foldl (tapStep c) (State.init c).keys

private theorem keysAfter_append (c a b) : keysAfter c (a ++ b) = b.foldl (tapStep c) (keysAfter c a) :=
  List.foldl_append ..

private theorem noFn_layer (c : Cfg) (k : Keys) (b : List KEv) (h : fnSignals b = []) :
    (b.foldl (tapStep c) k).layer = k.layer := by
  induction b generalizing k with
  | nil => rfl
  | cons e b ih =>
    rw [List.foldl_cons]
    cases e with
    | fn s => simp [fnSignals] at h
    | _ => rw [ih _ (by simpa [fnSignals] using h)]; rfl

private theorem noFn_taps (c : Cfg) (k : Keys) (b : List KEv) (h : fnSignals b = []) :
    (b.foldl (tapStep c) k).fnTaps = if .ordinary ∈ b then 0 else k.fnTaps := by
  induction b generalizing k with
  | nil => rfl
  | cons e b ih =>
    rw [List.foldl_cons]
    cases e with
    | fn s => simp [fnSignals] at h
    | ordinary =>
      rw [ih _ (by simpa [fnSignals] using h)]
      simp [tapStep]
    | _ => rw [ih _ (by simpa [fnSignals] using h)]; simp [tapStep]

private theorem release_base (c : Cfg) (k : Keys) (h : k.fnTaps ≠ c.fnKeyTaps) :
    (tapStep c k (.fn true)).layer = false := by
  simp [tapStep, h]

private theorem press_taps (c : Cfg) (k : Keys) : (tapStep c k (.fn false)).fnTaps = k.fnTaps + 1 := rfl

/-- **C10** The layer that is used: a press of an ordinary key adds exactly the usage that the keymap
has for the key on the active layer. -/
theorem C10_layer_used (c : Cfg) (wf : c.WF) (s : State) (hl : s.live) (key : Nat) (susp : Bool)
    (hk : key < c.rows * c.cols) (hfn : ¬ isFn c key) (u : Nat)
    (hu : (c.layers s.keys.layer)[key]? = some u) (hb : u ≠ kBOOT) :
    (report c s key false susp).2.head? = some (.add u) := by
  obtain ⟨e, e1, -, -, -, -, e6, e7⟩ := report_kind (c := c) (s := s) (key := key) (b := false)
    (susp := susp) hl (fun l => ⟨_, List.getElem?_eq_getElem (by rw [wf.layers]; exact hk)⟩)
  have : e = .ordinary := by
    simp only [kinds, hfn, if_false, Bool.false_eq_true, List.cons.injEq] at e1
    cases e with
    | ordinary => rfl
    | boot => have := e6 rfl; rw [hu] at this; exact absurd (Option.some.inj this) hb
    | fn b => have := e1.1; revert this; split <;> simp
    | release => have := e1.1; revert this; split <;> simp
  obtain ⟨u', h1, h2⟩ := e7 this
  rw [hu] at h1
  rw [Option.some.inj h1]; exact h2

/-- **C10** While an Fn key is held (its press is the last Fn event), the Fn layer is active. -/
theorem C10_held (c : Cfg) (wf : c.WF) (ins : List In) (a b : List KEv)
    (hks : kinds c (run c (State.init c) ins).2.flatten = a ++ .fn false :: b)
    (hb : fnSignals b = []) :
    (run c (State.init c) ins).1.keys.layer = true := by
  rw [(reach_keysInv wf ins).keys, hks]
  show (keysAfter c (a ++ .fn false :: b)).layer = true
  rw [keysAfter_append, List.foldl_cons, noFn_layer _ _ _ hb]
  rfl

/-- **C10** Momentary use: if an ordinary key was pressed while Fn was held, the release of Fn
returns to the base layer. -/
theorem C10_momentary (c : Cfg) (wf : c.WF) (hT : 1 ≤ c.fnKeyTaps) (ins : List In)
    (a b d : List KEv)
    (hks : kinds c (run c (State.init c) ins).2.flatten = a ++ .fn false :: b ++ .fn true :: d)
    (hb : fnSignals b = []) (ho : .ordinary ∈ b) (hd : fnSignals d = []) :
    (run c (State.init c) ins).1.keys.layer = false := by
  rw [(reach_keysInv wf ins).keys, hks]
  show (keysAfter c (a ++ .fn false :: b ++ .fn true :: d)).layer = false
  rw [keysAfter_append, List.foldl_cons, noFn_layer _ _ _ hd, keysAfter_append, List.foldl_cons]
  have h0 := noFn_taps c (tapStep c (keysAfter c a) (.fn false)) b hb
  rw [if_pos ho] at h0
  refine release_base c _ ?_
  rw [h0]
  omega

private theorem taps_inv (c : Cfg) (n : Nat) : ∀ (b : List KEv) (k : Keys), k.fnTaps + n ≤ c.fnKeyTaps →
    .ordinary ∉ b → fnSignals b = tapSignals n →
    (b.foldl (tapStep c) k).fnTaps = k.fnTaps + n ∧
    (1 ≤ n → (b.foldl (tapStep c) k).layer = decide (k.fnTaps + n = c.fnKeyTaps)) := by
  intro b
  -- generalise over lists that begin in the middle of a tap
  suffices h : ∀ (b : List KEv) (k : Keys) (n : Nat), .ordinary ∉ b →
      (fnSignals b = tapSignals n → k.fnTaps + n ≤ c.fnKeyTaps →
        (b.foldl (tapStep c) k).fnTaps = k.fnTaps + n ∧
        (1 ≤ n → (b.foldl (tapStep c) k).layer = decide (k.fnTaps + n = c.fnKeyTaps))) ∧
      (fnSignals b = true :: tapSignals n → k.layer = true → k.fnTaps + n ≤ c.fnKeyTaps →
        (b.foldl (tapStep c) k).fnTaps = k.fnTaps + n ∧
        (b.foldl (tapStep c) k).layer = decide (k.fnTaps + n = c.fnKeyTaps)) from
    fun k hk ho hs => (h b k n ho).1 hs hk
  clear b
  intro b
  induction b with
  | nil =>
    intro k n ho
    refine ⟨fun hs _ => ?_, fun hs _ _ => by simp [fnSignals] at hs⟩
    have : n = 0 := by
      cases n with
      | zero => rfl
      | succ n => simp [fnSignals, tapSignals, List.replicate_succ] at hs
    subst this
    exact ⟨rfl, fun h => absurd h (by omega)⟩
  | cons e b ih =>
    intro k n ho
    have hob : .ordinary ∉ b := fun h => ho (List.mem_cons_of_mem _ h)
    simp only [List.foldl_cons]
    cases e with
    | ordinary => exact absurd List.mem_cons_self ho
    | release =>
      have e1 : fnSignals (KEv.release :: b) = fnSignals b := rfl
      rw [e1]; exact ih k n hob
    | boot =>
      have e1 : fnSignals (KEv.boot :: b) = fnSignals b := rfl
      rw [e1]; exact ih (tapStep c k .boot) n hob
    | fn s =>
      have e1 : fnSignals (KEv.fn s :: b) = s :: fnSignals b := rfl
      rw [e1]
      refine ⟨fun hs hk => ?_, fun hs hlay hk => ?_⟩
      · cases n with
        | zero => simp [tapSignals] at hs
        | succ n =>
          have e2 : tapSignals (n + 1) = false :: true :: tapSignals n := by
            simp [tapSignals, List.replicate_succ]
          rw [e2, List.cons.injEq] at hs
          obtain ⟨rfl, hs⟩ := hs
          obtain ⟨h1, h2⟩ := (ih (tapStep c k (.fn false)) n hob).2 hs rfl (by
            simp only [tapStep]; omega)
          simp only [tapStep] at h1 h2 ⊢
          refine ⟨by omega, fun _ => ?_⟩
          rw [h2]; congr 1; simp only [eq_iff_iff]; omega
      · rw [List.cons.injEq] at hs
        obtain ⟨rfl, hs⟩ := hs
        obtain ⟨h1, h2⟩ := (ih (tapStep c k (.fn true)) n hob).1 hs (by
          simp only [tapStep]; rw [if_neg (by omega)]; exact hk)
        have e3 : (tapStep c k (.fn true)).fnTaps = k.fnTaps := by
          simp only [tapStep]; rw [if_neg (by omega)]
        rw [e3] at h1 h2
        refine ⟨h1, ?_⟩
        cases n with
        | zero =>
          rw [noFn_layer _ _ _ (by simpa [tapSignals] using hs)]
          simp only [tapStep, Nat.add_zero]
          split
          · rename_i h; simp [h]
          · rename_i h; rw [hlay]; simp only [ne_eq, Decidable.not_not] at h; simp [h]
        | succ n => exact h2 (by omega)

/-- **C10** Tapping: consider the Fn taps since the last ordinary key press (or since power-on). After
`n` complete taps, with `n` at most `FN_KEY_TAPS`, the Fn layer is active (locked) if `n` is
`FN_KEY_TAPS`, and the base layer if `n` is less. -/
theorem C10_tap_lock (c : Cfg) (wf : c.WF) (ins : List In) (a b : List KEv) (n : Nat)
    (hks : kinds c (run c (State.init c) ins).2.flatten = a ++ b)
    (ha : a = [] ∨ ∃ a', a = a' ++ [.ordinary]) (ho : .ordinary ∉ b)
    (hb : fnSignals b = tapSignals n) (h1 : 1 ≤ n) (hn : n ≤ c.fnKeyTaps) :
    (run c (State.init c) ins).1.keys.layer = decide (n = c.fnKeyTaps) := by
  rw [(reach_keysInv wf ins).keys, hks]
  show (keysAfter c (a ++ b)).layer = _
  rw [keysAfter_append]
  have h0 : (keysAfter c a).fnTaps = 0 := by
    rcases ha with rfl | ⟨a', rfl⟩
    · rfl
    · rw [keysAfter_append]; rfl
  have := (taps_inv c n b (keysAfter c a) (by omega) ho hb).2 h1
  rw [this, h0, Nat.zero_add]

/-- **C10** The lock stays while other keys are used, and the next Fn tap ends it (whether or not
something was typed in between): lock by `FN_KEY_TAPS` taps (`b`), anything but Fn events (`d`), Fn
press, anything but Fn (`e`), Fn release, anything but Fn (`f`). -/
theorem C10_unlock (c : Cfg) (wf : c.WF) (hT : 2 ≤ c.fnKeyTaps) (ins : List In)
    (a b d e f : List KEv)
    (hks : kinds c (run c (State.init c) ins).2.flatten =
      a ++ b ++ d ++ .fn false :: e ++ .fn true :: f)
    (ha : a = [] ∨ ∃ a', a = a' ++ [.ordinary]) (ho : .ordinary ∉ b)
    (hb : fnSignals b = tapSignals c.fnKeyTaps) (hd : fnSignals d = []) (he : fnSignals e = [])
    (hf : fnSignals f = []) :
    (run c (State.init c) ins).1.keys.layer = false := by
  rw [(reach_keysInv wf ins).keys, hks]
  show (keysAfter c (a ++ b ++ d ++ .fn false :: e ++ .fn true :: f)).layer = false
  rw [keysAfter_append, List.foldl_cons, noFn_layer _ _ _ hf, keysAfter_append, List.foldl_cons]
  have h0 : (keysAfter c a).fnTaps = 0 := by
    rcases ha with rfl | ⟨a', rfl⟩
    · rfl
    · rw [keysAfter_append]; rfl
  have hb2 : (keysAfter c (a ++ b)).fnTaps = c.fnKeyTaps := by
    rw [keysAfter_append]
    have := (taps_inv c c.fnKeyTaps b (keysAfter c a) (by omega) ho hb).1
    omega
  have hd2 := noFn_taps c (keysAfter c (a ++ b)) d hd
  rw [← keysAfter_append] at hd2
  have he2 := noFn_taps c (tapStep c (keysAfter c (a ++ b ++ d)) (.fn false)) e he
  refine release_base c _ ?_
  intro h
  rw [he2, press_taps] at h
  split at h
  · omega
  · rw [hd2] at h
    split at h
    · omega
    · omega

/-- **C10** While locked, the layer stays on Fn whatever else is typed. -/
theorem C10_lock_stays (c : Cfg) (wf : c.WF) (hT : 1 ≤ c.fnKeyTaps) (ins : List In)
    (a b d : List KEv)
    (hks : kinds c (run c (State.init c) ins).2.flatten = a ++ b ++ d)
    (ha : a = [] ∨ ∃ a', a = a' ++ [.ordinary]) (ho : .ordinary ∉ b)
    (hb : fnSignals b = tapSignals c.fnKeyTaps) (hd : fnSignals d = []) :
    (run c (State.init c) ins).1.keys.layer = true := by
  rw [(reach_keysInv wf ins).keys, hks]
  show (keysAfter c (a ++ b ++ d)).layer = true
  have h0 : (keysAfter c a).fnTaps = 0 := by
    rcases ha with rfl | ⟨a', rfl⟩
    · rfl
    · rw [keysAfter_append]; rfl
  rw [keysAfter_append, noFn_layer _ _ _ hd, keysAfter_append,
    (taps_inv c c.fnKeyTaps b (keysAfter c a) (by omega) ho hb).2 hT, h0]
  simp

private theorem sinceOrdinary_snoc (ks : List KEv) (e : KEv) :
    sinceOrdinary (ks ++ [e]) = if e = .ordinary then [] else sinceOrdinary ks ++ [e] := by
  unfold sinceOrdinary
  rw [List.reverse_append, List.reverse_cons, List.reverse_nil, List.nil_append, List.singleton_append,
    List.takeWhile_cons]
  by_cases h : e = .ordinary <;> simp [h]

private theorem fnTaps_le (c : Cfg) (ks : List KEv) :
    (keysAfter c ks).fnTaps ≤ (fnSignals (sinceOrdinary ks)).count false := by
  refine snoc_ind (P := fun ks => (keysAfter c ks).fnTaps ≤
    (fnSignals (sinceOrdinary ks)).count false) (Nat.zero_le _) ?_ ks
  intro l e ih
  rw [keysAfter_append, List.foldl_cons, List.foldl_nil, sinceOrdinary_snoc]
  have hsn : ∀ x, fnSignals (sinceOrdinary l ++ [x]) = fnSignals (sinceOrdinary l) ++ fnSignals [x] := by
    intro x; simp [fnSignals]
  cases e with
  | ordinary => exact Nat.zero_le _
  | release => rw [if_neg (by simp), hsn]; simpa [fnSignals, tapStep] using ih
  | boot => rw [if_neg (by simp), hsn]; simpa [fnSignals, tapStep] using ih
  | fn b =>
    rw [if_neg (by simp), hsn, List.count_append]
    cases b
    · simp only [tapStep]; simp [fnSignals]; exact ih
    · simp only [tapStep]
      split
      · exact Nat.zero_le _
      · exact Nat.le_trans ih (Nat.le_add_right _ _)

/-- **C10** No accidental lock: if the Fn layer is active although the last Fn event was a release,
then since the last ordinary key press before that release there were at least `FN_KEY_TAPS` Fn
presses. -/
theorem C10_no_accidental_lock (c : Cfg) (wf : c.WF) (ins : List In) (a d : List KEv)
    (hks : kinds c (run c (State.init c) ins).2.flatten = a ++ .fn true :: d)
    (hd : fnSignals d = []) (hlay : (run c (State.init c) ins).1.keys.layer = true) :
    c.fnKeyTaps ≤ (fnSignals (sinceOrdinary a)).count false := by
  rw [(reach_keysInv wf ins).keys, hks] at hlay
  change (keysAfter c (a ++ .fn true :: d)).layer = true at hlay
  rw [keysAfter_append, List.foldl_cons, noFn_layer _ _ _ hd] at hlay
  simp only [tapStep] at hlay
  split at hlay
  · exact absurd hlay (by decide)
  · rename_i h
    have := fnTaps_le c a
    simp only [ne_eq, Decidable.not_not] at h
    omega

/-! ### C11 -/

private theorem bootTaps_eq (c : Cfg) (ks : List KEv) :
    (keysAfter c ks).bootTaps = (sinceOrdinary ks).count .boot := by
  refine snoc_ind (P := fun ks => (keysAfter c ks).bootTaps = (sinceOrdinary ks).count .boot) rfl ?_ ks
  intro l e ih
  rw [keysAfter_append, List.foldl_cons, List.foldl_nil, sinceOrdinary_snoc]
  cases e with
  | ordinary => rfl
  | release => rw [if_neg (by simp), List.count_append]; simpa [tapStep] using ih
  | boot => rw [if_neg (by simp), List.count_append]; simp [tapStep, ih]
  | fn b =>
    rw [if_neg (by simp), List.count_append]
    cases b <;> simpa [tapStep] using ih

/-- **C11** The device resets into the bootloader exactly if at some point a BOOT press was at least
the `BOOT_KEY_TAPS`-th one since the last ordinary key press. -/
theorem C11_boot_iff (c : Cfg) (wf : c.WF) (ins : List In) :
    Act.boot ∈ (run c (State.init c) ins).2.flatten ↔
      ∃ p, p ++ [.boot] <+: kinds c (run c (State.init c) ins).2.flatten ∧
        c.bootKeyTaps ≤ (sinceOrdinary (p ++ [.boot])).count .boot := by
  have inv := reach_keysInv wf ins
  rw [← inv.halt, inv.due]
  have : ∀ p, (sinceOrdinary (p ++ [.boot])).count .boot = (keysAfter c p).bootTaps + 1 := by
    intro p
    rw [sinceOrdinary_snoc, if_neg (by simp), List.count_append, bootTaps_eq]; simp
  simp only [this]

/-- **C11** The reset is the last thing that happens. -/
theorem C11_boot_last (c : Cfg) (wf : c.WF) (ins : List In)
    (h : Act.boot ∈ (run c (State.init c) ins).2.flatten) :
    (run c (State.init c) ins).2.flatten.getLast? = some .boot ∧
      ∀ more, (run c (State.init c) (ins ++ more)).2.flatten = (run c (State.init c) ins).2.flatten := by
  have inv := reach_keysInv wf ins
  have hh := inv.halt.mpr h
  refine ⟨inv.last hh, fun more => ?_⟩
  rw [run_append]
  dsimp only
  have hdead : ¬ (run c (State.init c) ins).1.live := fun hl => hl (Or.inl hh)
  rw [(run_dead hdead more).2]
  simp

/-- **C11** A press that counts as a BOOT press is a press of a key that has the BOOT usage on the
active layer, and only such a press resets. -/
theorem C11_boot_key (c : Cfg) (wf : c.WF) (s : State) (hl : s.live) (key : Nat) (b susp : Bool)
    (hk : key < c.rows * c.cols)
    (h : kinds c (.event key b :: (report c s key b susp).2) = [.boot] ∨
      Act.boot ∈ (report c s key b susp).2) :
    b = false ∧ ¬ isFn c key ∧ (c.layers s.keys.layer)[key]? = some kBOOT := by
  obtain ⟨e, e1, -, e3, e4, -, e6, -⟩ := report_kind (c := c) (s := s) (key := key) (b := b)
    (susp := susp) hl (fun l => ⟨_, List.getElem?_eq_getElem (by rw [wf.layers]; exact hk)⟩)
  have he : e = .boot := by
    rcases h with h | h
    · rw [e1] at h; simpa using h
    · exact (e3.mp (e4.mp h)).1
  subst he
  refine ⟨?_, ?_, e6 rfl⟩
  · simp only [kinds, List.cons.injEq] at e1
    have := e1.1
    split at this
    · simp at this
    · split at this
      · simp at this
      · rename_i hb; simpa using hb
  · simp only [kinds, List.cons.injEq] at e1
    have := e1.1
    split at this
    · simp at this
    · assumption

/-! ### Concrete cases -/

private def press (r k : Nat) : List In := [holdIn r k, holdIn r k]
private def up : List In := [idleIn, idleIn]

/-- Two taps of the Fn key (row 2, column 0) lock; a third one unlocks. -/
example :
    let r2 := run quickCfg (State.init quickCfg) (press 2 0 ++ up ++ press 2 0 ++ up)
    let r3 := run quickCfg r2.1 (press 2 0 ++ up)
    kinds quickCfg r2.2.flatten = [.fn false, .fn true, .fn false, .fn true] ∧
    r2.1.keys.layer = true ∧ r3.1.keys.layer = false := by decide +kernel

/-- With Fn held, typing uses the Fn layer: Fn down, `Q` down gives F-key usage 0x7003A. -/
example :
    let both : In := { idleIn with level := fun r k => !((r == 2 && k == 0) || (r == 1 && k == 1)) }
    let r := run quickCfg (State.init quickCfg) (press 2 0 ++ [both, both] ++ press 2 0 ++ up)
    kinds quickCfg r.2.flatten = [.fn false, .ordinary, .release, .fn true] ∧
    Act.add 0x07003A ∈ r.2.flatten ∧ r.1.keys.layer = false := by decide +kernel

/-- Three taps of BOOT (row 3, column 1 of the locked Fn layer) reset into the bootloader. -/
example :
    let r := run quickCfg (State.init quickCfg) (press 2 0 ++ up ++ press 2 0 ++ up ++
      press 3 1 ++ up ++ press 3 1 ++ up ++ press 3 1)
    Act.boot ∈ r.2.flatten ∧ (kinds quickCfg r.2.flatten).count .boot = 3 := by decide +kernel

end Chrumm.Fw
