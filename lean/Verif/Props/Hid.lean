import Verif.Fw.Trace
import Verif.Props.Debounce

/-! C06-C08, C17: the report in memory. -/

namespace Chrumm.Fw
open Spec

/-- **C06** No stuck keys: whatever the in-memory report shows comes from a key whose last event was
a press and that carries it on one of the layers, or from an encoder rotation of at most
`ENCODER_KEYPRESS_TICKS` iterations ago. Any keymap, any history of layer changes, suspends, ... -/
theorem C06_no_stuck (c : Cfg) (wf : c.WF) (ins : List In)
    (hl : (run c (State.init c) ins).1.live) (x : Item)
    (hx : Shows (run c (State.init c) ins).1.hid x) :
    (∃ r k, r < c.rows ∧ k < c.cols ∧
      lastLevel ((run c (State.init c) ins).2.flatMap (keyEvents (r * c.cols + k))) = false ∧
      KeyCarries c (r * c.cols + k) x) ∨
    (∃ a t b, (run c (State.init c) ins).2 = a ++ t :: b ∧ b.length ≤ c.keypressTicks ∧
      ∃ isCw ∈ rotations t, Carries (if isCw then c.cw else c.ccw) x) := by
  rcases reach_noStuck wf ins hl x hx with ⟨key, hd, hc, -⟩ | ⟨h1, h2⟩
  · left
    have hlt : key < c.rows * c.cols := by
      obtain ⟨st, h, -⟩ := hd
      rw [← (reach_ok wf ins).deb_len]
      exact (List.getElem?_eq_some_iff.mp h).1
    have hc0 : 0 < c.cols := by
      rcases Nat.eq_zero_or_pos c.cols with h | h
      · rw [h] at hlt; simp at hlt
      · exact h
    have e : key / c.cols * c.cols + key % c.cols = key := Nat.div_add_mod' key c.cols
    have hr : key / c.cols < c.rows := Nat.div_lt_of_lt_mul (by rwa [Nat.mul_comm])
    refine ⟨key / c.cols, key % c.cols, hr, Nat.mod_lt _ hc0, ?_, by rw [e]; exact hc⟩
    rw [← reach_down wf ins hr (Nat.mod_lt _ hc0) hl, e]
    exact hd
  · right
    obtain ⟨a, t, b, e1, e2, d, hd, e3⟩ := (reach_encRecent wf ins hl).1 h1
    exact ⟨a, t, b, e1, by omega, d, hd, by rw [← e3]; exact h2⟩

/-- **C06**, hands off: whatever happened before, once every switch has been open for
`MATRIX_DEBOUNCE_TICKS` iterations and the encoder has been still for `ENCODER_KEYPRESS_TICKS + 1`
iterations, the report is completely empty. -/
theorem C06_hands_off (c : Cfg) (wf : c.WF) (pre post : List In)
    (hl : (run c (State.init c) (pre ++ post)).1.live)
    (hopen : ∀ i ∈ post, ∀ r k, r < c.rows → k < c.cols → i.level r k = true)
    (hlen : c.debounceTicks ≤ post.length)
    (hstill : ∀ t ∈ (run c (run c (State.init c) pre).1 post).2, rotations t = [])
    (hlen' : c.keypressTicks + 1 ≤ post.length) :
    let h := (run c (State.init c) (pre ++ post)).1.hid
    h.keycodes = [0, 0, 0, 0, 0, 0] ∧ h.modifiers = 0 ∧ h.consumer = 0 := by
  have none : ∀ x, ¬ Shows (run c (State.init c) (pre ++ post)).1.hid x := by
    intro x hx
    rcases C06_no_stuck c wf _ hl x hx with ⟨r, k, hr, hk, he, -⟩ | ⟨a, t, b, e1, e2, d, hd, -⟩
    · rw [C02_settles c wf pre post r k true hr hk hlen (fun i hi => hopen i hi r k hr hk) hl] at he
      exact absurd he (by decide)
    · rw [run_append] at e1
      dsimp only at e1
      have hl2 : (run c (run c (State.init c) pre).1 post).2.length = post.length := run_length _ _ _
      have ht : t ∈ (run c (run c (State.init c) pre).1 post).2 := by
        rcases List.append_eq_append_iff.mp e1 with ⟨l, e3, e4⟩ | ⟨l, e3, e4⟩
        · rw [e4]; simp
        · cases l with
          | nil => rw [List.nil_append] at e4; rw [← e4]; simp
          | cons y l =>
            simp only [List.cons_append, List.cons.injEq] at e4
            have : b.length = l.length + post.length := by rw [e4.2, List.length_append, hl2]
            omega
      rw [hstill t ht] at hd
      simp at hd
  have ok := reach_hidOk (c := c) (pre ++ post)
  generalize (run c (State.init c) (pre ++ post)).1.hid = h at *
  refine ⟨?_, ?_, ?_⟩
  · have hz : ∀ x ∈ h.keycodes, x = 0 := by
      intro x hx
      by_cases h0 : x = 0
      · exact h0
      · exact absurd ⟨h0, hx⟩ (none (.key x))
    have := (List.eq_replicate_iff).mpr ⟨ok.len, hz⟩
    rw [this]; rfl
  · refine BitVec.eq_of_getLsbD_eq fun j _ => ?_
    have hj := none (.mod j)
    unfold Shows at hj
    simpa using hj
  · by_cases h0 : h.consumer = 0
    · exact h0
    · exact absurd ⟨h0, rfl⟩ (none (.con h.consumer))

/-- A keyboard item that is in the report. -/
private theorem carries_shows {h : Hid} {u : Nat} {x : Item} (hx : Carries u x)
    (hfree : 0 ∈ h.keycodes ∨ (∀ code, x ≠ .key code) ∨ Shows h x) :
    Shows (hidAdd h u false).1 x := by
  unfold hidAdd
  rw [if_neg (by decide)]
  cases x with
  | con code =>
    obtain ⟨h1, h2, h3⟩ := hx
    rw [if_neg (by omega), if_pos h1]
    unfold addConsumer
    rw [h2]
    split
    · exact ⟨h3, by assumption⟩
    · exact ⟨h3, rfl⟩
  | mod j =>
    obtain ⟨h1, h2, h3⟩ := hx
    rw [if_pos h1]
    unfold addKeycode
    rw [if_pos (by omega)]
    have : u % 256 - 0xE0 = j := by omega
    rw [this]
    exact (bit_or h3).mpr (Or.inr rfl)
  | key code =>
    obtain ⟨h1, h2, h3, h4⟩ := hx
    rw [if_pos h1, h2]
    unfold addKeycode
    rw [if_neg h4]
    split
    · exact ⟨h3, by assumption⟩
    · rename_i hn
      have hfree : 0 ∈ h.keycodes := by
        rcases hfree with hf | hf | hf
        · exact hf
        · exact absurd rfl (hf code)
        · exact absurd hf.2 hn
      obtain ⟨ks, hks⟩ := fillSlot_isSome (code := code) hfree
      rw [hks]
      obtain ⟨a, b, -, e2⟩ := fillSlot_some hks
      exact ⟨h3, by simp [e2]⟩

private theorem encoderTick_ex (c s i) : ∃ u, (u = c.ccw ∨ u = c.cw ∨ u = kNONE) ∧
    (encoderTick c s i).1.enc.current = (encReport c s.enc s.hid u i.encSusp).1.current ∧
    (encoderTick c s i).1.hid = (encReport c s.enc s.hid u i.encSusp).2.1 := by
  obtain ⟨h1, h2⟩ := encoderTick_enc (c := c) (s := s) (i := i)
  refine ⟨_, ?_, h1, h2⟩
  split
  · exact Or.inl rfl
  · split
    · exact Or.inr (Or.inl rfl)
    · exact Or.inr (Or.inr rfl)

/-- The keyboard item `x` survives a step that reports no release of a key carrying it. -/
private theorem micro_keeps {c : Cfg} (wf : c.WF) {i s m} (hm : Valid c m) {x : Item}
    (hcon : ∀ code, x ≠ .con code) (hkey : ∀ code, x = .key code → ¬ (0xE0 ≤ code ∧ code ≤ 0xE7))
    (hcur : ¬ Carries s.enc.current x) (hx : Shows s.hid x)
    (hrel : ∀ k', Act.event k' true ∈ (micro c i s m).2 → ¬ KeyCarries c k' x) :
    Shows (micro c i s m).1.hid x := by
  unfold micro at hrel ⊢
  split
  · exact hx
  · rename_i hlive
    rw [if_neg hlive] at hrel
    cases m with
    | rowPut r v => dsimp only; split <;> exact hx
    | hid => exact hidTick_shows.mpr hx
    | led => exact hx
    | host h => exact hx
    | encoder =>
      dsimp only
      obtain ⟨u, -, -, e⟩ := encoderTick_ex c s i
      rw [e]
      unfold encReport
      dsimp only
      split
      · exact hx
      · split <;> split
        · exact hidAdd_keeps (hidRemove_keeps hx hcon hcur hkey) hcon
        · exact hidAdd_keeps hx hcon
        · exact hidRemove_keeps hx hcon hcur hkey
        · exact hx
    | sample r k =>
      dsimp only at hrel ⊢
      have hlt := key_lt hm.1 hm.2
      generalize r * c.cols + k = key at *
      generalize i.level r k = b at *
      unfold debounce at hrel ⊢
      split at hrel
      · exact hx
      · rename_i st hst
        split at hrel
        · rename_i st' hd
          dsimp only at hrel ⊢
          have hrel' : b = true → ¬ KeyCarries c key x := by
            intro hb
            subst hb
            refine hrel key ?_
            split <;> simp
          have : Shows (report c s key b (i.susp r k)).1.hid x := by
            have e1 : (c.layers s.keys.layer)[key]? = some _ :=
              List.getElem?_eq_getElem (by rw [wf.layers]; exact hlt)
            have e2 : (c.layers (!s.keys.layer))[key]? = some _ :=
              List.getElem?_eq_getElem (by rw [wf.layers]; exact hlt)
            unfold report
            rw [e1, e2]
            dsimp only
            split
            · split <;> exact hx
            · split
              · rename_i hb
                have := hrel' hb
                refine hidRemove_keeps (hidRemove_keeps hx hcon ?_ hkey) hcon ?_ hkey
                · intro h; exact this ⟨_, _, e1, h⟩
                · intro h; exact this ⟨_, _, e2, h⟩
              · split
                · split <;> exact hx
                · exact hidAdd_keeps hx hcon
          split <;> exact this
        · exact hx

/-- The encoder only ever holds one of its two configured usages. -/
private def EncOwn (c : Cfg) (s : State) : Prop :=
  s.enc.current = kNONE ∨ s.enc.current = c.cw ∨ s.enc.current = c.ccw

private theorem micro_encOwn {c : Cfg} {i s m} (h : EncOwn c s) : EncOwn c (micro c i s m).1 := by
  by_cases hm : m = .encoder
  · subst hm
    unfold micro
    split
    · exact h
    · unfold EncOwn at h ⊢
      dsimp only
      obtain ⟨u, hu, e, -⟩ := encoderTick_ex c s i
      rw [e, encReport_enc]
      unfold encTimer
      split
      · exact h
      · split
        · rcases hu with hu | hu | hu
          · exact Or.inr (Or.inr hu)
          · exact Or.inr (Or.inl hu)
          · exact Or.inl hu
        · exact Or.inl rfl
  · unfold EncOwn at h ⊢
    rw [micro_enc hm]; exact h

private theorem carries_kNONE (x : Item) : ¬ Carries kNONE x := by
  cases x <;> (unfold Carries kNONE; omega)

private theorem micros_keeps {c : Cfg} (wf : c.WF) {i s} {x : Item}
    (hcon : ∀ code, x ≠ .con code) (hkey : ∀ code, x = .key code → ¬ (0xE0 ≤ code ∧ code ≤ 0xE7))
    (hcw : ¬ Carries c.cw x) (hccw : ¬ Carries c.ccw x) (ms : List Micro)
    (hv : ∀ m ∈ ms, Valid c m) (ho : EncOwn c s) (hx : Shows s.hid x)
    (hrel : ∀ k', Act.event k' true ∈ (micros c i s ms).2 → ¬ KeyCarries c k' x) :
    EncOwn c (micros c i s ms).1 ∧ Shows (micros c i s ms).1.hid x := by
  induction ms generalizing s with
  | nil => exact ⟨ho, hx⟩
  | cons m ms ih =>
    simp only [List.mem_cons, forall_eq_or_imp] at hv
    simp only [micros, List.mem_append] at hrel ⊢
    have hcur : ¬ Carries s.enc.current x := by
      rcases ho with h | h | h <;> rw [h]
      · exact carries_kNONE x
      · exact hcw
      · exact hccw
    exact ih hv.2 (micro_encOwn ho)
      (micro_keeps wf hv.1 hcon hkey hcur hx fun k' h => hrel k' (Or.inl h))
      fun k' h => hrel k' (Or.inr h)

private theorem run_keeps {c : Cfg} (wf : c.WF) {s} {x : Item}
    (hcon : ∀ code, x ≠ .con code) (hkey : ∀ code, x = .key code → ¬ (0xE0 ≤ code ∧ code ≤ 0xE7))
    (hcw : ¬ Carries c.cw x) (hccw : ¬ Carries c.ccw x) (ins : List In)
    (ho : EncOwn c s) (hx : Shows s.hid x)
    (hrel : ∀ k', Act.event k' true ∈ (run c s ins).2.flatten → ¬ KeyCarries c k' x) :
    Shows (run c s ins).1.hid x := by
  induction ins generalizing s with
  | nil => exact hx
  | cons i is ih =>
    simp only [run, List.flatten_cons, List.mem_append] at hrel ⊢
    obtain ⟨h1, h2⟩ := micros_keeps wf hcon hkey hcw hccw (program c i) (program_valid c i) ho hx
      fun k' h => hrel k' (Or.inl h)
    exact ih h1 h2 fun k' h => hrel k' (Or.inr h)

/-- **C07** A pressed key is reported until released. Take any moment of any run: during iteration
`i` after the history `pre`, the scan has done `A` and now samples the key (r, k), and the debouncer
reports its press. If the bus is not suspended and a slot is free (or the item is a modifier or
already there), the keyboard item `x` of the key's usage `u` on the layer active at that moment is in
the report, during the rest `B` of the iteration and after any further iterations `ins`, as long as
no release of a key carrying the item is reported (and the item is not one of the encoder's) -
whatever layer changes, other keys, USB events happen. -/
theorem C07_reported_until_released (c : Cfg) (wf : c.WF) (pre : List In) (i : In)
    (A B : List Micro) (r k : Nat) (ins : List In) (u : Nat) (x : Item)
    (hprog : program c i = A ++ Micro.sample r k :: B) :
    let key := r * c.cols + k
    let s1 := (micros c i (run c (State.init c) pre).1 A).1
    let s2 := micro c i s1 (Micro.sample r k)
    let s3 := micros c i s2.1 B
    let s4 := run c s3.1 ins
    Act.event key false ∈ s2.2 → (c.layers s1.keys.layer)[key]? = some u →
    (∀ l, (c.layers l)[key]? ≠ some cFN) → Carries u x → (∀ code, x ≠ .con code) →
    i.susp r k = false → (0 ∈ s1.hid.keycodes ∨ (∀ code, x ≠ .key code) ∨ Shows s1.hid x) →
    ¬ Carries c.cw x → ¬ Carries c.ccw x →
    (∀ k', Act.event k' true ∈ s3.2 ++ s4.2.flatten → ¬ KeyCarries c k' x) →
    Shows s2.1.hid x ∧ Shows s3.1.hid x ∧ Shows s4.1.hid x := by
  intro key s1 s2 s3 s4 hev hu hfn hx hcon hsusp hfree hcw hccw hrel
  have hv := program_valid c i
  rw [hprog] at hv
  have hvk : Valid c (.sample r k) := hv _ (by simp)
  have hkey : ∀ code, x = .key code → ¬ (0xE0 ≤ code ∧ code ≤ 0xE7) := by
    rintro code rfl; exact hx.2.2.2
  have ho1 : EncOwn c s1 := by
    have h0 : EncOwn c (run c (State.init c) pre).1 :=
      run_inv (P := EncOwn c) (fun _ _ _ _ => micro_encOwn) (Or.inl rfl) pre
    have : ∀ (ms : List Micro) s, EncOwn c s → EncOwn c (micros c i s ms).1 := by
      intro ms
      induction ms with
      | nil => exact fun s h => h
      | cons m ms ih => exact fun s h => ih _ (micro_encOwn h)
    exact this A _ h0
  have h2 : Shows s2.1.hid x := by
    have e2 : (c.layers (!s1.keys.layer))[key]? = some _ :=
      List.getElem?_eq_getElem (by rw [wf.layers]; exact key_lt hvk.1 hvk.2)
    have hrep : Shows (report c s1 key false false).1.hid x := by
      unfold report
      rw [hu, e2]
      dsimp only
      rw [if_neg (by
        rintro (h | h)
        · exact hfn _ (h ▸ hu)
        · exact hfn _ (h ▸ e2))]
      rw [if_neg (by decide)]
      rw [if_neg (by rintro rfl; cases x <;> simp [Carries, kBOOT] at hx)]
      exact carries_shows hx hfree
    show Shows (micro c i s1 (Micro.sample r k)).1.hid x
    change Act.event key false ∈ (micro c i s1 (Micro.sample r k)).2 at hev
    unfold micro at hev ⊢
    split at hev
    · simp at hev
    · rename_i hlive
      rw [if_neg hlive]
      dsimp only at hev ⊢
      have e : r * c.cols + k = key := rfl
      rw [e] at hev ⊢
      unfold debounce at hev ⊢
      split at hev
      · simp at hev
      · split at hev
        · rename_i hb
          dsimp only at hev ⊢
          have hb : i.level r k = false := by
            have hn := report_noEvent c s1 key (i.level r k) (i.susp r k)
            split at hev <;>
            · simp only [List.mem_cons, reduceCtorEq, false_or, Act.event.injEq, true_and] at hev
              rcases hev with h | h
              · exact h.symm
              · exact absurd rfl (hn _ h _ _)
          rw [hb, hsusp]
          split <;> exact hrep
        · simp at hev
  obtain ⟨ho3, h3⟩ := micros_keeps wf hcon hkey hcw hccw B
    (fun m hm => hv m (by simp [hm])) (micro_encOwn ho1) h2
    fun k' h => hrel k' (List.mem_append_left _ h)
  exact ⟨h2, h3, run_keeps wf hcon hkey hcw hccw ins ho3 h3
    fun k' h => hrel k' (List.mem_append_right _ h)⟩

/-- **C08** After any history, the six slots hold no nonzero code twice and no modifier code, and
every code is a byte. -/
theorem C08_report_well_formed (c : Cfg) (ins : List In) :
    let h := (run c (State.init c) ins).1.hid
    h.keycodes.length = 6 ∧ (h.keycodes.filter (· ≠ 0)).Nodup ∧
      ∀ x ∈ h.keycodes, x < 256 ∧ ¬ (0xE0 ≤ x ∧ x ≤ 0xE7) := by
  have ok := reach_hidOk (c := c) ins
  exact ⟨ok.len, ok.nodup, fun x hx => ⟨ok.lt x hx, ok.nomod x hx⟩⟩

/-- **C08** A seventh key: with six codes held, adding any usage leaves the six slots alone; and
adding any usage never displaces a held code, removing any usage removes at most its own code. -/
theorem C08_seventh_ignored (h : Hid) (u : Nat) (susp : Bool) :
    (0 ∉ h.keycodes → (hidAdd h u susp).1.keycodes = h.keycodes) ∧
    (∀ code, code ≠ 0 → code ∈ h.keycodes → code ∈ (hidAdd h u susp).1.keycodes) := by
  refine ⟨fun h0 => ?_, fun code h1 h2 => ?_⟩
  · unfold hidAdd
    split
    · rfl
    · split
      · unfold addKeycode
        split
        · rfl
        · split
          · rfl
          · split
            · rename_i ks hks
              obtain ⟨a, b, e1, -⟩ := fillSlot_some hks
              exact absurd (by simp [e1]) h0
            · rfl
      · split
        · unfold addConsumer; split <;> rfl
        · rfl
  · exact (hidAdd_keeps (x := .key code) ⟨h1, h2⟩ (by simp)).2

/-! ### C17: suspended bus -/

/-- The bus is suspended during the whole iteration. -/
def Suspended (i : In) : Prop := (∀ r k, i.susp r k = true) ∧ i.encSusp = true

/-- Every call of `hid_add` among the actions is directly followed by a remote wakeup. -/
def AllWake : List Act → Prop
  | [] => True
  | .add _ :: .wakeup :: rest => AllWake rest
  | .add _ :: _ => False
  | _ :: rest => AllWake rest

private theorem allWake_append {a b} (ha : AllWake a) (hb : AllWake b) : AllWake (a ++ b) := by
  match a, ha with
  | [], _ => exact hb
  | .add _ :: .wakeup :: rest, ha => exact allWake_append (a := rest) ha hb
  | .put _ _ :: rest, ha => exact allWake_append (a := rest) ha hb
  | .get _ _ :: rest, ha => exact allWake_append (a := rest) ha hb
  | .event _ _ :: rest, ha => exact allWake_append (a := rest) ha hb
  | .rotate _ :: rest, ha => exact allWake_append (a := rest) ha hb
  | .remove _ :: rest, ha => exact allWake_append (a := rest) ha hb
  | .wakeup :: rest, ha => exact allWake_append (a := rest) ha hb
  | .boot :: rest, ha => exact allWake_append (a := rest) ha hb
  | .kbReport _ _ _ :: rest, ha => exact allWake_append (a := rest) ha hb
  | .conReport _ _ :: rest, ha => exact allWake_append (a := rest) ha hb

private theorem hidAdd_susp (h u) : hidAdd h u true = (h, [.add u, .wakeup]) := by
  simp [hidAdd]

private theorem remove_allWake (h u) : AllWake (hidRemove h u).2 := by
  unfold hidRemove; split <;> (try split) <;> exact trivial

private theorem report_susp {c : Cfg} {s : State} {key b} :
    AllWake (report c s key b true).2 := by
  unfold report
  dsimp only
  repeat' split
  all_goals first
    | exact trivial
    | exact allWake_append (remove_allWake _ _) (remove_allWake _ _)
    | (rw [hidAdd_susp]; exact trivial)

private theorem encReport_susp {c e h u} : AllWake (encReport c e h u true).2.2 := by
  unfold encReport
  dsimp only
  split
  · exact trivial
  · rw [hidAdd_susp]
    split <;> split
    · exact allWake_append (remove_allWake _ _) trivial
    · exact trivial
    · exact remove_allWake _ _
    · exact trivial

private theorem hidRemove_only {h : Hid} {u x} (hx : Shows (hidRemove h u).1 x) : Shows h x := by
  unfold hidRemove at hx
  split at hx
  · unfold removeKeycode at hx
    split at hx
    · exact hx
    · split at hx
      · cases x with
        | key code => exact hx
        | con code => exact hx
        | mod j => exact ((bit_and_not (by omega)).mp hx).1
      · split at hx
        · rename_i ks hks
          obtain ⟨a, b, e1, e2, -⟩ := clearSlot_some hks
          cases x with
          | mod j => exact hx
          | con code => exact hx
          | key code =>
            refine ⟨hx.1, ?_⟩
            have := hx.2
            simp only [e2, List.mem_append, List.mem_cons] at this
            rw [e1]
            rcases this with h | h | h
            · simp [h]
            · exact absurd h hx.1
            · simp [h]
        · exact hx
  · split at hx
    · unfold addConsumer at hx
      split at hx
      · exact hx
      · cases x with
        | key code => exact hx
        | mod j => exact hx
        | con code => exact absurd hx.2.symm hx.1
    · exact hx

private theorem micro_susp {c : Cfg} {i s m} (hi : Suspended i) :
    AllWake (micro c i s m).2 ∧ ∀ x, Shows (micro c i s m).1.hid x → Shows s.hid x := by
  unfold micro
  split
  · exact ⟨trivial, fun _ h => h⟩
  · cases m with
    | rowPut r v => dsimp only; split <;> exact ⟨trivial, fun _ h => h⟩
    | hid =>
      refine ⟨?_, fun x h => hidTick_shows.mp h⟩
      dsimp only; unfold hidTick; dsimp only
      split <;> split <;> exact trivial
    | led =>
      refine ⟨?_, fun x h => h⟩
      dsimp only; unfold ledTick; dsimp only
      split
      · exact trivial
      · split <;> exact trivial
    | host h => exact ⟨trivial, fun _ h => h⟩
    | encoder =>
      refine ⟨?_, fun x h => ?_⟩
      · dsimp only
        unfold encoderTick
        dsimp only
        rw [hi.2]
        split <;>
        · refine allWake_append ?_ encReport_susp
          split
          · exact trivial
          · split <;> exact trivial
      · dsimp only at h
        obtain ⟨u, -, -, e⟩ := encoderTick_ex c s i
        rw [e] at h
        unfold encReport at h
        rw [hi.2] at h
        dsimp only at h
        rw [hidAdd_susp] at h
        split at h
        · exact h
        · split at h <;> split at h
          · exact hidRemove_only h
          · exact h
          · exact hidRemove_only h
          · exact h
    | sample r k =>
      dsimp only
      unfold debounce
      split
      · exact ⟨trivial, fun _ h => h⟩
      · split
        · dsimp only
          rw [hi.1]
          have h1 := report_susp (c := c) (s := s) (key := r * c.cols + k) (b := i.level r k)
          have h2 : ∀ x, Shows (report c s (r * c.cols + k) (i.level r k) true).1.hid x →
              Shows s.hid x := by
            intro x hx
            unfold report at hx
            dsimp only at hx
            repeat' split at hx
            all_goals first
              | exact hx
              | exact hidRemove_only (hidRemove_only hx)
              | (rw [hidAdd_susp] at hx; exact hx)
          split <;> exact ⟨h1, h2⟩
        · exact ⟨trivial, fun _ h => h⟩

/-- **C17** While the bus is suspended nothing is typed: from any state, whatever keys are pressed or
encoder turned, the report shows nothing that it did not show before. Releases still act (C06 has no
assumption about suspension). -/
theorem C17_nothing_typed (c : Cfg) (s : State) (ins : List In) (hi : ∀ i ∈ ins, Suspended i)
    (x : Item) (hx : Shows (run c s ins).1.hid x) : Shows s.hid x := by
  induction ins generalizing s with
  | nil => exact hx
  | cons i is ih =>
    simp only [List.mem_cons, forall_eq_or_imp] at hi
    have h1 := ih _ hi.2 hx
    have : ∀ ms s, Shows (micros c i s ms).1.hid x → Shows s.hid x := by
      intro ms
      induction ms with
      | nil => exact fun s h => h
      | cons m ms ih' => exact fun s h => (micro_susp hi.1).2 x (ih' _ h)
    exact this _ _ h1

/-- **C17** While the bus is suspended every attempt to type something requests a remote wakeup. -/
theorem C17_wakes_host (c : Cfg) (s : State) (i : In) (hi : Suspended i) :
    AllWake (tick c s i).2 := by
  have : ∀ ms s, AllWake (micros c i s ms).2 := by
    intro ms
    induction ms with
    | nil => exact fun s => trivial
    | cons m ms ih => exact fun s => allWake_append (micro_susp hi).1 (ih _)
  exact this _ _

/-! ### Concrete cases -/

/-- The shipped keymap with short times, to keep the evaluation of the examples small. -/
def quickCfg : Cfg := { defaultCfg with debounceTicks := 2, keypressTicks := 3 }

/-- Pressing `Q` shows it; releasing it empties the report (C06, C07). -/
example : Shows (run quickCfg (State.init quickCfg) (List.replicate 2 (holdIn 1 1))).1.hid
      (.key 0x14) ∧
    (run quickCfg (State.init quickCfg)
      (List.replicate 2 (holdIn 1 1) ++ List.replicate 4 idleIn)).1.live ∧
    (∀ t ∈ (run quickCfg (run quickCfg (State.init quickCfg)
      (List.replicate 2 (holdIn 1 1))).1 (List.replicate 4 idleIn)).2, rotations t = []) := by
  refine ⟨⟨by decide, by decide +kernel⟩, by decide +kernel, by decide +kernel⟩

/-- The hypotheses of C07 are met by the second scan of a held `Q`. -/
example : let s1 := (run quickCfg (State.init quickCfg) [holdIn 1 1]).1
    let s2 := micro quickCfg (holdIn 1 1) s1 (Micro.sample 1 1)
    Act.event 14 false ∈ s2.2 ∧ (defaultCfg.layers s1.keys.layer)[14]? = some 0x070014 ∧
    (∀ l, (defaultCfg.layers l)[14]? ≠ some cFN) ∧ Carries 0x070014 (.key 0x14) ∧
    0 ∈ s1.hid.keycodes ∧ ¬ Carries defaultCfg.cw (.key 0x14) ∧ ¬ Carries defaultCfg.ccw (.key 0x14) := by
  refine ⟨by decide +kernel, by decide +kernel, by decide +kernel, by simp [Carries],
    by decide +kernel, by simp [Carries, defaultCfg], by simp [Carries, defaultCfg]⟩

/-- A suspended iteration in which `Q` becomes pressed asks for a wakeup. -/
example : let i := { holdIn 1 1 with susp := fun _ _ => true, encSusp := true }
    Suspended i ∧ Act.wakeup ∈ (run quickCfg (State.init quickCfg) [i, i]).2.flatten := by
  refine ⟨⟨fun _ _ => rfl, rfl⟩, by decide +kernel⟩

end Chrumm.Fw
