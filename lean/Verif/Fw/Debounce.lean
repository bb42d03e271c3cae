import Verif.Fw.Basic
import Verif.Spec.Firmware

/-! Debouncing: a one-key machine, and the proof that each key of the firmware runs it. -/

namespace Chrumm.Fw
open Spec

/-- One key's byte over a history of samples, with the event (if any) of each sample. -/
def debRun (D : Nat) (st : Nat) : List Bool → Nat × List (List Bool)
  | [] => (st, [])
  | b :: bs =>
    let r := debByte D st b
    let q := debRun D r.1 bs
    (q.1, (if r.2 then [b] else []) :: q.2)

theorem debRun_append (D st a b) : debRun D st (a ++ b) =
    ((debRun D (debRun D st a).1 b).1, (debRun D st a).2 ++ (debRun D (debRun D st a).1 b).2) := by
  induction a generalizing st with
  | nil => simp [debRun]
  | cons x xs ih => simp [debRun, ih]

theorem debRun_length (D st a) : (debRun D st a).2.length = a.length := by
  induction a generalizing st with
  | nil => rfl
  | cons x xs ih => simp [debRun, ih]

/-! ### Projection of the firmware on one key -/

@[simp] theorem keyEvents_nil (k) : keyEvents k [] = [] := rfl
theorem keyEvents_append (k a b) : keyEvents k (a ++ b) = keyEvents k a ++ keyEvents k b := by
  simp [keyEvents]
theorem keyEvents_cons (k x a) : keyEvents k (x :: a) = keyEvents k [x] ++ keyEvents k a := by
  rw [← keyEvents_append]; rfl

/-- Actions that are not key events. -/
def NoEvent (a : List Act) : Prop := ∀ x ∈ a, ∀ k b, x ≠ .event k b

theorem NoEvent.keyEvents {a} (h : NoEvent a) (k) : keyEvents k a = [] := by
  unfold Spec.keyEvents
  rw [List.filterMap_eq_nil_iff]
  intro x hx
  cases x with
  | event k' b => exact absurd rfl (h _ hx k' b)
  | _ => rfl

theorem hidAdd_noEvent (h u s) : NoEvent (hidAdd h u s).2 := by
  unfold hidAdd NoEvent
  split <;> (try split) <;> (try split) <;> simp

theorem hidRemove_noEvent (h u) : NoEvent (hidRemove h u).2 := by
  unfold hidRemove NoEvent
  split <;> (try split) <;> simp

theorem NoEvent.append {a b} (ha : NoEvent a) (hb : NoEvent b) : NoEvent (a ++ b) := by
  intro x hx
  rcases List.mem_append.mp hx with h | h
  · exact ha x h
  · exact hb x h

theorem noEvent_nil : NoEvent [] := by intro x hx; simp at hx

theorem report_noEvent (c s key b susp) : NoEvent (report c s key b susp).2 := by
  unfold report
  dsimp only
  repeat' (first | split | exact noEvent_nil | exact hidAdd_noEvent _ _ _ |
    exact (hidRemove_noEvent _ _).append (hidRemove_noEvent _ _) | (intro x hx; simp_all))

theorem hidTick_noEvent (h i) : NoEvent (hidTick h i).2 := by
  unfold hidTick NoEvent
  dsimp only
  split <;> split <;> simp

theorem ledTick_noEvent (c l) : NoEvent (ledTick c l).2 := by
  unfold ledTick NoEvent
  dsimp only
  split <;> (try split) <;> simp

theorem encReport_noEvent (c e h u susp) : NoEvent (encReport c e h u susp).2.2 := by
  unfold encReport
  dsimp only
  split
  · exact noEvent_nil
  · split <;> split
    · exact (hidRemove_noEvent _ _).append (hidAdd_noEvent _ _ _)
    · exact hidAdd_noEvent _ _ _
    · exact hidRemove_noEvent _ _
    · exact noEvent_nil

theorem encoderTick_noEvent (c s i) : NoEvent (encoderTick c s i).2 := by
  unfold encoderTick
  dsimp only
  split <;>
  · refine NoEvent.append ?_ (encReport_noEvent _ _ _ _ _)
    split <;> (try split) <;> (intro x hx; simp_all)

/-- Whether a micro step samples the key with this index. -/
def Samples (c : Cfg) (key : Nat) : Micro → Prop
  | .sample r k => r * c.cols + k = key
  | _ => False

theorem micro_other {c : Cfg} {i s m key} (hm : ¬ Samples c key m) :
    (micro c i s m).1.deb[key]? = s.deb[key]? ∧ keyEvents key (micro c i s m).2 = [] := by
  unfold micro
  split
  · simp
  · cases m with
    | rowPut r v =>
      dsimp only
      split <;> exact ⟨rfl, rfl⟩
    | encoder =>
      exact ⟨by rw [(encoderTick_frame).1], (encoderTick_noEvent _ _ _).keyEvents _⟩
    | hid => exact ⟨rfl, (hidTick_noEvent _ _).keyEvents _⟩
    | led => exact ⟨rfl, (ledTick_noEvent _ _).keyEvents _⟩
    | host h => exact ⟨rfl, rfl⟩
    | sample r k =>
      have hne : r * c.cols + k ≠ key := hm
      dsimp only
      rw [keyEvents_cons]
      have e0 : keyEvents key [Act.get r k] = [] := rfl
      rw [e0, List.nil_append]
      have hev : ∀ a, NoEvent a → keyEvents key (Act.event (r * c.cols + k) (i.level r k) :: a) = [] := by
        intro a ha
        rw [keyEvents_cons, ha.keyEvents]
        simp [keyEvents, hne]
      unfold debounce
      split
      · exact ⟨rfl, rfl⟩
      · split
        · dsimp only
          obtain ⟨h1, -, -⟩ := report_frame c s (r * c.cols + k) (i.level r k) (i.susp r k)
          have hn := report_noEvent c s (r * c.cols + k) (i.level r k) (i.susp r k)
          split
          · exact ⟨by rw [h1], hev _ hn⟩
          · refine ⟨?_, hev _ hn⟩
            dsimp only
            rw [h1, List.getElem?_set_ne hne]
        · refine ⟨?_, rfl⟩
          dsimp only
          rw [List.getElem?_set_ne hne]

theorem micros_other {c : Cfg} {i s ms key} (hm : ∀ m ∈ ms, ¬ Samples c key m) :
    (micros c i s ms).1.deb[key]? = s.deb[key]? ∧ keyEvents key (micros c i s ms).2 = [] := by
  induction ms generalizing s with
  | nil => exact ⟨rfl, rfl⟩
  | cons m ms ih =>
    simp only [List.mem_cons, forall_eq_or_imp] at hm
    obtain ⟨h1, h2⟩ := micro_other (i := i) (s := s) hm.1
    obtain ⟨h3, h4⟩ := ih (s := (micro c i s m).1) hm.2
    simp only [micros]
    exact ⟨h3.trans h1, by rw [keyEvents_append, h2, h4]; rfl⟩

theorem micros_live {c : Cfg} {i s ms} (h : (micros c i s ms).1.live) : s.live := by
  by_cases hs : s.live
  · exact hs
  · rw [micros_dead hs] at h; exact h

theorem key_inj {c : Cfg} {r k r' k' : Nat} (hk : k < c.cols) (hk' : k' < c.cols)
    (h : r * c.cols + k = r' * c.cols + k') : r = r' ∧ k = k' := by
  have h1 : (r * c.cols + k) / c.cols = (r' * c.cols + k') / c.cols := by rw [h]
  have h2 : (r * c.cols + k) % c.cols = (r' * c.cols + k') % c.cols := by rw [h]
  have hc : 0 < c.cols := by omega
  rw [Nat.mul_comm, Nat.mul_add_div hc, Nat.mul_comm r', Nat.mul_add_div hc,
    Nat.div_eq_of_lt hk, Nat.div_eq_of_lt hk'] at h1
  rw [Nat.mul_comm, Nat.mul_add_mod, Nat.mul_comm r', Nat.mul_add_mod,
    Nat.mod_eq_of_lt hk, Nat.mod_eq_of_lt hk'] at h2
  exact ⟨by simpa using h1, h2⟩

theorem range_split {n k : Nat} (h : k < n) :
    ∃ a b, List.range n = a ++ k :: b ∧ k ∉ a ∧ k ∉ b := by
  obtain ⟨a, b, e⟩ := List.append_of_mem (List.mem_range.mpr h)
  have nd := List.nodup_range (n := n)
  rw [e, List.nodup_append, List.nodup_cons] at nd
  refine ⟨a, b, e, ?_, nd.2.1.1⟩
  intro hk
  exact nd.2.2 k hk k (by simp) rfl

theorem program_split {c : Cfg} {i : In} {r k : Nat} (hr : r < c.rows) (hk : k < c.cols) :
    ∃ A B, program c i = A ++ Micro.sample r k :: B ∧
      (∀ m ∈ A, ¬ Samples c (r * c.cols + k) m) ∧ (∀ m ∈ B, ¬ Samples c (r * c.cols + k) m) := by
  obtain ⟨ra, rb, er, hra, hrb⟩ := range_split hr
  obtain ⟨ka, kb, ek, hka, hkb⟩ := range_split hk
  let f : Nat → List Micro := fun r =>
    Micro.rowPut r false :: ((List.range c.cols).map fun k => Micro.sample r k) ++
      [Micro.rowPut r true]
  have hrow : ∀ r', r' ≠ r → ∀ m ∈ f r', ¬ Samples c (r * c.cols + k) m := by
    intro r' hne m hm
    simp only [f, List.mem_append, List.mem_cons, List.mem_map, List.mem_range,
      List.not_mem_nil, or_false] at hm
    rcases hm with (rfl | ⟨k', hk', rfl⟩) | rfl
    · exact id
    · intro h; exact hne (key_inj hk' hk h).1
    · exact id
  have hcol : ∀ l : List Nat, (∀ x ∈ l, x < c.cols) → k ∉ l →
      ∀ m ∈ l.map (fun k => Micro.sample r k), ¬ Samples c (r * c.cols + k) m := by
    intro l hl hkl m hm
    obtain ⟨x, hx, rfl⟩ := List.mem_map.mp hm
    intro h
    have := (key_inj (hl x hx) hk h).2
    exact hkl (this ▸ hx)
  have hlt : ∀ x ∈ ka ++ k :: kb, x < c.cols := by
    intro x hx; rw [← ek] at hx; exact List.mem_range.mp hx
  refine ⟨ra.flatMap f ++ (Micro.rowPut r false :: ka.map fun k => Micro.sample r k),
    (kb.map fun k => Micro.sample r k) ++ [Micro.rowPut r true] ++ rb.flatMap f ++
      [.encoder, .hid, .led] ++ i.host.map .host, ?_, ?_, ?_⟩
  · simp only [program, matrixTick]
    rw [er, List.flatMap_append, List.flatMap_cons, ek]
    simp [f, ek]
  · intro m hm
    simp only [List.mem_append, List.mem_cons, List.mem_flatMap] at hm
    rcases hm with ⟨r', hr', hm⟩ | rfl | hm
    · exact hrow r' (fun e => hra (e ▸ hr')) m hm
    · exact id
    · exact hcol ka (fun x hx => hlt x (by simp [hx])) hka m hm
  · intro m hm
    simp only [List.append_assoc, List.mem_append, List.mem_cons, List.mem_flatMap,
      List.not_mem_nil, or_false] at hm
    rcases hm with hm | rfl | ⟨r', hr', hm⟩ | (rfl | rfl | rfl) | hm
    · exact hcol kb (fun x hx => hlt x (by simp [hx])) hkb m hm
    · exact id
    · exact hrow r' (fun e => hrb (e ▸ hr')) m hm
    · exact id
    · exact id
    · exact id
    · obtain ⟨x, _, rfl⟩ := List.mem_map.mp hm
      exact id

/-- One sample step of the key itself. -/
theorem micro_sample {c : Cfg} {i s r k st} (hl : s.live)
    (hs : s.deb[r * c.cols + k]? = some st) :
    let q := debByte c.debounceTicks st (i.level r k)
    let res := micro c i s (.sample r k)
    keyEvents (r * c.cols + k) res.2 = (if q.2 then [i.level r k] else []) ∧
    (res.1.live → res.1.deb[r * c.cols + k]? = some q.1) := by
  have hlt : r * c.cols + k < s.deb.length := by
    obtain ⟨h, -⟩ := List.getElem?_eq_some_iff.mp hs; exact h
  unfold micro
  rw [if_neg hl]
  dsimp only
  rw [keyEvents_cons]
  have e0 : keyEvents (r * c.cols + k) [Act.get r k] = [] := rfl
  rw [e0, List.nil_append]
  unfold debounce
  rw [hs]
  dsimp only
  rcases hq : debByte c.debounceTicks st (i.level r k) with ⟨x, f⟩
  cases f
  · refine ⟨rfl, fun _ => ?_⟩
    simp [hlt]
  · obtain ⟨h1, -, -⟩ := report_frame c s (r * c.cols + k) (i.level r k) (i.susp r k)
    have hn := report_noEvent c s (r * c.cols + k) (i.level r k) (i.susp r k)
    dsimp only
    have hev : keyEvents (r * c.cols + k) (Act.event (r * c.cols + k) (i.level r k) ::
        (report c s (r * c.cols + k) (i.level r k) (i.susp r k)).2) = [i.level r k] := by
      rw [keyEvents_cons, hn.keyEvents]; simp [keyEvents]
    split
    · rename_i hd
      exact ⟨hev, fun hlive => absurd hd hlive⟩
    · refine ⟨hev, fun _ => ?_⟩
      simp [h1, hlt]

/-- One loop iteration, seen by one key: if the firmware is still running afterwards, the key made
exactly one step of the one-key machine; otherwise it made that step or none. -/
theorem tick_key {c : Cfg} {i s r k st} (hr : r < c.rows) (hk : k < c.cols) (hs : s.deb[r * c.cols + k]? = some st) :
    let q := debByte c.debounceTicks st (i.level r k)
    let res := tick c s i
    ((keyEvents (r * c.cols + k) res.2 = (if q.2 then [i.level r k] else [])) ∨
      (¬ res.1.live ∧ keyEvents (r * c.cols + k) res.2 = [])) ∧
    (res.1.live → res.1.deb[r * c.cols + k]? = some q.1) := by
  obtain ⟨A, B, e, hA, hB⟩ := program_split (i := i) hr hk
  unfold tick
  rw [e, micros_append]
  obtain ⟨a1, a2⟩ := micros_other (i := i) (s := s) hA
  dsimp only
  by_cases hl1 : (micros c i s A).1.live
  · obtain ⟨m1, m2⟩ := micro_sample (i := i) hl1 (a1.trans hs)
    obtain ⟨b1, b2⟩ := micros_other (i := i)
      (s := (micro c i (micros c i s A).1 (.sample r k)).1) hB
    simp only [micros]
    refine ⟨Or.inl ?_, ?_⟩
    · rw [keyEvents_append, keyEvents_append, a2, m1, b2]; simp
    · intro h
      rw [b1]
      exact m2 (micros_live h)
  · rw [micros_dead hl1]
    exact ⟨Or.inr ⟨hl1, by rw [keyEvents_append, a2]; rfl⟩, fun h => absurd h hl1⟩

/-- As long as the firmware runs, every key runs the one-key machine on its own samples. -/
theorem run_key_live {c : Cfg} (wf : c.WF) {s r k st} (ok : Ok c s)
    (hr : r < c.rows) (hk : k < c.cols) (hs : s.deb[r * c.cols + k]? = some st)
    (ins : List In) (hl : (run c s ins).1.live) :
    (run c s ins).1.deb[r * c.cols + k]? = some (debRun c.debounceTicks st (samples r k ins)).1 ∧
    (run c s ins).2.map (keyEvents (r * c.cols + k)) =
      (debRun c.debounceTicks st (samples r k ins)).2 := by
  induction ins generalizing s st with
  | nil => exact ⟨hs, rfl⟩
  | cons i is ih =>
    have hl0 : s.live := by
      by_cases h : s.live
      · exact h
      · rw [(run_dead h (i :: is)).1] at hl; exact hl
    have hl1 : (tick c s i).1.live := by
      by_cases h : (tick c s i).1.live
      · exact h
      · simp only [run] at hl
        rw [(run_dead h is).1] at hl; exact hl
    obtain ⟨t1, t2⟩ := tick_key (i := i) hr hk hs
    obtain ⟨r1, r2⟩ := ih (tick_ok wf ok) (t2 hl1) hl
    simp only [run, samples, List.map_cons, debRun] at r1 r2 ⊢
    refine ⟨r1, ?_⟩
    rw [r2]
    congr 1
    rcases t1 with h | ⟨h, -⟩
    · exact h
    · exact absurd hl1 h

/-- In any case the events of a key are a prefix of those of the one-key machine. -/
theorem run_key_prefix {c : Cfg} (wf : c.WF) {s r k st} (ok : Ok c s)
    (hr : r < c.rows) (hk : k < c.cols) (hs : s.deb[r * c.cols + k]? = some st) (ins : List In) :
    ((run c s ins).2.flatMap (keyEvents (r * c.cols + k))) <+:
      (debRun c.debounceTicks st (samples r k ins)).2.flatten := by
  induction ins generalizing s st with
  | nil => exact List.prefix_rfl
  | cons i is ih =>
    by_cases hl0 : s.live
    · obtain ⟨t1, t2⟩ := tick_key (i := i) hr hk hs
      simp only [run, samples, List.map_cons, debRun, List.flatMap_cons, List.flatten_cons] at *
      by_cases hl1 : (tick c s i).1.live
      · have := ih (tick_ok wf ok) (t2 hl1)
        rcases t1 with h | ⟨h, -⟩
        · rw [h]
          exact (List.prefix_append_right_inj _).mpr this
        · exact absurd hl1 h
      · rw [(run_dead hl1 is).2]
        have : (List.replicate is.length ([] : List Act)).flatMap (keyEvents (r * c.cols + k)) = [] := by
          rw [List.flatMap_eq_nil_iff]; intro x hx; rw [(List.mem_replicate.mp hx).2]; rfl
        rw [this, List.append_nil]
        rcases t1 with h | ⟨-, h⟩
        · rw [h]; exact List.prefix_append _ _
        · rw [h]; exact List.nil_prefix
    · rw [(run_dead hl0 (i :: is)).2]
      have : (List.replicate (i :: is).length ([] : List Act)).flatMap (keyEvents (r * c.cols + k)) = [] := by
        rw [List.flatMap_eq_nil_iff]; intro x hx; rw [(List.mem_replicate.mp hx).2]; rfl
      rw [this]; exact List.nil_prefix

/-! ### The one-key machine -/

/-- The byte that stands for a debounced level and a hysteresis counter. -/
def enc (lev : Bool) (n : Nat) : Nat := 2 * n + (!lev).toNat

theorem debByte_enc {D n lev b} (hn : n < D) (hD : D ≤ 127) :
    debByte D (enc lev n) b =
      if b = lev then (enc lev (n - 1), false)
      else if n + 1 = D then (enc b 0, true) else (enc lev (n + 1), false) := by
  unfold debByte enc
  cases lev <;> cases b <;> simp only [Bool.not_true, Bool.not_false, Bool.toNat_true,
    Bool.toNat_false, reduceIte, reduceCtorEq] <;> (repeat' split) <;>
    simp only [Prod.mk.injEq, and_true, and_false, reduceCtorEq] <;> omega

theorem enc_cases {D st : Nat} (h : st < 2 * D) : ∃ lev n, st = enc lev n ∧ n < D := by
  refine ⟨st % 2 == 0, st / 2, ?_, by omega⟩
  unfold enc
  rcases Nat.mod_two_eq_zero_or_one st with h | h <;> simp [h] <;> omega

/-- Events of the one-key machine alternate, beginning with the opposite of the current level. -/
theorem debRun_alternates {D : Nat} (hD : D ≤ 127) {lev n} (hn : n < D) (bs : List Bool) :
    ∀ m b, (debRun D (enc lev n) bs).2.flatten[m]? = some b → b = (if m % 2 = 0 then !lev else lev) := by
  induction bs generalizing lev n with
  | nil => intro m b h; simp [debRun] at h
  | cons x xs ih =>
    intro m b h
    simp only [debRun, debByte_enc hn hD, List.flatten_cons] at h
    split at h
    · exact ih (n := n - 1) (by omega) m b (by simpa using h)
    · rename_i hx
      have hx : x = !lev := by cases x <;> cases lev <;> simp_all
      split at h
      · cases m with
        | zero => simp at h; simp [← h, hx]
        | succ m =>
          have := ih (lev := x) (n := 0) (by omega) m b (by simpa using h)
          rw [this, hx]
          have : (m + 1) % 2 = 0 ↔ ¬ m % 2 = 0 := by omega
          by_cases h2 : m % 2 = 0 <;> simp [h2, this]
      · exact ih (n := n + 1) (by omega) m b (by simpa using h)

/-- The final level is that of the last event. -/
theorem debRun_level {D : Nat} (hD : D ≤ 127) {lev n} (hn : n < D) (bs : List Bool) :
    ∃ n', n' < D ∧ (debRun D (enc lev n) bs).1 =
      enc (((debRun D (enc lev n) bs).2.flatten.getLast?).getD lev) n' := by
  induction bs generalizing lev n with
  | nil => exact ⟨n, hn, rfl⟩
  | cons x xs ih =>
    simp only [debRun, debByte_enc hn hD, List.flatten_cons]
    split
    · simpa using ih (lev := lev) (n := n - 1) (by omega)
    · split
      · obtain ⟨n', h1, h2⟩ := ih (lev := x) (n := 0) (by omega)
        refine ⟨n', h1, ?_⟩
        dsimp only
        rw [h2]
        simp only [reduceIte, List.singleton_append, List.getLast?_cons, Option.getD_some]
      · simpa using ih (lev := lev) (n := n + 1) (by omega)

/-- `D` equal samples force the level. -/
theorem debRun_settle {D : Nat} (hD : D ≤ 127) (b : Bool) {lev n} (hn : n < D) (m : Nat)
    (hm : lev = b ∨ D ≤ n + m) :
    ∃ n', n' < D ∧ (debRun D (enc lev n) (List.replicate m b)).1 = enc b n' := by
  induction m generalizing lev n with
  | zero =>
    rcases hm with rfl | h
    · exact ⟨n, hn, rfl⟩
    · omega
  | succ m ih =>
    simp only [List.replicate_succ, debRun, debByte_enc hn hD]
    split
    · rename_i h; exact ih (by omega) (Or.inl h.symm)
    · rename_i hne
      split
      · exact ih (by omega) (Or.inl rfl)
      · refine ih (by omega) (Or.inr ?_)
        rcases hm with h | h
        · exact absurd h.symm hne
        · omega

/-- The counter is the largest excess of opposite samples over a suffix of the history `seg` since
the last event. -/
def CounterInv (lev : Bool) (n : Nat) (seg : List Bool) : Prop :=
  (∃ t, t <:+ seg ∧ excess (!lev) t = n) ∧ ∀ t, t <:+ seg → excess (!lev) t ≤ n

theorem excess_snoc_eq (b t) : excess b (t ++ [b]) = excess b t + 1 := by
  unfold excess
  cases b <;> simp [List.count_append] <;> omega

theorem excess_snoc_ne (b t) : excess b (t ++ [!b]) = excess b t - 1 := by
  unfold excess
  cases b <;> simp [List.count_append] <;> omega

theorem suffix_snoc {α} {t l : List α} {x : α} (h : t <:+ l ++ [x]) :
    t = [] ∨ ∃ u, t = u ++ [x] ∧ u <:+ l := by
  obtain ⟨p, hp⟩ := h
  rcases List.eq_nil_or_concat t with rfl | ⟨u, y, rfl⟩
  · exact Or.inl rfl
  · refine Or.inr ⟨u, ?_, p, ?_⟩
    all_goals
      rw [List.concat_eq_append, ← List.append_assoc] at hp
      obtain ⟨h1, h2⟩ := List.append_inj' hp rfl
    · rw [List.concat_eq_append]; simpa using h2
    · exact h1

theorem snoc_suffix {α} {t l : List α} (x : α) (h : t <:+ l) : t ++ [x] <:+ l ++ [x] := by
  obtain ⟨p, rfl⟩ := h
  exact ⟨p, by simp⟩

theorem counter_step {lev n seg} (h : CounterInv lev n seg) :
    CounterInv lev (n - 1) (seg ++ [lev]) ∧ CounterInv lev (n + 1) (seg ++ [!lev]) := by
  obtain ⟨⟨t, ht, he⟩, hle⟩ := h
  have e1 : ∀ u, excess (!lev) (u ++ [lev]) = excess (!lev) u - 1 := by
    intro u; simpa using excess_snoc_ne (!lev) u
  refine ⟨⟨?_, ?_⟩, ⟨?_, ?_⟩⟩
  · rcases Nat.eq_zero_or_pos n with h0 | h0
    · exact ⟨[], List.nil_suffix, by simp [excess, h0]⟩
    · exact ⟨t ++ [lev], snoc_suffix _ ht, by rw [e1]; omega⟩
  · intro u hu
    rcases suffix_snoc hu with rfl | ⟨v, rfl, hv⟩
    · simp [excess]
    · have := hle v hv; rw [e1]; omega
  · exact ⟨t ++ [!lev], snoc_suffix _ ht, by rw [excess_snoc_eq]; omega⟩
  · intro u hu
    rcases suffix_snoc hu with rfl | ⟨v, rfl, hv⟩
    · simp only [excess, List.count_nil]; omega
    · have := hle v hv; rw [excess_snoc_eq]; omega

theorem debRun_quiet {D : Nat} (hD : D ≤ 127) {lev n seg} (hn : n < D) (h : CounterInv lev n seg)
    (post : List Bool) (hq : (debRun D (enc lev n) post).2.flatten = []) :
    ∃ n', n' < D ∧ (debRun D (enc lev n) post).1 = enc lev n' ∧ CounterInv lev n' (seg ++ post) := by
  induction post generalizing n seg with
  | nil => exact ⟨n, hn, rfl, by simpa using h⟩
  | cons x xs ih =>
    simp only [debRun, debByte_enc hn hD, List.flatten_cons, List.append_eq_nil_iff] at hq ⊢
    split
    · rename_i hx
      subst hx
      rw [if_pos rfl] at hq
      have := ih (by omega) (counter_step h).1 hq.2
      simpa using this
    · rename_i hx
      rw [if_neg hx] at hq
      have hx : x = !lev := by cases x <;> cases lev <;> simp_all
      split
      · rename_i hD'
        rw [if_pos hD'] at hq
        simp at hq
      · rename_i hD'
        rw [if_neg hD'] at hq
        have := ih (by omega) (counter_step h).2 hq.2
        subst hx
        simpa using this

/-- After a quiet history since the last event, the next sample fires iff it differs from the level
and some suffix has an excess of at least `D`. -/
theorem debRun_fire {D : Nat} (hD0 : 1 ≤ D) (hD : D ≤ 127) {lev : Bool} (post : List Bool) (b : Bool)
    (hq : (debRun D (enc lev 0) post).2.flatten = []) :
    (debByte D (debRun D (enc lev 0) post).1 b).2 = true ↔
      b ≠ lev ∧ ∃ t, t <:+ post ++ [b] ∧ (D : Int) ≤ excess b t := by
  have h0 : CounterInv lev 0 [] :=
    ⟨⟨[], List.nil_suffix, by simp [excess]⟩, fun t ht => by
      rw [List.suffix_nil.mp ht]; simp [excess]⟩
  obtain ⟨n, hn, he, hi⟩ := debRun_quiet hD (by omega) h0 post hq
  rw [he, debByte_enc hn hD]
  by_cases hb : b = lev
  · simp [hb]
  · have hb' : b = !lev := by cases b <;> cases lev <;> simp_all
    have hi' := (counter_step hi).2
    rw [if_neg hb]
    obtain ⟨⟨t, ht, het⟩, hle⟩ := hi'
    rw [← hb'] at ht het hle
    by_cases hf : n + 1 = D
    · rw [if_pos hf]
      simp only [true_iff]
      exact ⟨hb, t, ht, by omega⟩
    · rw [if_neg hf]
      simp only [Bool.false_eq_true, false_iff, not_and, not_exists]
      intro _ u hu
      have := hle u hu
      omega

theorem init_deb {c : Cfg} {r k} (hr : r < c.rows) (hk : k < c.cols) :
    (State.init c).deb[r * c.cols + k]? = some (enc true 0) := by
  simp only [State.init]
  rw [List.getElem?_replicate, if_pos (key_lt hr hk)]; rfl

end Chrumm.Fw
