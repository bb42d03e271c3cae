import Verif.Fw.Model

/-! Basic lemmas about the execution of the firmware model. -/

namespace Chrumm.Fw

/-- The firmware is running: no reset, no undefined behaviour so far. -/
def State.live (s : State) : Prop := ¬ (s.halted ∨ s.ub)

instance (s : State) : Decidable s.live := by unfold State.live; infer_instance

theorem micro_dead {c i s m} (h : ¬ s.live) : micro c i s m = (s, []) := by
  have h : (s.halted ∨ s.ub) := Classical.not_not.mp h
  simp [micro, h]

theorem micros_dead {c i s} (h : ¬ s.live) (ms) : micros c i s ms = (s, []) := by
  induction ms with
  | nil => rfl
  | cons m ms ih => simp [micros, micro_dead h, ih]

theorem micros_append (c i) (s : State) (a b : List Micro) :
    micros c i s (a ++ b) =
      ((micros c i (micros c i s a).1 b).1,
        (micros c i s a).2 ++ (micros c i (micros c i s a).1 b).2) := by
  induction a generalizing s with
  | nil => simp [micros]
  | cons m ms ih => simp [micros, ih]

theorem tick_dead {c s} (h : ¬ s.live) (i) : tick c s i = (s, []) := micros_dead h _

theorem run_append (c) (s : State) (a b : List In) :
    run c s (a ++ b) = ((run c (run c s a).1 b).1, (run c s a).2 ++ (run c (run c s a).1 b).2) := by
  induction a generalizing s with
  | nil => simp [run]
  | cons m ms ih => simp [run, ih]

theorem run_snoc (c) (s : State) (a : List In) (i : In) :
    run c s (a ++ [i]) =
      ((tick c (run c s a).1 i).1, (run c s a).2 ++ [(tick c (run c s a).1 i).2]) := by
  rw [run_append]; simp [run]

theorem run_length (c) (s : State) (a : List In) : (run c s a).2.length = a.length := by
  induction a generalizing s with
  | nil => rfl
  | cons m ms ih => simp [run, ih]

theorem run_dead {c s} (h : ¬ s.live) (is) : (run c s is).1 = s ∧
    (run c s is).2 = List.replicate is.length [] := by
  induction is with
  | nil => simp [run]
  | cons i is ih => simp [run, tick_dead h, ih, List.replicate_succ]

/-- Micro steps that one loop iteration can contain. -/
def Valid (c : Cfg) : Micro → Prop
  | .rowPut r _ => r < c.rows
  | .sample r k => r < c.rows ∧ k < c.cols
  | _ => True

theorem program_valid (c i) : ∀ m ∈ program c i, Valid c m := by
  intro m hm
  simp only [program, matrixTick, List.mem_append, List.mem_flatMap, List.mem_range,
    List.mem_cons, List.mem_map, List.not_mem_nil, or_false] at hm
  rcases hm with (⟨r, hr, h⟩ | h) | h
  · rcases h with (rfl | ⟨k, hk, rfl⟩) | rfl
    · exact hr
    · exact ⟨hr, hk⟩
    · exact hr
  · rcases h with rfl | rfl | rfl <;> exact trivial
  · obtain ⟨x, _, rfl⟩ := h; exact trivial

theorem key_lt {c : Cfg} {r k : Nat} (hr : r < c.rows) (hk : k < c.cols) :
    r * c.cols + k < c.rows * c.cols := by
  have : (r + 1) * c.cols ≤ c.rows * c.cols := Nat.mul_le_mul_right _ hr
  rw [Nat.add_mul] at this; omega

/-! ### The structural invariant -/

/-- Invariant of every reachable state. -/
structure Ok (c : Cfg) (s : State) : Prop where
  deb_len : s.deb.length = c.rows * c.cols
  deb_lt : ∀ x ∈ s.deb, x < 2 * c.debounceTicks
  dec_le : s.enc.dec ≤ 6
  ub : s.ub = false

theorem encNext_le : ∀ st < 28, ∃ n, encNext[st]? = some n ∧ n ≤ 6 := by decide

theorem debByte_lt {D st b} (hD : 1 ≤ D) (hD' : D ≤ 127) (h : st < 2 * D) :
    (debByte D st b).1 < 2 * D := by
  unfold debByte
  cases b <;> simp only [Bool.toNat_false, Bool.toNat_true, Bool.not_false, Bool.not_true] <;>
    split <;> split <;> (try split) <;> simp only <;> omega

theorem report_frame (c : Cfg) (s : State) (key b susp) :
    (report c s key b susp).1.deb = s.deb ∧ (report c s key b susp).1.enc = s.enc ∧
      (report c s key b susp).1.led = s.led := by
  unfold report
  dsimp only
  repeat' (first | split | exact ⟨rfl, rfl, rfl⟩)

theorem report_ub {c : Cfg} (wf : c.WF) {s : State} {key b susp}
    (hk : key < c.rows * c.cols) : (report c s key b susp).1.ub = s.ub := by
  have h1 : key < (c.layers s.keys.layer).length := by rw [wf.layers]; exact hk
  have h2 : key < (c.layers (!s.keys.layer)).length := by rw [wf.layers]; exact hk
  unfold report
  rw [List.getElem?_eq_getElem h1, List.getElem?_eq_getElem h2]
  dsimp only
  repeat' (first | split | rfl)

theorem init_ok {c : Cfg} (wf : c.WF) : Ok c (State.init c) := by
  refine ⟨by simp [State.init], ?_, by simp [State.init], rfl⟩
  intro x hx
  have := wf.deb_pos
  simp only [State.init, List.mem_replicate] at hx
  omega

theorem debounce_ok {c : Cfg} (wf : c.WF) {s : State} (ok : Ok c s) {key b susp}
    (hk : key < c.rows * c.cols) : Ok c (debounce c s key b susp).1 := by
  have hk' : key < s.deb.length := by rw [ok.deb_len]; exact hk
  have hst := ok.deb_lt _ (List.getElem_mem hk')
  have hlt := debByte_lt (b := b) wf.deb_pos wf.deb_le hst
  unfold debounce
  rw [List.getElem?_eq_getElem hk']
  dsimp only
  rcases hd : debByte c.debounceTicks s.deb[key] b with ⟨st, f⟩
  rw [hd] at hlt
  obtain ⟨h1, h2, h3⟩ := report_frame c s key b susp
  have h4 := report_ub wf (s := s) (b := b) (susp := susp) hk
  have key1 : ∀ x ∈ s.deb.set key st, x < 2 * c.debounceTicks := by
    intro x hx
    rcases List.mem_or_eq_of_mem_set hx with h | rfl
    · exact ok.deb_lt _ h
    · exact hlt
  cases f
  · refine ⟨by simp [ok.deb_len], key1, ok.dec_le, ok.ub⟩
  · dsimp only
    split
    · exact ⟨by rw [h1, ok.deb_len], by rw [h1]; exact ok.deb_lt, by rw [h2]; exact ok.dec_le,
        by rw [h4]; exact ok.ub⟩
    · exact ⟨by simp [h1, ok.deb_len], by simpa [h1] using key1, by simpa [h2] using ok.dec_le,
        by simpa [h4] using ok.ub⟩

theorem encReport_dec (c : Cfg) (e h u susp) : (encReport c e h u susp).1.dec = e.dec := by
  unfold encReport
  dsimp only
  repeat' (first | split | rfl)

/-- The table index computed by `encoder_tick`. -/
theorem enc_index (d : Nat) (hd : d ≤ 6) (a b : Bool) :
    ((d * 2 % 256 ||| a.toNat) * 2 % 256 ||| b.toNat) = d * 4 + a.toNat * 2 + b.toNat := by
  have : ∀ d ≤ 6, ∀ a b : Bool,
    ((d * 2 % 256 ||| a.toNat) * 2 % 256 ||| b.toNat) = d * 4 + a.toNat * 2 + b.toNat := by decide
  exact this d hd a b

theorem enc_index_lt (d : Nat) (hd : d ≤ 6) (a b : Bool) :
    ((d * 2 % 256 ||| a.toNat) * 2 % 256 ||| b.toNat) < 28 := by
  rw [enc_index d hd]
  cases a <;> cases b <;> simp <;> omega

theorem encoderTick_frame {c : Cfg} {s : State} {i : In} :
    (encoderTick c s i).1.deb = s.deb ∧ (encoderTick c s i).1.keys = s.keys ∧
      (encoderTick c s i).1.led = s.led ∧ (encoderTick c s i).1.halted = s.halted := by
  unfold encoderTick
  dsimp only
  repeat' (first | split | exact ⟨rfl, rfl, rfl, rfl⟩)

theorem encoderTick_ok {c : Cfg} {s : State} (ok : Ok c s) {i : In} :
    Ok c (encoderTick c s i).1 := by
  obtain ⟨n, hn, hn6⟩ := encNext_le _ (enc_index_lt _ ok.dec_le i.encA i.encB)
  unfold encoderTick
  dsimp only
  rw [hn]
  exact ⟨ok.deb_len, ok.deb_lt, hn6, ok.ub⟩

theorem micro_ok {c : Cfg} (wf : c.WF) {i s m} (ok : Ok c s) (hm : Valid c m) :
    Ok c (micro c i s m).1 := by
  unfold micro
  split
  · exact ok
  · cases m with
    | rowPut r v =>
      have : r < c.rowPins.length := by rw [wf.pins]; exact hm
      simp only [List.getElem?_eq_getElem this]; exact ok
    | sample r k => exact debounce_ok wf ok (key_lt hm.1 hm.2)
    | encoder => exact encoderTick_ok ok
    | hid => exact ⟨ok.deb_len, ok.deb_lt, ok.dec_le, ok.ub⟩
    | led => exact ⟨ok.deb_len, ok.deb_lt, ok.dec_le, ok.ub⟩
    | host h => exact ⟨ok.deb_len, ok.deb_lt, ok.dec_le, ok.ub⟩

theorem micros_ok {c : Cfg} (wf : c.WF) {i s} (ok : Ok c s) {ms} (hm : ∀ m ∈ ms, Valid c m) :
    Ok c (micros c i s ms).1 := by
  induction ms generalizing s with
  | nil => exact ok
  | cons m ms ih =>
    simp only [List.mem_cons, forall_eq_or_imp] at hm
    exact ih (micro_ok wf ok hm.1) hm.2

theorem tick_ok {c : Cfg} (wf : c.WF) {i s} (ok : Ok c s) : Ok c (tick c s i).1 :=
  micros_ok wf ok (program_valid c i)

theorem run_ok {c : Cfg} (wf : c.WF) {s} (ok : Ok c s) (is) : Ok c (run c s is).1 := by
  induction is generalizing s with
  | nil => exact ok
  | cons i is ih => exact ih (tick_ok wf ok)

theorem reach_ok {c : Cfg} (wf : c.WF) (is) : Ok c (run c (State.init c) is).1 :=
  run_ok wf (init_ok wf) is

end Chrumm.Fw
