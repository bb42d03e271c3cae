import Verif.Fw.Hid

/-! The rotary encoder. -/

namespace Chrumm.Fw
open Spec

/-- The parts of `s.enc` that only `encoder_tick` touches. -/
theorem micro_enc {c : Cfg} {i s m} (hm : m ≠ .encoder) :
    (micro c i s m).1.enc = s.enc := by
  unfold micro
  split
  · rfl
  · cases m with
    | encoder => exact absurd rfl hm
    | rowPut r v => dsimp only; split <;> rfl
    | hid => rfl
    | led => rfl
    | host h => rfl
    | sample r k =>
      dsimp only
      unfold debounce
      split
      · rfl
      · split
        · dsimp only
          have := (report_frame c s (r * c.cols + k) (i.level r k) (i.susp r k)).2.1
          split <;> exact this
        · rfl

theorem micros_enc {c : Cfg} {i s ms} (hm : .encoder ∉ ms) :
    (micros c i s ms).1.enc = s.enc := by
  induction ms generalizing s with
  | nil => rfl
  | cons m ms ih =>
    simp only [List.mem_cons, not_or] at hm
    simp only [micros]
    rw [ih hm.2, micro_enc (fun h => hm.1 h.symm)]

theorem program_enc_split (c : Cfg) (i : In) :
    ∃ A B, program c i = A ++ .encoder :: B ∧ .encoder ∉ A ∧ .encoder ∉ B := by
  refine ⟨matrixTick c, [.hid, .led] ++ i.host.map .host, by simp [program], ?_, ?_⟩
  · intro h
    simp only [matrixTick, List.mem_flatMap, List.mem_append, List.mem_cons, List.mem_map,
      List.not_mem_nil, or_false, reduceCtorEq, and_false, exists_false] at h
  · simp

/-- The usage that `encoder_tick` passes to `report`. -/
def encUsage (c : Cfg) (e : Enc) (i : In) : Nat :=
  if e.dec * 4 + i.encA.toNat * 2 + i.encB.toNat = 0b00111 then c.ccw
  else if e.dec * 4 + i.encA.toNat * 2 + i.encB.toNat = 0b11011 then c.cw
  else kNONE

/-- The timer part of `report`, without the HID calls. -/
def encTimer (c : Cfg) (e : Enc) (u : Nat) : Enc :=
  if e.timeout ≠ 0 then { e with timeout := e.timeout - 1 }
  else if u ≠ kNONE then { e with current := u, timeout := c.keypressTicks }
  else { e with current := kNONE }

theorem encReport_enc (c e h u susp) : (encReport c e h u susp).1 = encTimer c e u := by
  unfold encReport encTimer
  dsimp only
  split
  · rfl
  · rename_i h0
    split
    · split <;> rfl
    · split
      · rfl
      · rename_i h1
        have h1 : e.current = kNONE := by simpa using h1
        cases e; simp_all

/-- The complete next encoder state. -/
def encStep (c : Cfg) (e : Enc) (i : In) : Enc :=
  { encTimer c e (encUsage c e i) with
    dec := (encNext[e.dec * 4 + i.encA.toNat * 2 + i.encB.toNat]?).getD 0 }

theorem encoderTick_step {c : Cfg} {s : State} (ok : Ok c s) (i : In) :
    (encoderTick c s i).1.enc = encStep c s.enc i := by
  obtain ⟨n, hn, -⟩ := encNext_le _ (enc_index_lt _ ok.dec_le i.encA i.encB)
  unfold encoderTick
  dsimp only
  rw [hn]
  rw [enc_index _ ok.dec_le] at hn ⊢
  dsimp only
  unfold encStep encUsage
  rw [hn, encReport_enc]
  split
  · rfl
  · split <;> rfl

/-- The rotation events among some actions (`true` = clockwise). -/
theorem tick_enc {c : Cfg} (wf : c.WF) {s : State} (ok : Ok c s) (i : In)
    (hl : (tick c s i).1.live) : (tick c s i).1.enc = encStep c s.enc i := by
  obtain ⟨A, B, e, hA, hB⟩ := program_enc_split c i
  unfold tick at hl ⊢
  rw [e, micros_append] at hl ⊢
  dsimp only at hl ⊢
  simp only [micros] at hl ⊢
  have hl1 := micros_live hl
  rw [micros_enc hB]
  have hAv : ∀ m ∈ A, Valid c m := fun m hm => program_valid c i m (by rw [e]; simp [hm])
  have okA := micros_ok wf ok (i := i) hAv
  have hl2 : (micros c i s A).1.live := by
    by_cases h : (micros c i s A).1.live
    · exact h
    · rw [micro_dead h] at hl1; exact hl1
  have : micro c i (micros c i s A).1 .encoder = encoderTick c (micros c i s A).1 i := by
    unfold micro; rw [if_neg hl2]
  rw [this, encoderTick_step okA, micros_enc hA]

theorem run_live_cons {c : Cfg} {s : State} {i is} (h : (run c s (i :: is)).1.live) :
    s.live ∧ (tick c s i).1.live ∧ (run c (tick c s i).1 is).1.live := by
  refine ⟨?_, ?_, h⟩
  · by_cases h' : s.live
    · exact h'
    · rw [(run_dead h' _).1] at h; exact h
  · by_cases h' : (tick c s i).1.live
    · exact h'
    · have : (run c s (i :: is)).1 = (run c (tick c s i).1 is).1 := rfl
      rw [this, (run_dead h' _).1] at h; exact h

/-- The encoder state of a run is a fold of its own steps: nothing else influences it. -/
theorem run_enc {c : Cfg} (wf : c.WF) {s : State} (ok : Ok c s) (ins : List In)
    (hl : (run c s ins).1.live) : (run c s ins).1.enc = ins.foldl (encStep c) s.enc := by
  induction ins generalizing s with
  | nil => rfl
  | cons i is ih =>
    obtain ⟨h0, h1, h2⟩ := run_live_cons hl
    simp only [run, List.foldl_cons]
    rw [ih (tick_ok wf ok) h2, tick_enc wf ok i h1]

end Chrumm.Fw
