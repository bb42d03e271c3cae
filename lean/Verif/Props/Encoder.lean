import Verif.Fw.Acts
import Verif.Props.Debounce

/-! C12-C14: the rotary encoder. -/

namespace Chrumm.Fw
open Spec

/-- **C12** For every sequence of pin readings the decoder state is one of the seven documented
states, the lookup index stays inside the 28-entry table, and no out-of-bounds access happens. -/
theorem C12_decoder_safe (c : Cfg) (wf : c.WF) (ins : List In) (a b : Bool) :
    let s := (run c (State.init c) ins).1
    s.enc.dec ≤ 6 ∧ s.ub = false ∧
      ((s.enc.dec * 2 % 256 ||| a.toNat) * 2 % 256 ||| b.toNat) < encNext.length := by
  have ok := reach_ok wf ins
  exact ⟨ok.dec_le, ok.ub, enc_index_lt _ ok.dec_le a b⟩

/-- Quarter-step position encoded by a decoder state, relative to the last detent reported. -/
private def pos (dec : Nat) : Int :=
  match dec with
  | 0b011 => 0 | 0b101 => 1 | 0b100 => 2 | 0b110 => 3
  | 0b010 => -1 | 0b000 => -2 | _ => -3

private theorem pins_mod (p : Int) : pinsAt p = pinsAt (p % 4) := by
  unfold pinsAt; rw [Int.emod_emod_of_dvd _ (by decide)]

private theorem turns_append (a b) : turns (a ++ b) = turns a + turns b := by
  simp only [turns, List.count_append]; omega

/-- One reading: position minus four times the turns stays the decoder's offset. -/
private theorem dec_step (d : Nat) (hd : d ≤ 6) (q : Int) (hq : q = pos d ∨ q = pos d + 1 ∨ q = pos d - 1) :
    let a := (pinsAt q).1
    let b := (pinsAt q).2
    let idx := d * 4 + a.toNat * 2 + b.toNat
    q = 4 * turns (rotOf idx) + pos ((encNext[idx]?).getD 0) := by
  have : d = 0 ∨ d = 1 ∨ d = 2 ∨ d = 3 ∨ d = 4 ∨ d = 5 ∨ d = 6 := by omega
  rcases this with rfl | rfl | rfl | rfl | rfl | rfl | rfl <;>
    rcases hq with rfl | rfl | rfl <;> decide

private theorem pins_shift (q z : Int) : pinsAt (q + 4 * z) = pinsAt q := by
  rw [pins_mod, pins_mod q]; congr 1; omega

private theorem run_pos {c : Cfg} (wf : c.WF) {s : State} (ok : Ok c s) (p : Int) (z : Int)
    (hp : p = 4 * z + pos s.enc.dec) (path : List Int) (ins : List In) (hf : Follows p path ins)
    (hl : (run c s ins).1.live) :
    (path.getLast?).getD p = 4 * (z + turns ((run c s ins).2.flatMap rotations)) +
      pos (run c s ins).1.enc.dec := by
  induction ins generalizing s p z path with
  | nil =>
    cases path with
    | nil => simp [run, turns, hp]
    | cons q path => exact absurd hf id
  | cons i is ih =>
    cases path with
    | nil => exact absurd hf id
    | cons q path =>
      obtain ⟨hq, hpin, hf⟩ := hf
      obtain ⟨h0, h1, h2⟩ := run_live_cons hl
      have hstep := dec_step s.enc.dec ok.dec_le (q - 4 * z) (by omega)
      have hpin' : pinsAt (q - 4 * z) = (i.encA, i.encB) := by
        rw [hpin, ← pins_shift q (-z)]; congr 1; omega
      dsimp only at hstep
      rw [hpin'] at hstep
      dsimp only at hstep
      have e1 := tick_enc wf ok i h1
      have e2 := tick_rot wf ok i h1
      have := ih (tick_ok wf ok) q (z + turns (rotations (tick c s i).2)) (by
        rw [e1, e2]; unfold encStep; dsimp only; omega) path hf h2
      simp only [run, List.flatMap_cons, turns_append, List.getLast?_cons, Option.getD_some]
      rw [this]
      omega

private theorem pos_bound (d : Nat) : -3 ≤ pos d ∧ pos d ≤ 3 := by
  unfold pos; split <;> decide

/-- **C13** Let the shaft start at a detent (position 0 in quarter steps) and move arbitrarily, back
and forth, by at most a quarter step between readings. Then clockwise minus counter-clockwise events
times four is always within three quarter steps of the true position, and exact whenever the shaft
is at a detent. -/
theorem C13_counts_detents (c : Cfg) (wf : c.WF) (path : List Int) (ins : List In)
    (hf : Follows 0 path ins) (hl : (run c (State.init c) ins).1.live) :
    let p := (path.getLast?).getD 0
    let n := turns ((run c (State.init c) ins).2.flatMap rotations)
    (p - 4 * n ≤ 3 ∧ 4 * n - p ≤ 3) ∧ (p % 4 = 0 → p = 4 * n) := by
  have h := run_pos wf (init_ok wf) 0 0 rfl path ins hf hl
  have hb := pos_bound (run c (State.init c) ins).1.enc.dec
  dsimp only at h ⊢
  rw [Int.zero_add] at h
  refine ⟨⟨by omega, by omega⟩, fun hp => ?_⟩
  -- at a detent the offset is a multiple of four of absolute value at most three
  omega

/-! ### Concrete cases -/

private def pinIn (p : Int) : In := { idleIn with encA := (pinsAt p).1, encB := (pinsAt p).2 }

/-- One clockwise detent with a bounce in the middle: one clockwise event. -/
example : let path : List Int := [0, 1, 0, 1, 2, 1, 2, 3, 2, 3, 4]
    Follows 0 path (path.map pinIn) ∧
    (run defaultCfg (State.init defaultCfg) (path.map pinIn)).1.live ∧
    (run defaultCfg (State.init defaultCfg) (path.map pinIn)).2.flatMap rotations = [true] := by
  refine ⟨?_, by decide +kernel, by decide +kernel⟩
  simp [Follows, pinIn, pinsAt, idleIn]

end Chrumm.Fw
