import Verif.Fw.Debounce
import Verif.Fw.Default

/-! C01-C05: debouncing. All theorems are about `run`, the main loop of the whole firmware from
power-on, for every well-formed configuration and every input history. -/

namespace Chrumm.Fw
open Spec

/-- The per-iteration traces and the events of the key in row `r`, column `k`. -/
private abbrev ev (c : Cfg) (ins : List In) (key : Nat) : List Bool :=
  (run c (State.init c) ins).2.flatMap (keyEvents key)

/-- **C01** Press and release events of every key alternate, beginning with a press. -/
theorem C01_events_alternate (c : Cfg) (wf : c.WF) (ins : List In) (r k : Nat)
    (hr : r < c.rows) (hk : k < c.cols) :
    Alternates ((run c (State.init c) ins).2.flatMap (keyEvents (r * c.cols + k))) := by
  intro n b h
  have hp := run_key_prefix wf (init_ok wf) hr hk (init_deb hr hk) ins
  have hlt : n < (ev c ins (r * c.cols + k)).length := (List.getElem?_eq_some_iff.mp h).1
  have h' : (debRun c.debounceTicks (enc true 0) (samples r k ins)).2.flatten[n]? = some b := by
    obtain ⟨t, ht⟩ := hp
    rw [← ht, List.getElem?_append_left hlt]; exact h
  have := debRun_alternates wf.deb_le (lev := true) (n := 0) wf.deb_pos _ n b h'
  rw [this]
  rcases Nat.mod_two_eq_zero_or_one n with h | h <;> simp [h]

/-- **C02** `MATRIX_DEBOUNCE_TICKS` equal samples in a row always settle the debounced level,
whatever happened before. -/
theorem C02_settles (c : Cfg) (wf : c.WF) (pre post : List In) (r k : Nat) (b : Bool)
    (hr : r < c.rows) (hk : k < c.cols)
    (hlen : c.debounceTicks ≤ post.length) (hb : ∀ i ∈ post, i.level r k = b)
    (hlive : (run c (State.init c) (pre ++ post)).1.live) :
    lastLevel ((run c (State.init c) (pre ++ post)).2.flatMap (keyEvents (r * c.cols + k))) = b := by
  obtain ⟨-, h2⟩ := run_key_live wf (init_ok wf) hr hk (init_deb hr hk) (pre ++ post) hlive
  rw [List.flatMap_def, h2]
  obtain ⟨n, hn, hlev⟩ := debRun_level wf.deb_le (lev := true) (n := 0) wf.deb_pos
    (samples r k (pre ++ post))
  have hpost : samples r k post = List.replicate post.length b := by
    rw [List.eq_replicate_iff]
    refine ⟨by simp [samples], fun x hx => ?_⟩
    obtain ⟨i, hi, rfl⟩ := List.mem_map.mp hx
    exact hb i hi
  have hs : samples r k (pre ++ post) = samples r k pre ++ List.replicate post.length b := by
    rw [← hpost]; simp [samples]
  obtain ⟨n1, hn1, hlev1⟩ := debRun_level wf.deb_le (lev := true) (n := 0) wf.deb_pos
    (samples r k pre)
  obtain ⟨n2, hn2, hset⟩ := debRun_settle wf.deb_le b hn1 post.length (Or.inr (by omega))
    (lev := ((debRun c.debounceTicks (enc true 0) (samples r k pre)).2.flatten.getLast?).getD true)
  have : enc (((debRun c.debounceTicks (enc true 0) (samples r k (pre ++ post))).2.flatten.getLast?).getD
      true) n = enc b n2 := by
    rw [← hlev, hs, debRun_append, ← hset, hlev1]
  unfold lastLevel
  generalize ((debRun c.debounceTicks (enc true 0)
    (samples r k (pre ++ post))).2.flatten.getLast?).getD true = l at this ⊢
  unfold enc at this
  cases l <;> cases b <;> simp at this ⊢ <;> omega

/-- **C03** Exact condition for an event: let `post` be the iterations since the key's previous
event (or since power-on). The next iteration reports an event of the key iff the new sample differs
from the reported level and, over some run of consecutive samples ending now, the new level
outnumbers the old one by at least `MATRIX_DEBOUNCE_TICKS`. -/
theorem C03_event_iff (c : Cfg) (wf : c.WF) (pre post : List In) (i : In) (r k : Nat)
    (hr : r < c.rows) (hk : k < c.cols)
    (hpre : pre = [] ∨ ∃ pre' j, pre = pre' ++ [j] ∧
      keyEvents (r * c.cols + k) (tick c (run c (State.init c) pre').1 j).2 ≠ [])
    (hpost : (run c (run c (State.init c) pre).1 post).2.flatMap (keyEvents (r * c.cols + k)) = [])
    (hlive : (run c (State.init c) (pre ++ post ++ [i])).1.live) :
    let fires := i.level r k ≠
        lastLevel ((run c (State.init c) pre).2.flatMap (keyEvents (r * c.cols + k))) ∧
      ∃ t, t <:+ samples r k (post ++ [i]) ∧ (c.debounceTicks : Int) ≤ excess (i.level r k) t
    let events := keyEvents (r * c.cols + k) (tick c (run c (State.init c) (pre ++ post)).1 i).2
    (fires → events = [i.level r k]) ∧ (¬ fires → events = []) := by
  have live_of : ∀ a b, (run c (State.init c) (a ++ b)).1.live → (run c (State.init c) a).1.live := by
    intro a b h
    by_cases hl : (run c (State.init c) a).1.live
    · exact hl
    · rw [run_append] at h
      dsimp only at h
      rw [(run_dead hl b).1] at h; exact h
  have l1 : (run c (State.init c) (pre ++ post)).1.live := live_of _ _ hlive
  have l0 : (run c (State.init c) pre).1.live := live_of _ _ l1
  obtain ⟨p1, p2⟩ := run_key_live wf (init_ok wf) hr hk (init_deb hr hk) pre l0
  -- the counter is zero after `pre`
  have hz : (debRun c.debounceTicks (enc true 0) (samples r k pre)).1 =
      enc (lastLevel ((run c (State.init c) pre).2.flatMap (keyEvents (r * c.cols + k)))) 0 := by
    rcases hpre with rfl | ⟨pre', j, rfl, hne⟩
    · rfl
    · have l' : (run c (State.init c) pre').1.live := live_of _ _ l0
      obtain ⟨q1, q2⟩ := run_key_live wf (init_ok wf) hr hk (init_deb hr hk) pre' l'
      obtain ⟨t1, -⟩ := tick_key (i := j) hr hk q1
      obtain ⟨n, hn, hlev⟩ := debRun_level wf.deb_le (lev := true) (n := 0) wf.deb_pos
        (samples r k pre')
      rcases t1 with t1 | ⟨-, t1⟩
      · rw [t1] at hne
        have hs : samples r k (pre' ++ [j]) = samples r k pre' ++ [j.level r k] := by simp [samples]
        rw [hs, debRun_append, run_snoc]
        dsimp only
        rw [List.flatMap_append, List.flatMap_singleton, t1]
        simp only [debRun]
        rw [hlev] at hne ⊢
        rw [debByte_enc hn wf.deb_le] at hne ⊢
        split at hne
        · simp at hne
        · split at hne
          · rename_i h1 h2
            rw [if_neg h1, if_pos h2]
            simp [lastLevel]
          · simp at hne
      · exact absurd t1 hne
  have okp := reach_ok wf pre
  have hlp : (run c (run c (State.init c) pre).1 post).1.live := by
    have := l1; rw [run_append] at this; exact this
  obtain ⟨r1, r2⟩ := run_key_live wf okp hr hk p1 post hlp
  rw [hz] at r1 r2
  have hq : (debRun c.debounceTicks (enc (lastLevel ((run c (State.init c) pre).2.flatMap
      (keyEvents (r * c.cols + k)))) 0) (samples r k post)).2.flatten = [] := by
    rw [← r2, ← List.flatMap_def]; exact hpost
  have e : (run c (State.init c) (pre ++ post)).1 = (run c (run c (State.init c) pre).1 post).1 := by
    rw [run_append]
  obtain ⟨t1, -⟩ := tick_key (i := i) hr hk r1
  dsimp only
  rw [e]
  have hl2 : (tick c (run c (run c (State.init c) pre).1 post).1 i).1.live := by
    rw [run_snoc] at hlive; rw [← e]; exact hlive
  have hs : samples r k (post ++ [i]) = samples r k post ++ [i.level r k] := by simp [samples]
  rw [hs]
  have hf := debRun_fire wf.deb_pos wf.deb_le (samples r k post) (i.level r k) hq
  rcases t1 with t1 | ⟨t1, -⟩
  · rw [t1]
    by_cases hc : (debByte c.debounceTicks (debRun c.debounceTicks (enc (lastLevel
      ((run c (State.init c) pre).2.flatMap (keyEvents (r * c.cols + k)))) 0)
      (samples r k post)).1 (i.level r k)).2 = true
    · rw [if_pos hc]
      exact ⟨fun _ => rfl, fun h => absurd (hf.mp hc) h⟩
    · rw [if_neg hc]
      exact ⟨fun h => absurd (hf.mpr h) hc, fun _ => rfl⟩
  · exact absurd hl2 t1

/-- **C03**, consequence: fewer than `MATRIX_DEBOUNCE_TICKS` samples of the new level since the
previous event never produce an event. -/
theorem C03_glitch_rejected (c : Cfg) (wf : c.WF) (pre post : List In) (i : In) (r k : Nat)
    (hr : r < c.rows) (hk : k < c.cols)
    (hpre : pre = [] ∨ ∃ pre' j, pre = pre' ++ [j] ∧
      keyEvents (r * c.cols + k) (tick c (run c (State.init c) pre').1 j).2 ≠ [])
    (hpost : (run c (run c (State.init c) pre).1 post).2.flatMap (keyEvents (r * c.cols + k)) = [])
    (hlive : (run c (State.init c) (pre ++ post ++ [i])).1.live)
    (hfew : (samples r k (post ++ [i])).count (i.level r k) < c.debounceTicks) :
    keyEvents (r * c.cols + k) (tick c (run c (State.init c) (pre ++ post)).1 i).2 = [] := by
  refine (C03_event_iff c wf pre post i r k hr hk hpre hpost hlive).2 ?_
  rintro ⟨-, t, ht, hle⟩
  have := (ht.sublist).count_le (i.level r k)
  unfold excess at hle
  omega

/-- **C04** No reachable state has overflowed a debounce byte or accessed an array out of bounds;
every debounce byte stays below `2*MATRIX_DEBOUNCE_TICKS ≤ 254`, so adding 2 cannot wrap. -/
theorem C04_no_overflow (c : Cfg) (wf : c.WF) (ins : List In) :
    let s := (run c (State.init c) ins).1
    s.ub = false ∧ s.deb.length = c.rows * c.cols ∧
      ∀ x ∈ s.deb, x < 2 * c.debounceTicks ∧ x + 2 < 256 := by
  have ok := reach_ok wf ins
  refine ⟨ok.ub, ok.deb_len, fun x hx => ⟨ok.deb_lt x hx, ?_⟩⟩
  have := ok.deb_lt x hx
  have := wf.deb_le
  omega

/-- **C05** Two runs in which one key has the same samples report the same events of that key at
the same iterations, whatever the other keys, the encoder, the USB bus and the host do (as long as
neither run has been reset into the bootloader). -/
theorem C05_keys_independent (c : Cfg) (wf : c.WF) (ins ins' : List In) (r k : Nat)
    (hr : r < c.rows) (hk : k < c.cols)
    (hsame : samples r k ins = samples r k ins')
    (hl : (run c (State.init c) ins).1.live) (hl' : (run c (State.init c) ins').1.live) :
    (run c (State.init c) ins).2.map (keyEvents (r * c.cols + k)) =
      (run c (State.init c) ins').2.map (keyEvents (r * c.cols + k)) := by
  rw [(run_key_live wf (init_ok wf) hr hk (init_deb hr hk) ins hl).2,
    (run_key_live wf (init_ok wf) hr hk (init_deb hr hk) ins' hl').2, hsame]

/-! ### The hypotheses are met by the shipped configuration -/

theorem defaultCfg_wf : defaultCfg.WF :=
  ⟨rfl, by intro l; cases l <;> rfl, by decide, by decide⟩

/-- An environment in which nothing happens. -/
def idleIn : In where
  level := fun _ _ => true
  susp := fun _ _ => false
  encA := true
  encB := true
  encSusp := false
  kbReady := true
  kbAccept := true
  conReady := true
  conAccept := true
  host := []

/-- The key in row `r`, column `k` is held, all others are open. -/
def holdIn (r k : Nat) : In :=
  { idleIn with level := fun r' k' => !(r' == r && k' == k) }

/-- Holding `Q` (row 1, column 1) for 7 scans reports nothing, the 8th scan reports a press. -/
example : (run defaultCfg (State.init defaultCfg) (List.replicate 7 (holdIn 1 1))).2.flatMap
    (keyEvents 14) = [] ∧
  keyEvents 14 (tick defaultCfg (run defaultCfg (State.init defaultCfg)
    (List.replicate 7 (holdIn 1 1))).1 (holdIn 1 1)).2 = [false] := by decide +kernel

/-- Pressing and releasing it gives exactly press, release; the run is live (hypotheses of C02,
C03, C05). -/
example : (run defaultCfg (State.init defaultCfg)
      (List.replicate 8 (holdIn 1 1) ++ List.replicate 8 idleIn)).2.flatMap (keyEvents 14) =
        [false, true] ∧
    (run defaultCfg (State.init defaultCfg)
      (List.replicate 8 (holdIn 1 1) ++ List.replicate 8 idleIn)).1.live := by decide +kernel

end Chrumm.Fw
