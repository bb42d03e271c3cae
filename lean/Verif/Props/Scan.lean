import Verif.Fw.Trace
import Verif.Props.Hid

/-! C18: the matrix scan. -/

namespace Chrumm.Fw
open Spec

private theorem levels_append (lev a b) : levels lev (a ++ b) = levels (levels lev a) b := by
  induction a generalizing lev with
  | nil => rfl
  | cons x xs ih => cases x <;> simp [levels, ih]

private theorem scanOk_append (R lev a b) :
    ScanOk R lev (a ++ b) ↔ ScanOk R lev a ∧ ScanOk R (levels lev a) b := by
  induction a generalizing lev with
  | nil => simp [ScanOk, levels]
  | cons x xs ih => cases x <;> simp [ScanOk, levels, ih, and_assoc]

/-- Actions that neither read a switch nor drive a row. -/
def Neutral (R : List Nat) (l : List Act) : Prop :=
  ∀ a ∈ l, (∀ r k, a ≠ .get r k) ∧ ∀ p ∈ R, ∀ v, a ≠ .put p v

private theorem neutral_ok {R l lev} (h : Neutral R l) :
    ScanOk R lev l ∧ ∀ p ∈ R, levels lev l p = lev p := by
  induction l generalizing lev with
  | nil => exact ⟨trivial, fun _ _ => rfl⟩
  | cons x xs ih =>
    have hx := h x (by simp)
    have ih := fun lev => ih (lev := lev) (fun a ha => h a (by simp [ha]))
    cases x with
    | put p v =>
      refine ⟨(ih _).1, fun q hq => ?_⟩
      rw [show levels lev (.put p v :: xs) = levels (fun q => if q = p then v else lev q) xs from rfl,
        (ih _).2 q hq]
      have : q ≠ p := by rintro rfl; exact hx.2 q hq v rfl
      simp [this]
    | get r k => exact absurd rfl (hx.1 r k)
    | _ => exact ih lev

private def AllHigh (R : List Nat) (lev : Nat → Bool) : Prop := ∀ p ∈ R, lev p = true

private def RowLow (R : List Nat) (r : Nat) (lev : Nat → Bool) : Prop :=
  ∀ r' pin, R[r']? = some pin → lev pin = decide (r' ≠ r)

theorem micro_neutral {c : Cfg} (hpin : c.ledPin ∉ c.rowPins) {i s m}
    (hm : (∀ r v, m ≠ .rowPut r v) ∧ ∀ r k, m ≠ .sample r k) : Neutral c.rowPins (micro c i s m).2 := by
  intro a ha
  have hem := micro_emits _ _ _ _ _ ha
  refine ⟨?_, ?_⟩
  · rintro r k rfl
    cases m with
    | sample r k => exact hm.2 r k rfl
    | _ => simp [Emits, Act.isHid] at hem
  · rintro p hp v rfl
    cases m with
    | rowPut r w => exact hm.1 r w rfl
    | led =>
      unfold micro at ha
      split at ha
      · simp at ha
      · dsimp only at ha
        unfold ledTick at ha
        dsimp only at ha
        split at ha
        · simp at ha
        · split at ha
          · simp at ha
          · simp at ha; exact hpin (ha.1 ▸ hp)
    | _ => simp [Emits, Act.isHid] at hem

private theorem micro_sample_ok {c : Cfg} {i s r k lev} (h : RowLow c.rowPins r lev) :
    ScanOk c.rowPins lev (micro c i s (.sample r k)).2 ∧
      RowLow c.rowPins r (levels lev (micro c i s (.sample r k)).2) := by
  by_cases hl : ¬ s.live
  · rw [micro_dead hl]; exact ⟨trivial, h⟩
  replace hl : s.live := Classical.not_not.mp hl
  have : ∃ rest, (micro c i s (.sample r k)).2 = .get r k :: rest ∧ Neutral c.rowPins rest := by
    unfold micro
    rw [if_neg hl]
    refine ⟨_, rfl, ?_⟩
    intro a ha
    have hr : ∀ b susp, ∀ a ∈ (report c s (r * c.cols + k) b susp).2,
        (∀ r k, a ≠ .get r k) ∧ ∀ p ∈ c.rowPins, ∀ v, a ≠ .put p v := by
      intro b susp a ha
      rcases report_acts _ _ _ _ _ a ha with h | h
      · cases a <;> simp_all [Act.isHid]
      · subst h; simp
    unfold debounce at ha
    split at ha
    · simp at ha
    · split at ha
      · dsimp only at ha
        split at ha <;>
        · rcases List.mem_cons.mp ha with h | h
          · subst h; simp
          · exact hr _ _ a h
      · simp at ha
  obtain ⟨rest, e, hn⟩ := this
  rw [e]
  obtain ⟨n1, n2⟩ := neutral_ok (lev := lev) hn
  refine ⟨⟨h, n1⟩, ?_⟩
  intro r' pin hp
  show levels lev rest pin = _
  rw [n2 pin (List.mem_of_getElem? hp)]
  exact h r' pin hp

private theorem samples_ok {c : Cfg} {i s r lev} (ks : List Nat) (h : RowLow c.rowPins r lev) :
    ScanOk c.rowPins lev (micros c i s (ks.map fun k => Micro.sample r k)).2 ∧
      RowLow c.rowPins r (levels lev (micros c i s (ks.map fun k => Micro.sample r k)).2) := by
  induction ks generalizing s lev with
  | nil => exact ⟨trivial, h⟩
  | cons k ks ih =>
    simp only [List.map_cons, micros]
    obtain ⟨h1, h2⟩ := micro_sample_ok (i := i) (s := s) (k := k) h
    obtain ⟨h3, h4⟩ := ih (s := (micro c i s (.sample r k)).1) h2
    exact ⟨(scanOk_append _ _ _ _).mpr ⟨h1, h3⟩, by rw [levels_append]; exact h4⟩

theorem rowPut_acts {c : Cfg} {i s r v pin} (hl : s.live) (hp : c.rowPins[r]? = some pin) :
    micro c i s (.rowPut r v) = (s, [.put pin v]) := by
  unfold micro; rw [if_neg hl]; simp only [hp]

private theorem row_ok {c : Cfg} (wf : c.WF) (hnd : c.rowPins.Nodup) {i s r lev} (hr : r < c.rows)
    (h : AllHigh c.rowPins lev) :
    let ms := Micro.rowPut r false :: ((List.range c.cols).map fun k => Micro.sample r k) ++
      [Micro.rowPut r true]
    ScanOk c.rowPins lev (micros c i s ms).2 ∧
      ((micros c i s ms).1.live → AllHigh c.rowPins (levels lev (micros c i s ms).2)) := by
  by_cases hl : ¬ s.live
  · dsimp only; rw [micros_dead hl]; exact ⟨trivial, fun h => absurd h hl⟩
  replace hl : s.live := Classical.not_not.mp hl
  have hlen : r < c.rowPins.length := by rw [wf.pins]; exact hr
  have hp : c.rowPins[r]? = some c.rowPins[r] := List.getElem?_eq_getElem hlen
  generalize c.rowPins[r] = pin at hp
  have hlow : RowLow c.rowPins r (fun q => if q = pin then false else lev q) := by
    intro r' pin' hp'
    by_cases e : r' = r
    · subst e; rw [hp] at hp'; simp [Option.some.inj hp']
    · have : pin' ≠ pin := by
        rintro rfl
        exact e ((List.getElem?_inj (List.getElem?_eq_some_iff.mp hp').1 hnd).mp (hp'.trans hp.symm))
      simp [this, e, h pin' (List.mem_of_getElem? hp')]
  dsimp only
  rw [List.cons_append]
  simp only [micros]
  rw [rowPut_acts hl hp, micros_append]
  dsimp only
  obtain ⟨s1, s2⟩ := samples_ok (i := i) (s := s) (List.range c.cols) hlow
  generalize micros c i s ((List.range c.cols).map fun k => Micro.sample r k) = q at *
  by_cases hq : ¬ q.1.live
  · rw [micros_dead hq]
    refine ⟨?_, fun h => absurd h hq⟩
    simpa [ScanOk] using s1
  replace hq : q.1.live := Classical.not_not.mp hq
  simp only [micros]
  rw [rowPut_acts hq hp]
  dsimp only
  refine ⟨?_, fun _ => ?_⟩
  · show ScanOk c.rowPins (fun q => if q = pin then false else lev q) (q.2 ++ _)
    rw [scanOk_append]
    exact ⟨s1, trivial⟩
  · show AllHigh c.rowPins (levels (fun q => if q = pin then false else lev q) (q.2 ++ _))
    rw [levels_append]
    intro p hpm
    simp only [List.append_nil, levels]
    by_cases e : p = pin
    · simp [e]
    · rw [if_neg e]
      obtain ⟨r', hr', e'⟩ := List.getElem_of_mem hpm
      have e'' : c.rowPins[r']? = some p := by rw [List.getElem?_eq_getElem hr', e']
      rw [s2 r' p e'']
      simp only [ne_eq, decide_not, Bool.not_eq_eq_eq_not, Bool.not_true, decide_eq_false_iff_not]
      rintro rfl
      rw [hp] at e''
      exact e (Option.some.inj e'').symm

private theorem rows_ok {c : Cfg} (wf : c.WF) (hnd : c.rowPins.Nodup) {i} (rs : List Nat)
    (hrs : ∀ r ∈ rs, r < c.rows) (s lev) (h : AllHigh c.rowPins lev) :
    let ms := rs.flatMap fun r => Micro.rowPut r false ::
      ((List.range c.cols).map fun k => Micro.sample r k) ++ [Micro.rowPut r true]
    ScanOk c.rowPins lev (micros c i s ms).2 ∧
      ((micros c i s ms).1.live → AllHigh c.rowPins (levels lev (micros c i s ms).2)) := by
  induction rs generalizing s lev with
  | nil => exact ⟨trivial, fun _ => h⟩
  | cons r rs ih =>
    simp only [List.mem_cons, forall_eq_or_imp] at hrs
    have h1 := row_ok wf hnd (i := i) (s := s) hrs.1 h
    dsimp only at h1 ih ⊢
    rw [List.flatMap_cons, micros_append]
    generalize micros c i s (Micro.rowPut r false ::
      ((List.range c.cols).map fun k => Micro.sample r k) ++ [Micro.rowPut r true]) = q at *
    dsimp only
    rw [scanOk_append, levels_append]
    by_cases hq : q.1.live
    · have := ih hrs.2 q.1 _ (h1.2 hq)
      exact ⟨⟨h1.1, this.1⟩, this.2⟩
    · rw [micros_dead hq]
      exact ⟨⟨h1.1, trivial⟩, fun h => absurd h hq⟩

theorem rest_neutral {c : Cfg} (hpin : c.ledPin ∉ c.rowPins) {i} (ms : List Micro)
    (hm : ∀ m ∈ ms, (∀ r v, m ≠ .rowPut r v) ∧ ∀ r k, m ≠ .sample r k) (s) :
    Neutral c.rowPins (micros c i s ms).2 := by
  induction ms generalizing s with
  | nil => intro a ha; simp [micros] at ha
  | cons m ms ih =>
    simp only [List.mem_cons, forall_eq_or_imp] at hm
    intro a ha
    simp only [micros, List.mem_append] at ha
    rcases ha with ha | ha
    · exact micro_neutral hpin hm.1 a ha
    · exact ih hm.2 _ a ha

private theorem tick_scan {c : Cfg} (wf : c.WF) (hnd : c.rowPins.Nodup)
    (hpin : c.ledPin ∉ c.rowPins) (i s lev) (h : AllHigh c.rowPins lev) :
    ScanOk c.rowPins lev (tick c s i).2 ∧
      ((tick c s i).1.live → AllHigh c.rowPins (levels lev (tick c s i).2)) := by
  unfold tick program
  rw [List.append_assoc, micros_append]
  dsimp only
  have h1 := rows_ok wf hnd (i := i) (List.range c.rows) (fun r hr => List.mem_range.mp hr) s lev h
  dsimp only at h1
  change ScanOk c.rowPins lev (micros c i s (matrixTick c)).2 ∧
    ((micros c i s (matrixTick c)).1.live →
      AllHigh c.rowPins (levels lev (micros c i s (matrixTick c)).2)) at h1
  generalize micros c i s (matrixTick c) = q at *
  rw [scanOk_append, levels_append]
  have hn := rest_neutral hpin (i := i) ([.encoder, .hid, .led] ++ i.host.map .host) (by
    intro m hm
    simp only [List.mem_append, List.mem_cons, List.not_mem_nil, or_false, List.mem_map] at hm
    rcases hm with (rfl | rfl | rfl) | ⟨x, -, rfl⟩ <;> simp) q.1
  obtain ⟨n1, n2⟩ := neutral_ok (lev := levels lev q.2) hn
  refine ⟨⟨h1.1, n1⟩, fun hl p hp => ?_⟩
  rw [n2 p hp]
  exact h1.2 (micros_live hl) p hp

private theorem run_scan {c : Cfg} (wf : c.WF) (hnd : c.rowPins.Nodup)
    (hpin : c.ledPin ∉ c.rowPins) (ins : List In) (s lev) (h : AllHigh c.rowPins lev) :
    ScanOk c.rowPins lev (run c s ins).2.flatten ∧
      ((run c s ins).1.live → AllHigh c.rowPins (levels lev (run c s ins).2.flatten)) := by
  induction ins generalizing s lev with
  | nil => exact ⟨trivial, fun _ => h⟩
  | cons i is ih =>
    obtain ⟨h1, h2⟩ := tick_scan wf hnd hpin i s lev h
    simp only [run, List.flatten_cons]
    rw [scanOk_append, levels_append]
    by_cases hl : (tick c s i).1.live
    · have := ih (tick c s i).1 _ (h2 hl)
      exact ⟨⟨h1, this.1⟩, this.2⟩
    · obtain ⟨r1, r2⟩ := run_dead hl is
      rw [r1, r2]
      simp only [List.flatten_replicate_nil]
      exact ⟨⟨h1, trivial⟩, fun h => absurd h hl⟩

private theorem init_high (R : List Nat) (lev : Nat → Bool) :
    ScanOk R lev (R.map fun p => Act.put p true) ∧
      AllHigh R (levels lev (R.map fun p => Act.put p true)) := by
  have : ∀ (l : List Nat) lev, ScanOk R lev (l.map fun p => Act.put p true) ∧
      ∀ p, (p ∈ l ∨ lev p = true) → levels lev (l.map fun p => Act.put p true) p = true := by
    intro l
    induction l with
    | nil => intro lev; exact ⟨trivial, fun p h => by
        rcases h with h | h
        · simp at h
        · exact h⟩
    | cons q l ih =>
      intro lev
      refine ⟨(ih _).1, fun p hp => ?_⟩
      refine (ih _).2 p ?_
      by_cases e : p = q
      · exact Or.inr (by simp [e])
      · rcases hp with hp | hp
        · simp [e] at hp; exact Or.inl hp
        · exact Or.inr (by simp [e, hp])
  exact ⟨(this R lev).1, fun p hp => (this R lev).2 p (Or.inl hp)⟩

/-- **C18** From initialisation on, whatever the pins carried before: whenever a switch of row `r` is
read, row `r` is driven low and all other rows are high; and after every complete iteration all rows
are high. -/
theorem C18_one_row_at_a_time (c : Cfg) (wf : c.WF) (hnd : c.rowPins.Nodup)
    (hpin : c.ledPin ∉ c.rowPins) (ins : List In) (lev : Nat → Bool) :
    let tr := matrixInit c ++ (run c (State.init c) ins).2.flatten
    ScanOk c.rowPins lev tr ∧
      ((run c (State.init c) ins).1.live → ∀ p ∈ c.rowPins, levels lev tr p = true) := by
  obtain ⟨h1, h2⟩ := init_high c.rowPins lev
  obtain ⟨h3, h4⟩ := run_scan wf hnd hpin ins (State.init c) _ h2
  dsimp only
  rw [scanOk_append, levels_append]
  exact ⟨⟨h1, h3⟩, h4⟩

private theorem reads_append (a b) : reads (a ++ b) = reads a ++ reads b := by simp [reads]

private theorem reads_micro {c i s m} (hl : s.live) : reads (micro c i s m).2 =
    match m with | .sample r k => [(r, k)] | _ => [] := by
  have none : ∀ l : List Act, (∀ a ∈ l, ∀ r k, a ≠ .get r k) → reads l = [] := by
    intro l h
    unfold reads
    rw [List.filterMap_eq_nil_iff]
    intro a ha
    cases a with
    | get r k => exact absurd rfl (h _ ha r k)
    | _ => rfl
  have other : (∀ r k, m ≠ .sample r k) → reads (micro c i s m).2 = [] := by
    intro hm
    refine none _ ?_
    rintro a ha r k rfl
    have := micro_emits _ _ _ _ _ ha
    cases m with
    | sample r k => exact hm r k rfl
    | _ => simp [Emits, Act.isHid] at this
  cases m with
  | sample r k =>
    unfold micro
    rw [if_neg hl]
    dsimp only
    rw [show ∀ l, reads (Act.get r k :: l) = (r, k) :: reads l from fun _ => rfl]
    congr 1
    refine none _ ?_
    rintro a ha r' k' rfl
    have hr : ∀ b susp, ∀ a ∈ (report c s (r * c.cols + k) b susp).2, ∀ r k, a ≠ .get r k := by
      rintro b susp a ha r k rfl
      rcases report_acts _ _ _ _ _ _ ha with h | h <;> simp [Act.isHid] at h
    unfold debounce at ha
    split at ha
    · simp at ha
    · split at ha
      · dsimp only at ha
        split at ha <;>
        · rcases List.mem_cons.mp ha with h | h
          · simp at h
          · exact hr _ _ _ h _ _ rfl
      · simp at ha
  | _ => exact other (by simp)

/-- **C18** One iteration (that is not interrupted by a reset) reads every switch exactly once, row
by row. -/
theorem C18_reads_every_switch_once (c : Cfg) (s : State) (i : In) (hl : (tick c s i).1.live) :
    reads (tick c s i).2 =
      (List.range c.rows).flatMap fun r => (List.range c.cols).map fun k => (r, k) := by
  have key : ∀ ms s, (micros c i s ms).1.live → reads (micros c i s ms).2 =
      ms.flatMap fun m => match m with | .sample r k => [(r, k)] | _ => [] := by
    intro ms
    induction ms with
    | nil => intro s _; rfl
    | cons m ms ih =>
      intro s hl
      simp only [micros] at hl ⊢
      have hl1 := micros_live hl
      have hl0 : s.live := by
        by_cases h : s.live
        · exact h
        · rw [micro_dead h] at hl1; exact hl1
      rw [reads_append, reads_micro hl0, ih _ hl, List.flatMap_cons]
  unfold tick at hl ⊢
  rw [key _ _ hl]
  unfold program matrixTick
  rw [List.flatMap_append, List.flatMap_append, List.flatMap_assoc]
  have h1 : (i.host.map Micro.host).flatMap
      (fun m => match m with | .sample r k => [(r, k)] | _ => []) = ([] : List (Nat × Nat)) := by
    rw [List.flatMap_eq_nil_iff]
    intro m hm
    obtain ⟨x, -, rfl⟩ := List.mem_map.mp hm
    rfl
  rw [h1]
  simp only [List.flatMap_cons, List.flatMap_nil, List.append_nil]
  congr 1
  funext r
  rw [List.cons_append, List.flatMap_cons, List.flatMap_append, List.flatMap_map]
  simp only [List.nil_append, List.flatMap_cons, List.flatMap_nil, List.append_nil]
  exact List.map_eq_flatMap.symm

/-- The shipped pin map meets the hypotheses. -/
example : defaultCfg.rowPins.Nodup ∧ defaultCfg.ledPin ∉ defaultCfg.rowPins := by decide

/-- One idle iteration reads 65 switches. -/
example : (reads (tick defaultCfg (State.init defaultCfg) idleIn).2).length = 65 := by decide +kernel

end Chrumm.Fw
