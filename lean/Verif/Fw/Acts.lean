import Verif.Fw.Encoder

/-! Which actions which step can emit. -/

namespace Chrumm.Fw
open Spec

/-- Actions of the two HID calls. -/
def Act.isHid : Act → Bool
  | .add _ | .remove _ | .wakeup => true
  | _ => false

/-- Classification of actions by the step that emits them. -/
def Emits : Micro → Act → Bool
  | .rowPut _ _, .put _ _ => true
  | .sample _ _, .get _ _ => true
  | .sample _ _, .event _ _ => true
  | .sample _ _, .boot => true
  | .sample _ _, a => a.isHid
  | .encoder, .rotate _ => true
  | .encoder, a => a.isHid
  | .hid, .kbReport _ _ _ => true
  | .hid, .conReport _ _ => true
  | .led, .put _ _ => true
  | _, _ => false

theorem hidAdd_acts (h u susp) : ∀ a ∈ (hidAdd h u susp).2, a.isHid = true := by
  unfold hidAdd
  split <;> (try split) <;> (try split) <;> simp [Act.isHid]

theorem hidRemove_acts (h u) : ∀ a ∈ (hidRemove h u).2, a.isHid = true := by
  unfold hidRemove
  split <;> (try split) <;> simp [Act.isHid]

theorem report_acts (c s key b susp) :
    ∀ a ∈ (report c s key b susp).2, a.isHid = true ∨ a = .boot := by
  unfold report
  dsimp only
  repeat' split
  all_goals first
    | (intro a ha; simp at ha; done)
    | (intro a ha; exact Or.inl (hidAdd_acts _ _ _ a ha))
    | (intro a ha
       rcases List.mem_append.mp ha with h | h
       · exact Or.inl (hidRemove_acts _ _ a h)
       · exact Or.inl (hidRemove_acts _ _ a h))
    | skip
  intro a ha
  exact Or.inr (by simpa using ha)

theorem encReport_acts (c e h u susp) : ∀ a ∈ (encReport c e h u susp).2.2, a.isHid = true := by
  unfold encReport
  dsimp only
  split
  · simp
  · split <;> split <;> intro a ha
    · rcases List.mem_append.mp ha with h | h
      · exact hidRemove_acts _ _ a h
      · exact hidAdd_acts _ _ _ a h
    · exact hidAdd_acts _ _ _ a ha
    · exact hidRemove_acts _ _ a ha
    · simp at ha

theorem micro_emits (c i s m) : ∀ a ∈ (micro c i s m).2, Emits m a = true := by
  unfold micro
  split
  · simp
  · cases m with
    | rowPut r v => dsimp only; split <;> simp [Emits]
    | hid =>
      dsimp only; unfold hidTick; dsimp only
      split <;> split <;> simp [Emits]
    | led =>
      dsimp only; unfold ledTick; dsimp only
      split
      · simp
      · split <;> simp [Emits]
    | host h => simp
    | encoder =>
      dsimp only; unfold encoderTick; dsimp only
      have key : ∀ u, ∀ a ∈ (encReport c s.enc s.hid u i.encSusp).2.2, Emits .encoder a = true := by
        intro u a ha
        have := encReport_acts _ _ _ _ _ a ha
        revert this; cases a <;> simp [Emits, Act.isHid]
      split <;> intro a ha <;>
      · rcases List.mem_append.mp ha with h | h
        · split at h
          · simp at h; subst h; rfl
          · split at h
            · simp at h; subst h; rfl
            · simp at h
        · exact key _ a h
    | sample r k =>
      dsimp only; unfold debounce
      have key : ∀ a ∈ (report c s (r * c.cols + k) (i.level r k) (i.susp r k)).2,
          Emits (.sample r k) a = true := by
        intro a ha
        rcases report_acts _ _ _ _ _ a ha with h | h
        · revert h; cases a <;> simp [Emits, Act.isHid]
        · subst h; rfl
      split
      · simp [Emits]
      · split
        · dsimp only
          split <;> simp only [List.mem_cons, forall_eq_or_imp] <;>
            exact ⟨rfl, rfl, key⟩
        · simp [Emits]

theorem micros_emits (c i s ms) : ∀ a ∈ (micros c i s ms).2, ∃ m ∈ ms, Emits m a = true := by
  induction ms generalizing s with
  | nil => simp [micros]
  | cons m ms ih =>
    intro a ha
    simp only [micros, List.mem_append] at ha
    rcases ha with h | h
    · exact ⟨m, by simp, micro_emits _ _ _ _ a h⟩
    · obtain ⟨m', h1, h2⟩ := ih _ a h
      exact ⟨m', by simp [h1], h2⟩

/-! ### Rotation events -/

theorem rotations_append (a b) : rotations (a ++ b) = rotations a ++ rotations b := by
  simp [rotations]

theorem rotations_none {a : List Act} (h : ∀ x ∈ a, ∀ b, x ≠ .rotate b) : rotations a = [] := by
  unfold rotations
  rw [List.filterMap_eq_nil_iff]
  intro x hx
  cases x with
  | rotate b => exact absurd rfl (h _ hx b)
  | _ => rfl

theorem rotations_other {c i s ms} (h : Micro.encoder ∉ ms) : rotations (micros c i s ms).2 = [] := by
  refine rotations_none fun x hx b e => ?_
  obtain ⟨m, h1, h2⟩ := micros_emits _ _ _ _ x hx
  subst e
  cases m <;> simp_all [Emits, Act.isHid]

/-- The rotation event of one step. -/
def rotOf (idx : Nat) : List Bool :=
  if idx = 0b00111 then [false] else if idx = 0b11011 then [true] else []

theorem encoderTick_rot {c : Cfg} {s : State} (ok : Ok c s) (i : In) :
    rotations (encoderTick c s i).2 = rotOf (s.enc.dec * 4 + i.encA.toNat * 2 + i.encB.toNat) := by
  obtain ⟨n, hn, -⟩ := encNext_le _ (enc_index_lt _ ok.dec_le i.encA i.encB)
  unfold encoderTick
  dsimp only
  rw [hn]
  rw [enc_index _ ok.dec_le]
  dsimp only
  have h0 : ∀ u, rotations (encReport c s.enc s.hid u i.encSusp).2.2 = [] := by
    intro u
    refine rotations_none fun x hx b e => ?_
    have := encReport_acts _ _ _ _ _ x hx
    subst e; simp [Act.isHid] at this
  rw [rotations_append, h0, List.append_nil]
  unfold rotOf
  split
  · rfl
  · split <;> rfl

theorem tick_rot {c : Cfg} (wf : c.WF) {s : State} (ok : Ok c s) (i : In)
    (hl : (tick c s i).1.live) : rotations (tick c s i).2 =
      rotOf (s.enc.dec * 4 + i.encA.toNat * 2 + i.encB.toNat) := by
  obtain ⟨A, B, e, hA, hB⟩ := program_enc_split c i
  unfold tick at hl ⊢
  rw [e, micros_append] at hl ⊢
  dsimp only at hl ⊢
  simp only [micros] at hl ⊢
  have hl1 := micros_live hl
  have hAv : ∀ m ∈ A, Valid c m := fun m hm => program_valid c i m (by rw [e]; simp [hm])
  have okA := micros_ok wf ok (i := i) hAv
  have hl2 : (micros c i s A).1.live := by
    by_cases h : (micros c i s A).1.live
    · exact h
    · rw [micro_dead h] at hl1; exact hl1
  have : micro c i (micros c i s A).1 .encoder = encoderTick c (micros c i s A).1 i := by
    unfold micro; rw [if_neg hl2]
  rw [rotations_append, rotations_append, rotations_other hA, rotations_other hB, this,
    encoderTick_rot okA, micros_enc hA]
  simp

end Chrumm.Fw
