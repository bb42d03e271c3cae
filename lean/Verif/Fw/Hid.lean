import Verif.Fw.Debounce

/-! The report in memory: what `hid_add` and `hid_remove` do to it. -/

namespace Chrumm.Fw
open Spec

/-- Shape of the six slots: no nonzero code twice, no modifier code. -/
structure HidOk (h : Hid) : Prop where
  len : h.keycodes.length = 6
  nodup : (h.keycodes.filter (· ≠ 0)).Nodup
  nomod : ∀ x ∈ h.keycodes, ¬ (0xE0 ≤ x ∧ x ≤ 0xE7)
  lt : ∀ x ∈ h.keycodes, x < 256

theorem fillSlot_some {code : Nat} {l r : List Nat} (h : fillSlot code l = some r) :
    ∃ a b, l = a ++ 0 :: b ∧ r = a ++ code :: b := by
  induction l generalizing r with
  | nil => simp [fillSlot] at h
  | cons x xs ih =>
    unfold fillSlot at h
    split at h
    · rename_i hx
      subst hx
      exact ⟨[], xs, rfl, by simpa using h.symm⟩
    · rw [Option.map_eq_some_iff] at h
      obtain ⟨r', h1, h2⟩ := h
      obtain ⟨a, b, e1, e2⟩ := ih h1
      exact ⟨x :: a, b, by simp [e1], by simp [← h2, e2]⟩

theorem fillSlot_none {code : Nat} {l : List Nat} (h : fillSlot code l = none) : 0 ∉ l := by
  induction l with
  | nil => simp
  | cons x xs ih =>
    unfold fillSlot at h
    split at h
    · simp at h
    · rename_i hx
      simp only [Option.map_eq_none_iff] at h
      simp only [List.mem_cons, not_or]
      exact ⟨fun e => hx e.symm, ih h⟩

theorem fillSlot_isSome {code : Nat} {l : List Nat} (h : 0 ∈ l) : ∃ r, fillSlot code l = some r := by
  rcases hf : fillSlot code l with _ | r
  · exact absurd h (fillSlot_none hf)
  · exact ⟨r, rfl⟩

theorem clearSlot_some {code : Nat} {l r : List Nat} (h : clearSlot code l = some r) :
    ∃ a b, l = a ++ code :: b ∧ r = a ++ 0 :: b ∧ code ∉ a := by
  induction l generalizing r with
  | nil => simp [clearSlot] at h
  | cons x xs ih =>
    unfold clearSlot at h
    split at h
    · rename_i hx
      subst hx
      exact ⟨[], xs, rfl, by simpa using h.symm, by simp⟩
    · rename_i hx
      rw [Option.map_eq_some_iff] at h
      obtain ⟨r', h1, h2⟩ := h
      obtain ⟨a, b, e1, e2, e3⟩ := ih h1
      exact ⟨x :: a, b, by simp [e1], by simp [← h2, e2], by
        simp only [List.mem_cons, not_or]; exact ⟨fun e => hx e.symm, e3⟩⟩

theorem clearSlot_none {code : Nat} {l : List Nat} (h : clearSlot code l = none) : code ∉ l := by
  induction l with
  | nil => simp
  | cons x xs ih =>
    unfold clearSlot at h
    split at h
    · simp at h
    · rename_i hx
      simp only [Option.map_eq_none_iff] at h
      simp only [List.mem_cons, not_or]
      exact ⟨fun e => hx e.symm, ih h⟩

theorem clearSlot_isSome {code : Nat} {l : List Nat} (h : code ∈ l) :
    ∃ r, clearSlot code l = some r := by
  rcases hf : clearSlot code l with _ | r
  · exact absurd h (clearSlot_none hf)
  · exact ⟨r, rfl⟩

theorem addKeycode_ok {h : Hid} (ok : HidOk h) {code} (hc : code < 256) : HidOk (addKeycode h code) := by
  unfold addKeycode
  split
  · exact ⟨ok.len, ok.nodup, ok.nomod, ok.lt⟩
  · rename_i hm
    split
    · exact ok
    · rename_i hmem
      split
      · rename_i ks hks
        obtain ⟨a, b, e1, e2⟩ := fillSlot_some hks
        have len := ok.len
        have nd := ok.nodup
        have nm := ok.nomod
        have lt := ok.lt
        rw [e1] at len nd nm lt hmem
        refine ⟨by simpa [e2] using len, ?_, ?_, ?_⟩
        · simp only [e2]
          by_cases h0 : code = 0
          · subst h0; exact nd
          · simp only [List.filter_append, List.filter_cons, ne_eq, not_true_eq_false,
              decide_false, h0, not_false_eq_true, decide_true, if_true] at nd ⊢
            simp only [Bool.false_eq_true, if_false] at nd
            rw [List.nodup_append] at nd ⊢
            obtain ⟨n1, n2, n3⟩ := nd
            simp only [List.mem_append, List.mem_cons, not_or] at hmem
            refine ⟨n1, ?_, ?_⟩
            · rw [List.nodup_cons]
              refine ⟨fun hx => hmem.2.2 (List.mem_filter.mp hx).1, n2⟩
            · intro x hx y hy
              rcases List.mem_cons.mp hy with rfl | hy
              · rintro rfl; exact hmem.1 (List.mem_filter.mp hx).1
              · exact n3 x hx y hy
        · intro x hx
          simp only [e2, List.mem_append, List.mem_cons] at hx
          rcases hx with hx | rfl | hx
          · exact nm x (by simp [hx])
          · exact hm
          · exact nm x (by simp [hx])
        · intro x hx
          simp only [e2, List.mem_append, List.mem_cons] at hx
          rcases hx with hx | rfl | hx
          · exact lt x (by simp [hx])
          · exact hc
          · exact lt x (by simp [hx])
      · exact ok

theorem removeKeycode_ok {h : Hid} (ok : HidOk h) {code} : HidOk (removeKeycode h code) := by
  unfold removeKeycode
  split
  · exact ok
  · rename_i h0
    split
    · exact ⟨ok.len, ok.nodup, ok.nomod, ok.lt⟩
    · split
      · rename_i ks hks
        obtain ⟨a, b, e1, e2, -⟩ := clearSlot_some hks
        have len := ok.len
        have nd := ok.nodup
        have nm := ok.nomod
        have lt := ok.lt
        rw [e1] at len nd nm lt
        refine ⟨by simpa [e2] using len, ?_, ?_, ?_⟩
        · simp only [e2]
          refine List.Nodup.sublist ?_ nd
          simp only [List.filter_append]
          refine List.Sublist.append (List.Sublist.refl _) ?_
          simp [h0]
        · intro x hx
          simp only [e2, List.mem_append, List.mem_cons] at hx
          rcases hx with hx | rfl | hx
          · exact nm x (by simp [hx])
          · omega
          · exact nm x (by simp [hx])
        · intro x hx
          simp only [e2, List.mem_append, List.mem_cons] at hx
          rcases hx with hx | rfl | hx
          · exact lt x (by simp [hx])
          · omega
          · exact lt x (by simp [hx])
      · exact ok

theorem addConsumer_ok {h : Hid} (ok : HidOk h) {code} : HidOk (addConsumer h code) := by
  unfold addConsumer
  split
  · exact ok
  · exact ⟨ok.len, ok.nodup, ok.nomod, ok.lt⟩

theorem hidAdd_ok {h : Hid} (ok : HidOk h) {u susp} : HidOk (hidAdd h u susp).1 := by
  unfold hidAdd
  split
  · exact ok
  · split
    · exact addKeycode_ok ok (Nat.mod_lt _ (by omega))
    · split
      · exact addConsumer_ok ok
      · exact ok

theorem hidRemove_ok {h : Hid} (ok : HidOk h) {u} : HidOk (hidRemove h u).1 := by
  unfold hidRemove
  split
  · exact removeKeycode_ok ok
  · split
    · exact addConsumer_ok ok
    · exact ok

theorem hidTick_ok {h : Hid} (ok : HidOk h) {i} : HidOk (hidTick h i).1 := by
  unfold hidTick
  dsimp only
  split <;> split <;> exact ⟨ok.len, ok.nodup, ok.nomod, ok.lt⟩

theorem hidTick_shows {h : Hid} {i x} : Shows (hidTick h i).1 x ↔ Shows h x := by
  unfold hidTick
  dsimp only
  split <;> split <;> cases x <;> rfl

theorem report_hidOk {c s key b susp} (ok : HidOk s.hid) : HidOk (report c s key b susp).1.hid := by
  unfold report
  dsimp only
  repeat' (first | split | exact ok | exact hidAdd_ok ok | exact hidRemove_ok (hidRemove_ok ok))

theorem encReport_hidOk {c e h u susp} (ok : HidOk h) : HidOk (encReport c e h u susp).2.1 := by
  unfold encReport
  dsimp only
  split
  · exact ok
  · split <;> split
    · exact hidAdd_ok (hidRemove_ok ok)
    · exact hidAdd_ok ok
    · exact hidRemove_ok ok
    · exact ok

theorem debounce_hidOk {c s key b susp} (ok : HidOk s.hid) : HidOk (debounce c s key b susp).1.hid := by
  unfold debounce
  split
  · exact ok
  · split
    · dsimp only
      split <;> exact report_hidOk ok
    · exact ok

theorem encoderTick_hidOk {c s i} (ok : HidOk s.hid) : HidOk (encoderTick c s i).1.hid := by
  unfold encoderTick
  dsimp only
  split <;> exact encReport_hidOk ok

theorem micro_hidOk {c i s m} (ok : HidOk s.hid) : HidOk (micro c i s m).1.hid := by
  unfold micro
  split
  · exact ok
  · cases m with
    | rowPut r v => dsimp only; split <;> exact ok
    | sample r k => exact debounce_hidOk ok
    | encoder => exact encoderTick_hidOk ok
    | hid => exact hidTick_ok ok
    | led => exact ok
    | host h => exact ok

theorem init_hidOk {c} : HidOk (State.init c).hid := by
  refine ⟨rfl, ?_, ?_, ?_⟩ <;> simp [State.init]

/-- Lift a property of states that every (valid) micro step preserves to whole runs. -/
theorem run_inv {c : Cfg} {P : State → Prop} (h : ∀ i s m, Valid c m → P s → P (micro c i s m).1)
    {s} (hs : P s) (ins) : P (run c s ins).1 := by
  have hm : ∀ i ms s, (∀ m ∈ ms, Valid c m) → P s → P (micros c i s ms).1 := by
    intro i ms
    induction ms with
    | nil => intro s _ hs; exact hs
    | cons m ms ih =>
      intro s hv hs
      simp only [List.mem_cons, forall_eq_or_imp] at hv
      exact ih _ hv.2 (h i s m hv.1 hs)
  induction ins generalizing s with
  | nil => exact hs
  | cons i is ih => exact ih (hm i _ s (program_valid c i) hs)

theorem reach_hidOk {c : Cfg} (ins) : HidOk (run c (State.init c) ins).1.hid :=
  run_inv (P := fun s => HidOk s.hid) (fun _ _ _ _ => micro_hidOk) init_hidOk ins

/-! ### What is shown -/

theorem bit_or {m : BitVec 8} {n j : Nat} (hn : n < 8) :
    (m ||| 1#8 <<< n).getLsbD j = true ↔ m.getLsbD j = true ∨ j = n := by
  simp only [BitVec.getLsbD_or, BitVec.getLsbD_shiftLeft, Bool.or_eq_true]
  constructor
  · rintro (h | h)
    · exact Or.inl h
    · simp at h; right; omega
  · rintro (h | rfl)
    · exact Or.inl h
    · right; simp; omega

theorem bit_and_not {m : BitVec 8} {n j : Nat} (hn : n < 8) :
    (m &&& ~~~(1#8 <<< n)).getLsbD j = true ↔ m.getLsbD j = true ∧ j ≠ n := by
  simp only [BitVec.getLsbD_and, BitVec.getLsbD_not, BitVec.getLsbD_shiftLeft, Bool.and_eq_true]
  constructor
  · rintro ⟨h1, h2, h3⟩
    refine ⟨h1, ?_⟩
    rintro rfl
    simp at h3
    omega
  · rintro ⟨h1, h2⟩
    have hj : j < 8 := BitVec.lt_of_getLsbD h1
    refine ⟨h1, by simpa using hj, ?_⟩
    simp
    omega

/-- Adding a usage can only show that usage's own item in addition (replacing at most a consumer
code). -/
theorem hidAdd_shows {h : Hid} {u susp x} (hx : Shows (hidAdd h u susp).1 x) :
    Shows h x ∨ (susp = false ∧ Carries u x) := by
  unfold hidAdd at hx
  split at hx
  · exact Or.inl hx
  · rename_i hsusp
    split at hx
    · rename_i hu
      unfold addKeycode at hx
      split at hx
      · rename_i hm
        cases x with
        | key code => exact Or.inl hx
        | con code => exact Or.inl hx
        | mod j =>
          rcases (bit_or (by omega)).mp hx with h | h
          · exact Or.inl h
          · exact Or.inr ⟨by simpa using hsusp, hu, by omega, by omega⟩
      · rename_i hm
        split at hx
        · exact Or.inl hx
        · split at hx
          · rename_i ks hks
            obtain ⟨a, b, e1, e2⟩ := fillSlot_some hks
            cases x with
            | mod j => exact Or.inl hx
            | con code => exact Or.inl hx
            | key code =>
              obtain ⟨h0, hmem⟩ := hx
              simp only [e2, List.mem_append, List.mem_cons] at hmem
              rcases hmem with h | h | h
              · exact Or.inl ⟨h0, by simp [e1, h]⟩
              · exact Or.inr ⟨by simpa using hsusp, hu, h.symm, h0, by rw [h]; exact hm⟩
              · exact Or.inl ⟨h0, by simp [e1, h]⟩
          · exact Or.inl hx
    · split at hx
      · rename_i hu
        unfold addConsumer at hx
        split at hx
        · exact Or.inl hx
        · cases x with
          | key code => exact Or.inl hx
          | mod j => exact Or.inl hx
          | con code => exact Or.inr ⟨by simpa using hsusp, hu, hx.2, hx.1⟩
      · exact Or.inl hx

/-- After removing a usage its item is not shown, and nothing new is. -/
theorem hidRemove_shows {h : Hid} (ok : HidOk h) {u x} (hx : Shows (hidRemove h u).1 x) :
    Shows h x ∧ ¬ Carries u x := by
  unfold hidRemove at hx
  split at hx
  · rename_i hu
    unfold removeKeycode at hx
    split at hx
    · rename_i h0
      refine ⟨hx, ?_⟩
      cases x with
      | key code => rintro ⟨_, h1, h2, _⟩; omega
      | mod j => rintro ⟨_, h1, h2⟩; omega
      | con code => rintro ⟨h1, _⟩; omega
    · rename_i h0
      split at hx
      · rename_i hm
        cases x with
        | key code => exact ⟨hx, by rintro ⟨_, h1, _, h2⟩; omega⟩
        | con code => exact ⟨hx, by rintro ⟨h1, _⟩; omega⟩
        | mod j =>
          obtain ⟨h1, h2⟩ := (bit_and_not (by omega)).mp hx
          exact ⟨h1, by rintro ⟨_, h3, _⟩; omega⟩
      · rename_i hm
        split at hx
        · rename_i ks hks
          obtain ⟨a, b, e1, e2, e3⟩ := clearSlot_some hks
          cases x with
          | mod j => exact ⟨hx, by rintro ⟨_, h1, _⟩; omega⟩
          | con code => exact ⟨hx, by rintro ⟨h1, _⟩; omega⟩
          | key code =>
            obtain ⟨hc0, hmem⟩ := hx
            simp only [e2, List.mem_append, List.mem_cons] at hmem
            have nd := ok.nodup
            rw [e1] at nd
            simp only [List.filter_append, List.filter_cons, ne_eq, h0, not_false_eq_true,
              decide_true, if_true] at nd
            rw [List.nodup_append, List.nodup_cons] at nd
            have hnb : u % 256 ∉ b := fun hb =>
              nd.2.1.1 (List.mem_filter.mpr ⟨hb, by simpa using h0⟩)
            rcases hmem with h | h | h
            · exact ⟨⟨hc0, by simp [e1, h]⟩, by rintro ⟨_, h1, _⟩; exact e3 (h1 ▸ h)⟩
            · exact absurd h hc0
            · exact ⟨⟨hc0, by simp [e1, h]⟩, by rintro ⟨_, h1, _⟩; exact hnb (h1 ▸ h)⟩
        · rename_i hks
          have hn := clearSlot_none hks
          refine ⟨hx, ?_⟩
          cases x with
          | mod j => rintro ⟨_, h1, _⟩; omega
          | con code => rintro ⟨h1, _⟩; omega
          | key code => rintro ⟨_, h1, _⟩; exact hn (h1 ▸ hx.2)
  · split at hx
    · rename_i hu
      unfold addConsumer at hx
      split at hx
      · rename_i h0
        refine ⟨hx, ?_⟩
        cases x with
        | key code => rintro ⟨h1, _⟩; omega
        | mod j => rintro ⟨h1, _⟩; omega
        | con code => exact absurd (hx.2.symm.trans h0) hx.1
      · cases x with
        | key code => exact ⟨hx, by rintro ⟨h1, _⟩; omega⟩
        | mod j => exact ⟨hx, by rintro ⟨h1, _⟩; omega⟩
        | con code => exact absurd hx.2.symm hx.1
    · rename_i hu1 hu2
      refine ⟨hx, ?_⟩
      cases x with
      | key code => rintro ⟨h1, _⟩; exact hu1 h1
      | mod j => rintro ⟨h1, _⟩; exact hu1 h1
      | con code => rintro ⟨h1, _⟩; exact hu2 h1

/-- Items of the keyboard report survive `hid_add` of anything. -/
theorem hidAdd_keeps {h : Hid} {u susp x} (hx : Shows h x) (hc : ∀ code, x ≠ .con code) :
    Shows (hidAdd h u susp).1 x := by
  unfold hidAdd
  split
  · exact hx
  · split
    · unfold addKeycode
      split
      · rename_i hm
        cases x with
        | key code => exact hx
        | con code => exact hx
        | mod j => exact (bit_or (by omega)).mpr (Or.inl hx)
      · split
        · exact hx
        · split
          · rename_i ks hks
            obtain ⟨a, b, e1, e2⟩ := fillSlot_some hks
            cases x with
            | mod j => exact hx
            | con code => exact hx
            | key code =>
              refine ⟨hx.1, ?_⟩
              have := hx.2
              rw [e1] at this
              simp only [List.mem_append, List.mem_cons] at this
              simp only [e2, List.mem_append, List.mem_cons]
              rcases this with h | h | h
              · exact Or.inl h
              · exact absurd h hx.1
              · exact Or.inr (Or.inr h)
          · exact hx
    · split
      · unfold addConsumer
        split
        · exact hx
        · cases x with
          | key code => exact hx
          | mod j => exact hx
          | con code => exact absurd rfl (hc code)
      · exact hx

/-- Items of the keyboard report survive `hid_remove` of other usages. -/
theorem hidRemove_keeps {h : Hid} {u x} (hx : Shows h x) (hc : ∀ code, x ≠ .con code)
    (hu : ¬ Carries u x) (hmod : ∀ code, x = .key code → ¬ (0xE0 ≤ code ∧ code ≤ 0xE7)) :
    Shows (hidRemove h u).1 x := by
  unfold hidRemove
  split
  · rename_i h7
    unfold removeKeycode
    split
    · exact hx
    · split
      · rename_i hm
        cases x with
        | key code => exact hx
        | con code => exact hx
        | mod j =>
          refine (bit_and_not (by omega)).mpr ⟨hx, ?_⟩
          intro hj
          exact hu ⟨h7, by omega, BitVec.lt_of_getLsbD hx⟩
      · split
        · rename_i ks hks
          obtain ⟨a, b, e1, e2, -⟩ := clearSlot_some hks
          cases x with
          | mod j => exact hx
          | con code => exact hx
          | key code =>
            refine ⟨hx.1, ?_⟩
            have := hx.2
            rw [e1] at this
            simp only [List.mem_append, List.mem_cons] at this
            simp only [e2, List.mem_append, List.mem_cons]
            rcases this with h | h | h
            · exact Or.inl h
            · exact absurd ⟨h7, h.symm, hx.1, hmod code rfl⟩ hu
            · exact Or.inr (Or.inr h)
        · exact hx
  · split
    · unfold addConsumer
      split
      · exact hx
      · cases x with
        | key code => exact hx
        | mod j => exact hx
        | con code => exact absurd rfl (hc code)
    · exact hx

/-! ### No stuck keys -/

/-- The debounced level of a key is "pressed". -/
def Down (s : State) (key : Nat) : Prop := ∃ st, s.deb[key]? = some st ∧ st % 2 = 1

/-- Who may show an item: a pressed key that carries it on some layer, or the encoder's current
virtual key. -/
def Holder (c : Cfg) (s : State) (x : Item) : Prop :=
  (∃ key, Down s key ∧ KeyCarries c key x) ∨ (s.enc.current ≠ kNONE ∧ Carries s.enc.current x)

def NoStuck (c : Cfg) (s : State) : Prop := ∀ x, Shows s.hid x → Holder c s x

theorem encReport_shows {c e h u susp x} (ok : HidOk h)
    (hx : Shows (encReport c e h u susp).2.1 x) :
    (Shows h x ∧ ((encReport c e h u susp).1.current = e.current ∨ ¬ Carries e.current x)) ∨
    ((encReport c e h u susp).1.current ≠ kNONE ∧ Carries (encReport c e h u susp).1.current x) := by
  unfold encReport at hx ⊢
  dsimp only at hx ⊢
  split at hx
  · rw [if_pos (by assumption)]
    exact Or.inl ⟨hx, Or.inl rfl⟩
  · rw [if_neg (by assumption)]
    split at hx
    · rename_i hu
      rw [if_pos hu]
      rcases hidAdd_shows hx with hx | ⟨-, hx⟩
      · split at hx
        · obtain ⟨h1, h2⟩ := hidRemove_shows ok hx
          exact Or.inl ⟨h1, Or.inr h2⟩
        · rename_i hk
          refine Or.inl ⟨hx, Or.inr ?_⟩
          have hk : e.current = kNONE := by simpa using hk
          rw [hk]
          cases x <;> (unfold Carries kNONE; omega)
      · exact Or.inr ⟨hu, hx⟩
    · rename_i hu
      rw [if_neg hu]
      split at hx
      · rename_i hk
        obtain ⟨h1, h2⟩ := hidRemove_shows ok hx
        exact Or.inl ⟨h1, Or.inr h2⟩
      · rename_i hk
        rw [if_neg hk]
        exact Or.inl ⟨hx, Or.inl rfl⟩

theorem encoderTick_enc {c s i} :
    (encoderTick c s i).1.enc.current =
      (encReport c s.enc s.hid (if ((s.enc.dec * 2 % 256 ||| i.encA.toNat) * 2 % 256 |||
        i.encB.toNat) = 0b00111 then c.ccw else if ((s.enc.dec * 2 % 256 ||| i.encA.toNat) * 2 % 256
        ||| i.encB.toNat) = 0b11011 then c.cw else kNONE) i.encSusp).1.current ∧
    (encoderTick c s i).1.hid =
      (encReport c s.enc s.hid (if ((s.enc.dec * 2 % 256 ||| i.encA.toNat) * 2 % 256 |||
        i.encB.toNat) = 0b00111 then c.ccw else if ((s.enc.dec * 2 % 256 ||| i.encA.toNat) * 2 % 256
        ||| i.encB.toNat) = 0b11011 then c.cw else kNONE) i.encSusp).2.1 := by
  unfold encoderTick
  dsimp only
  split <;> split <;> (try split) <;> exact ⟨rfl, rfl⟩

theorem report_shows {c : Cfg} {s : State} {key : Nat} {b susp : Bool} (ok : HidOk s.hid) {x}
    (hk : ∀ l, ∃ u, (c.layers l)[key]? = some u)
    (hx : Shows (report c s key b susp).1.hid x) :
    (b = true → Shows s.hid x ∧ ((∃ l, (c.layers l)[key]? = some cFN) ∨ ¬ KeyCarries c key x)) ∧
    (b = false → Shows s.hid x ∨ KeyCarries c key x) := by
  obtain ⟨active, ha⟩ := hk s.keys.layer
  obtain ⟨inactive, hi⟩ := hk (!s.keys.layer)
  unfold report at hx
  rw [ha, hi] at hx
  dsimp only at hx
  have hboth : ∀ l u, (c.layers l)[key]? = some u → u = active ∨ u = inactive := by
    intro l u hu
    by_cases hl : l = s.keys.layer
    · subst hl; rw [ha] at hu; exact Or.inl (by simpa using hu.symm)
    · have : l = !s.keys.layer := by revert hl; cases l <;> cases s.keys.layer <;> simp
      subst this; rw [hi] at hu; exact Or.inr (by simpa using hu.symm)
  split at hx
  · rename_i hfn
    have hs : Shows s.hid x := by
      split at hx
      · revert hx; split <;> split <;> exact id
      · exact hx
    refine ⟨fun _ => ⟨hs, Or.inl ?_⟩, fun _ => Or.inl hs⟩
    rcases hfn with h | h
    · exact ⟨_, h ▸ ha⟩
    · exact ⟨_, h ▸ hi⟩
  · split at hx
    · rename_i hb
      obtain ⟨h1, h2⟩ := hidRemove_shows (hidRemove_ok ok) hx
      obtain ⟨h3, h4⟩ := hidRemove_shows ok h1
      refine ⟨fun _ => ⟨h3, Or.inr ?_⟩, fun h => by simp [hb] at h⟩
      rintro ⟨l, u, hu, hc⟩
      rcases hboth l u hu with rfl | rfl
      · exact h4 hc
      · exact h2 hc
    · rename_i hb
      refine ⟨fun h => absurd h hb, fun _ => ?_⟩
      split at hx
      · split at hx <;> exact Or.inl hx
      · rcases hidAdd_shows hx with h | ⟨-, h⟩
        · exact Or.inl h
        · exact Or.inr ⟨_, _, ha, h⟩

/-- A strengthened invariant: an Fn key never holds anything. -/
def NoStuck' (c : Cfg) (s : State) : Prop := ∀ x, Shows s.hid x →
  (∃ key, Down s key ∧ KeyCarries c key x ∧ ¬ ∃ l, (c.layers l)[key]? = some cFN) ∨
    (s.enc.current ≠ kNONE ∧ Carries s.enc.current x)

theorem report_fn {c : Cfg} {s : State} {key : Nat} {b susp : Bool}
    (hk : ∀ l, ∃ u, (c.layers l)[key]? = some u)
    (hfn : ∃ l, (c.layers l)[key]? = some cFN) : (report c s key b susp).1.hid = s.hid := by
  obtain ⟨active, ha⟩ := hk s.keys.layer
  obtain ⟨inactive, hi⟩ := hk (!s.keys.layer)
  have : active = cFN ∨ inactive = cFN := by
    obtain ⟨l, hl⟩ := hfn
    by_cases h : l = s.keys.layer
    · subst h; rw [ha] at hl; exact Or.inl (by simpa using hl)
    · have : l = !s.keys.layer := by revert h; cases l <;> cases s.keys.layer <;> simp
      subst this; rw [hi] at hl; exact Or.inr (by simpa using hl)
  unfold report
  rw [ha, hi]
  dsimp only
  rw [if_pos this]
  split <;> rfl

theorem micro_noStuck {c : Cfg} (wf : c.WF) {i s m} (hm : Valid c m) (ok : Ok c s)
    (hok : HidOk s.hid) (inv : s.live → NoStuck' c s) :
    (micro c i s m).1.live → NoStuck' c (micro c i s m).1 := by
  intro hl
  have hl0 : s.live := by
    by_cases h : s.live
    · exact h
    · rw [micro_dead h] at hl; exact hl
  have inv := inv hl0
  unfold micro at hl ⊢
  rw [if_neg hl0] at hl ⊢
  cases m with
  | rowPut r v =>
    dsimp only at hl ⊢
    split at hl
    · exact inv
    · exact absurd (Or.inr rfl) hl
  | hid =>
    intro x hx
    exact inv x (hidTick_shows.mp hx)
  | led => exact inv
  | host h => exact inv
  | encoder =>
    intro x hx
    dsimp only at hx ⊢
    obtain ⟨e1, e2⟩ := encoderTick_enc (c := c) (s := s) (i := i)
    rw [e2] at hx
    rw [e1]
    have hd : ∀ key, Down (encoderTick c s i).1 key ↔ Down s key := by
      intro key; unfold Down; rw [encoderTick_frame.1]
    rcases encReport_shows hok hx with ⟨h1, h2⟩ | h
    · rcases inv x h1 with ⟨key, hk1, hk2⟩ | ⟨hk1, hk2⟩
      · exact Or.inl ⟨key, (hd key).mpr hk1, hk2⟩
      · rcases h2 with h2 | h2
        · rw [h2]; exact Or.inr ⟨hk1, hk2⟩
        · exact absurd hk2 h2
    · exact Or.inr h
  | sample r k =>
    have hlt := key_lt hm.1 hm.2
    have hlen : r * c.cols + k < s.deb.length := by rw [ok.deb_len]; exact hlt
    have hlay : ∀ l, ∃ u, (c.layers l)[r * c.cols + k]? = some u := by
      intro l
      exact ⟨_, List.getElem?_eq_getElem (by rw [wf.layers]; exact hlt)⟩
    dsimp only at hl ⊢
    generalize hkey : r * c.cols + k = key at *
    generalize i.level r k = b at *
    generalize i.susp r k = susp at *
    have hst : s.deb[key]? = some s.deb[key] := List.getElem?_eq_getElem hlen
    have hst2 := ok.deb_lt _ (List.getElem_mem hlen)
    obtain ⟨lev, n, he, hn⟩ := enc_cases hst2
    unfold debounce at hl ⊢
    rw [hst] at hl ⊢
    dsimp only at hl ⊢
    rw [he, debByte_enc hn wf.deb_le] at hl ⊢
    have hdown : ∀ (s' : State) (v : Nat) k', s'.deb = s.deb.set key v →
        (Down s' k' ↔ if k' = key then v % 2 = 1 else Down s k') := by
      intro s' v k' e
      unfold Down
      rw [e]
      by_cases h : k' = key
      · subst h
        simp [List.getElem?_set_self hlen]
      · rw [List.getElem?_set_ne (fun e => h e.symm), if_neg h]
    have henc : ∀ (l' : Bool) n', enc l' n' % 2 = 1 ↔ l' = false := by
      intro l' n'; unfold enc; cases l' <;> simp <;> omega
    have hdk : Down s key ↔ lev = false := by
      unfold Down
      constructor
      · rintro ⟨st, h1, h2⟩
        rw [hst] at h1
        rw [← Option.some.inj h1, he] at h2
        exact (henc _ _).mp h2
      · intro h
        exact ⟨_, hst, by rw [he]; exact (henc _ _).mpr h⟩
    -- a step without event keeps the level
    have quiet : ∀ n', NoStuck' c { s with deb := s.deb.set key (enc lev n') } := by
      intro n' x hx
      rcases inv x hx with ⟨k', h1, h2⟩ | h
      · refine Or.inl ⟨k', ?_, h2⟩
        rw [hdown _ _ k' rfl]
        split
        · rename_i hk'
          rw [henc, ← hdk, ← hk']; exact h1
        · exact h1
      · exact Or.inr h
    by_cases hb : b = lev
    · rw [if_pos hb]; exact quiet _
    · rw [if_neg hb] at hl ⊢
      by_cases hf : n + 1 = c.debounceTicks
      · rw [if_pos hf] at hl ⊢
        dsimp only at hl ⊢
        split at hl
        · rename_i hd; exact absurd hd hl
        · rename_i hd
          rw [if_neg hd]
          obtain ⟨f1, f2, -⟩ := report_frame c s key b susp
          intro x hx
          dsimp only at hx ⊢
          have hdown' : ∀ k', Down _ k' ↔ _ := fun k' => hdown (State.mk
            ((report c s key b susp).1.deb.set key (enc b 0)) (report c s key b susp).1.keys
            (report c s key b susp).1.hid s.enc (report c s key b susp).1.led
            (report c s key b susp).1.halted (report c s key b susp).1.ub) (enc b 0) k' (by simp [f1])
          obtain ⟨g1, g2⟩ := report_shows hok hlay hx
          rw [f2]
          by_cases hfn : ∃ l, (c.layers l)[key]? = some cFN
          · rw [report_fn hlay hfn] at hx
            rcases inv x hx with ⟨k', h1, h2, h3⟩ | h
            · refine Or.inl ⟨k', ?_, h2, h3⟩
              rw [hdown' k', if_neg (by rintro rfl; exact h3 hfn)]; exact h1
            · exact Or.inr h
          · cases b with
            | true =>
              obtain ⟨g3, g4⟩ := g1 rfl
              rcases inv x g3 with ⟨k', h1, h2, h3⟩ | h
              · refine Or.inl ⟨k', ?_, h2, h3⟩
                rw [hdown' k', if_neg]
                · exact h1
                · rintro rfl
                  rcases g4 with g4 | g4
                  · exact hfn g4
                  · exact g4 h2
              · exact Or.inr h
            | false =>
              rcases g2 rfl with g | g
              · rcases inv x g with ⟨k', h1, h2⟩ | h
                · refine Or.inl ⟨k', ?_, h2⟩
                  rw [hdown' k']
                  split
                  · exact (henc _ _).mpr rfl
                  · exact h1
                · exact Or.inr h
              · refine Or.inl ⟨key, ?_, g, hfn⟩
                rw [hdown' key, if_pos rfl]
                exact (henc _ _).mpr rfl
      · rw [if_neg hf]; exact quiet _

theorem reach_noStuck {c : Cfg} (wf : c.WF) (ins : List In)
    (hl : (run c (State.init c) ins).1.live) : NoStuck' c (run c (State.init c) ins).1 := by
  have := run_inv (c := c) (P := fun s => Ok c s ∧ HidOk s.hid ∧ (s.live → NoStuck' c s))
    (fun i s m hm ⟨h1, h2, h3⟩ =>
      ⟨micro_ok wf h1 hm, micro_hidOk h2, micro_noStuck wf hm h1 h2 h3⟩)
    (s := State.init c) ⟨init_ok wf, init_hidOk, fun _ x hx => ?_⟩ ins
  · exact this.2.2 hl
  · cases x with
    | key code =>
      obtain ⟨h1, h2⟩ := hx
      simp [State.init] at h2
      exact absurd h2 h1
    | mod j => simp [Shows, State.init] at hx
    | con code =>
      obtain ⟨h1, h2⟩ := hx
      simp [State.init] at h2
      exact absurd h2.symm h1

end Chrumm.Fw
