import Verif.Spec.Make
import Verif.Props.Mesh
import Verif.Props.Stl
import Verif.Props.Vector

/-! C44, C45, C46: the generated files. -/

namespace Chrumm.App
open Geo Spec

variable {C P F : Type}

private theorem bind_ok {α β : Type} {x : Py α} {f : α → Py β} {b : β} (h : (x >>= f) = .ok b) :
    ∃ a, x = .ok a ∧ f a = .ok b := by
  cases x with
  | error e => cases h
  | ok a => exact ⟨a, rfl, h⟩

theorem mapM_ok_iff {α β : Type} {f : α → Py β} {l : List α} {ps : List β} :
    l.mapM f = .ok ps ↔ List.Forall₂ (fun x p => f x = .ok p) l ps := by
  refine ⟨mapM_ok, fun h => ?_⟩
  induction h with
  | nil => rfl
  | cons h1 _ ih => simp [List.mapM_cons, h1, ih, bind, Except.bind, pure, Except.pure]

/-! ### The pool -/

section pool
variable {A B : Type}

/-- After some chunks have been completed. -/
structure PoolInv (f : A → Py B) (items : List A) (size : ℕ) (done : List ℕ) (s : PoolState B) : Prop where
  fail : ∀ e, s.failure = some e → ∃ x ∈ items, f x = .error e
  slot : s.failure = none → ∀ k (hk : k < items.length), k / size ∈ done → ∃ b, s.slots k = some b ∧ f items[k] = .ok b

theorem pool_step {f : A → Py B} {items : List A} {size : ℕ} {done : List ℕ} {s : PoolState B} (hs : 0 < size)
    (h : PoolInv f items size done s) (i : ℕ) : PoolInv f items size (i :: done) (s.complete f items size i) := by
  unfold PoolState.complete
  rcases hm : ((items.drop (i * size)).take size).mapM f with e | rs
  · dsimp only
    rcases hf : s.failure with _ | e0
    · refine ⟨fun e1 h1 => ?_, fun h1 => by cases h1⟩
      cases h1
      obtain ⟨x, hx, hxe⟩ := mapM_error _ hm
      exact ⟨x, List.mem_of_mem_drop (List.mem_of_mem_take hx), hxe⟩
    · exact ⟨fun e1 h1 => h.fail e1 h1, fun h1 => by rw [hf] at h1; cases h1⟩
  · dsimp only
    rcases hf : s.failure with _ | e0
    · have hall := mapM_ok hm
      have hlen := hall.length_eq
      rw [List.length_take, List.length_drop] at hlen
      refine ⟨fun e1 h1 => ?_, fun _ k hk hdone => ?_⟩
      · cases h1
      · dsimp only
        by_cases hki : k / size = i
        · have h1 : i * size ≤ k := by rw [← hki]; exact Nat.div_mul_le_self k size
          have h2 : k < i * size + size := by
            rw [← hki]
            have := Nat.div_add_mod k size
            have := Nat.mod_lt k hs
            nlinarith
          have h3 : k < i * size + rs.length := by omega
          rw [if_pos ⟨h1, h3⟩]
          have h4 : k - i * size < rs.length := by omega
          refine ⟨rs[k - i * size], List.getElem?_eq_getElem h4, ?_⟩
          have := List.Forall₂.get hall (by rw [List.length_take, List.length_drop]; omega) h4
          simp only [List.get_eq_getElem, List.getElem_take, List.getElem_drop] at this
          have e : i * size + (k - i * size) = k := by omega
          simpa only [e] using this
        · have hd : k / size ∈ done := by
            rcases List.mem_cons.mp hdone with h1 | h1
            · exact absurd h1 hki
            · exact h1
          rw [if_neg]
          · exact h.slot hf k hk hd
          · rintro ⟨h1, h2⟩
            apply hki
            have h3 : k < (i + 1) * size := by
              have : rs.length ≤ size := by omega
              nlinarith
            exact Nat.div_eq_of_lt_le h1 h3
    · exact ⟨fun e1 h1 => h.fail e1 h1, fun h1 => by rw [hf] at h1; cases h1⟩

theorem pool_fold {f : A → Py B} {items : List A} {size : ℕ} (hs : 0 < size) (order : List ℕ) :
    ∀ (done : List ℕ) (s : PoolState B), PoolInv f items size done s →
      ∃ done', (∀ i, i ∈ done' ↔ i ∈ done ∨ i ∈ order) ∧
        PoolInv f items size done' (order.foldl (PoolState.complete f items size) s) := by
  induction order with
  | nil => intro done s h; exact ⟨done, by simp, h⟩
  | cons i order ih =>
    intro done s h
    obtain ⟨done', h1, h2⟩ := ih (i :: done) _ (pool_step hs h i)
    refine ⟨done', fun j => ?_, h2⟩
    rw [h1]
    simp only [List.mem_cons]
    tauto

theorem chunkSize_pos {n w : ℕ} (hn : 0 < n) (hw : 0 < w) : 0 < chunkSize n w := by
  unfold chunkSize
  split_ifs with h
  · have : 0 < n / (w * 4) := Nat.div_pos (Nat.le_of_dvd hn (Nat.dvd_of_mod_eq_zero h)) (by omega)
    omega
  · exact Nat.succ_pos _

theorem div_lt_chunkCount {n size k : ℕ} (hs : 0 < size) (hk : k < n) : k / size < chunkCount n size := by
  unfold chunkCount
  split_ifs with h
  · rw [add_zero, Nat.div_lt_iff_lt_mul hs, Nat.div_mul_cancel (Nat.dvd_of_mod_eq_zero h)]
    exact hk
  · have := Nat.div_le_div_right (c := size) hk.le
    omega

/-- `Pool.map` gives the same results as a loop, whatever order the chunks are completed in; when it fails, then with
the exception of one of the items. -/
theorem poolMap_spec {f : A → Py B} {items : List A} {w : ℕ} {order : List ℕ} (hn : items ≠ []) (hw : 0 < w)
    (ho : Completes items.length w order) :
    (∀ rs, poolMap f items w order = .ok rs ↔ items.mapM f = .ok rs) ∧
    ∀ e, poolMap f items w order = .error e → ∃ x ∈ items, f x = .error e := by
  have hn' : 0 < items.length := List.length_pos_iff.mpr hn
  have hs := chunkSize_pos hn' hw
  obtain ⟨done, hd, hinv⟩ := pool_fold (f := f) (items := items) hs order [] ⟨fun _ => none, none⟩
    ⟨fun e h => (by cases h), fun _ k _ h => (by cases h)⟩
  have hdone : ∀ k, k < items.length → k / chunkSize items.length w ∈ done := by
    intro k hk
    rw [hd]
    right
    rw [ho.mem_iff, List.mem_range]
    exact div_lt_chunkCount hs hk
  unfold poolMap
  dsimp only
  rcases hf : (order.foldl (PoolState.complete f items (chunkSize items.length w)) ⟨fun _ => none, none⟩).failure with _ | e
  · dsimp only
    have hslot := fun k hk => hinv.slot hf k hk (hdone k hk)
    obtain ⟨rs, hrs⟩ := mapM_ok_of (f := f) items (by
      intro x hx
      obtain ⟨k, hk, rfl⟩ := List.getElem_of_mem hx
      obtain ⟨b, -, hb⟩ := hslot k hk
      exact ⟨b, hb⟩)
    have hpool : ((List.range items.length).mapM fun k => slotResult
        ((order.foldl (PoolState.complete f items (chunkSize items.length w)) ⟨fun _ => none, none⟩).slots k) :
        Py (List B)) = .ok rs := by
      rw [mapM_ok_iff]
      have hall := mapM_ok hrs
      rw [List.forall₂_iff_get]
      refine ⟨by rw [List.length_range]; exact hall.length_eq, fun k h1 h2 => ?_⟩
      have hk : k < items.length := by simpa using h1
      obtain ⟨b, hb1, hb2⟩ := hslot k hk
      have := List.Forall₂.get hall hk h2
      simp only [List.get_eq_getElem, List.getElem_range] at this ⊢
      rw [hb1, ← this, hb2]
      rfl
    rw [hpool, hrs]
    exact ⟨fun rs' => Iff.rfl, fun e h => (by cases h)⟩
  · dsimp only
    obtain ⟨x, hx, hxe⟩ := hinv.fail e hf
    refine ⟨fun rs => ⟨fun h => (by cases h), fun h => ?_⟩, fun e' h => (by cases h; exact ⟨x, hx, hxe⟩)⟩
    exfalso
    obtain ⟨k, hk, rfl⟩ := List.getElem_of_mem hx
    have hall := mapM_ok h
    have := List.Forall₂.get hall hk (by rw [← hall.length_eq]; exact hk)
    simp only [List.get_eq_getElem] at this
    rw [hxe] at this
    cases this

end pool

/-! ### Distribution of the faces -/

theorem popFaces_spec {R : F → List (Tri Vec) → Prop} : ∀ (fs rest : List F) (ft : List (List (Tri Vec))),
    List.Forall₂ R (fs ++ rest) ft → ∃ ts ft', List.Forall₂ R fs ts ∧ List.Forall₂ R rest ft' ∧
      popFaces fs ft = .ok (ts.flatten, ft')
  | [], rest, ft, h => ⟨[], ft, .nil, h, rfl⟩
  | f :: fs, rest, ft, h => by
    cases h with
    | cons h1 h2 =>
      obtain ⟨ts, ft', h3, h4, h5⟩ := popFaces_spec fs rest _ h2
      refine ⟨_ :: ts, ft', .cons h1 h3, h4, ?_⟩
      simp [popFaces, h5, bind, Except.bind, pure, Except.pure]

theorem combine_spec {R : F → List (Tri Vec) → Prop} : ∀ (parts : List (String × Part F)) (ft : List (List (Tri Vec))),
    List.Forall₂ R (parts.flatMap fun p => p.2.faces) ft → ∃ out, combine parts ft = .ok out ∧
      List.Forall₂ (fun p o => o.1 = p.1 ∧ ∃ ts, List.Forall₂ R p.2.faces ts ∧
        o.2 = mirrorLeft p.1 (p.2.triangles ++ ts.flatten)) parts out
  | [], ft, h => ⟨[], rfl, .nil⟩
  | (name, part) :: parts, ft, h => by
    rw [List.flatMap_cons] at h
    obtain ⟨ts, ft', h1, h2, h3⟩ := popFaces_spec _ _ _ h
    obtain ⟨out, h4, h5⟩ := combine_spec parts ft' h2
    refine ⟨(name, mirrorLeft name (part.triangles ++ ts.flatten)) :: out, ?_, .cons ⟨rfl, ts, h1, rfl⟩ h5⟩
    dsimp only at h3
    simp [combine, h3, h4, bind, Except.bind, pure, Except.pure]

theorem setItem_new {files : Files} {name : String} (h : name ∉ files.map Prod.fst) (data : Data) :
    setItem files name data = files ++ [(name, data)] := by
  unfold setItem
  rw [if_neg]
  intro h'
  rw [List.any_eq_true] at h'
  obtain ⟨f, hf, he⟩ := h'
  apply h
  simp only [decide_eq_true_eq] at he
  rw [← he]
  exact List.mem_map_of_mem hf

theorem partFiles_spec {f32 : ℝ → Option Word} : ∀ (out : List (String × List (Tri Vec))) (files files' : Files),
    partFiles f32 out files = .ok files' → (files.map Prod.fst ++ out.map fun o => o.1 ++ ".stl").Nodup →
    ∃ fs, files' = files ++ fs ∧
      List.Forall₂ (fun o f => ∃ b, toBytes f32 o.2 = .ok b ∧ f = (o.1 ++ ".stl", Data.bytes b)) out fs
  | [], files, files', h, _ => by cases h; exact ⟨[], by simp, .nil⟩
  | (name, ts) :: out, files, files', h, hnd => by
    unfold partFiles at h
    obtain ⟨b, hb, h⟩ := bind_ok h
    have hnew : name ++ ".stl" ∉ files.map Prod.fst := by
      intro hm
      rw [List.nodup_append] at hnd
      exact hnd.2.2 _ hm _ (by simp) rfl
    rw [setItem_new hnew] at h
    obtain ⟨fs, h1, h2⟩ := partFiles_spec out _ files' h (by simpa using hnd)
    exact ⟨(name ++ ".stl", .bytes b) :: fs, by rw [h1]; simp, .cons ⟨b, hb, rfl⟩ h2⟩

/-! ### The parts -/

/-- A part with its name. -/
structure Entry (F : Type) where
  kind : Kind
  side : Side
  part : Part F

def partName (k : Kind) (s : Side) : String := kindName k ++ "-" ++ sideName s

/-- The parts that should be there. -/
def allParts (palm support : Bool) : List (Kind × Side) :=
  [(.body, .right), (.body, .left), (.floor, .right), (.floor, .left)] ++
  (if palm then [(.palm, .right), (.palm, .left)] else []) ++
  (if support then [(.support, .right), (.support, .left)] else [])

theorem isLeft_partName (k : Kind) (s : Side) : isLeft (partName k s) = decide (s = .left) := by
  cases k <;> cases s <;> decide +kernel

theorem mirrorLeft_partName (k : Kind) (s : Side) (ts : List (Tri Vec)) :
    mirrorLeft (partName k s) ts = forSide s ts := by
  unfold mirrorLeft
  rw [isLeft_partName]
  cases s
  · rfl
  · rfl

theorem partName_inj {k k' : Kind} {s s' : Side} (h : partName k s ++ ".stl" = partName k' s' ++ ".stl") :
    k = k' ∧ s = s' := by
  cases k <;> cases s <;> cases k' <;> cases s' <;>
    first
    | exact ⟨rfl, rfl⟩
    | (exfalso; revert h; decide +kernel)

/-- Everything about a successful run. -/
structure Made (code : Code C P F) (cfg : C) (files : Files) (knob palm support pcb : Bool) : Prop where
  palm_eq : code.hasPalm cfg = .ok palm
  support_eq : code.hasSupport cfg = .ok support
  pcb_eq : code.hasPcb cfg = .ok pcb
  main : ∃ (entries : List (Entry F)) (pf fs : Files), files = pf ++ fs ∧
    pf.map Prod.fst = (if knob then ["rotary-knob.stl"] else []) ++ (if pcb then ["pcb-positions.kicad_mod"] else []) ∧
    entries.map (fun e => (e.kind, e.side)) = allParts palm support ∧
    (∀ e ∈ entries, ∃ plan, code.plan cfg e.side = .ok plan ∧ Constructs code cfg plan e.part e.kind) ∧
    List.Forall₂ (fun e f => ∃ mesh b, IsMesh code e.part mesh ∧ toBytes code.f32 (forSide e.side mesh) = .ok b ∧
      f = (partName e.kind e.side ++ ".stl", Data.bytes b)) entries fs

theorem triangulateAll_ok {code : Code C P F} {threads : ℤ} {schedule : ℕ → List ℕ} {faces : List F}
    (ho : Fair threads schedule) (ts : List (List (Tri Vec))) :
    triangulateAll code threads schedule faces = .ok ts ↔
      faces.mapM code.triangulate = .ok ts ∧ (1 < threads → faces ≠ []) := by
  unfold triangulateAll
  by_cases ht : threads ≤ 1
  · rw [if_pos ht]
    have : ¬ 1 < threads := by omega
    simp [this]
  · rw [if_neg ht]
    cases faces with
    | nil => simp; intro _; omega
    | cons f fs =>
      dsimp only
      rw [(poolMap_spec (by simp) (by omega) (ho _)).1 ts]
      simp

theorem knobFiles_ok {code : Code C P F} {cfg : C} {files : Files} (h : knobFiles code cfg = .ok files) :
    ∃ knob, code.hasKnob cfg = .ok knob ∧ files.map Prod.fst = (if knob then ["rotary-knob.stl"] else []) ∧
      ∀ name data, (name, data) ∈ files → ∃ ts b, code.knob cfg = .ok ts ∧ toBytes code.f32 ts = .ok b ∧ data = .bytes b := by
  unfold knobFiles at h
  obtain ⟨k, hk, h⟩ := bind_ok h
  refine ⟨k, hk, ?_⟩
  cases k with
  | false => cases h; simp
  | true =>
    obtain ⟨ts, hts, h⟩ := bind_ok h
    obtain ⟨b, hb, h⟩ := bind_ok h
    cases h
    refine ⟨rfl, fun name data hm => ?_⟩
    rw [setItem_new (by simp)] at hm
    simp at hm
    exact ⟨ts, b, hts, hb, hm.2⟩

theorem pcbFiles_ok {code : Code C P F} {cfg : C} {pr pl : P} {files files' : Files}
    (h : pcbFiles code cfg pr pl files = .ok files') (hn : "pcb-positions.kicad_mod" ∉ files.map Prod.fst) :
    ∃ pcb, code.hasPcb cfg = .ok pcb ∧
      files'.map Prod.fst = files.map Prod.fst ++ (if pcb then ["pcb-positions.kicad_mod"] else []) := by
  unfold pcbFiles at h
  obtain ⟨k, hk, h⟩ := bind_ok h
  refine ⟨k, hk, ?_⟩
  cases k with
  | false => cases h; simp
  | true =>
    obtain ⟨s, hs, h⟩ := bind_ok h
    cases h
    rw [setItem_new hn]
    simp

theorem palmParts_ok {code : Code C P F} {cfg : C} {pr pl : P} {parts : List (String × Part F)}
    (hr : code.plan cfg .right = .ok pr) (hl : code.plan cfg .left = .ok pl)
    (h : palmParts code cfg pr pl = .ok parts) : ∃ b, code.hasPalm cfg = .ok b ∧ ∃ entries : List (Entry F),
      entries.map (fun e => (e.kind, e.side)) = (if b then [(.palm, .right), (.palm, .left)] else []) ∧
      parts = entries.map (fun e => (partName e.kind e.side, e.part)) ∧
      ∀ e ∈ entries, ∃ plan, code.plan cfg e.side = .ok plan ∧ Constructs code cfg plan e.part e.kind := by
  unfold palmParts at h
  obtain ⟨k, hk, h⟩ := bind_ok h
  refine ⟨k, hk, ?_⟩
  cases k with
  | false => cases h; exact ⟨[], by simp⟩
  | true =>
    obtain ⟨a, ha, h⟩ := bind_ok h
    obtain ⟨b, hb, h⟩ := bind_ok h
    cases h
    refine ⟨[⟨.palm, .right, a⟩, ⟨.palm, .left, b⟩], rfl, ?_, ?_⟩
    · simp [partName, kindName, sideName]
    · intro e he
      simp only [List.mem_cons, List.not_mem_nil, or_false] at he
      rcases he with rfl | rfl
      · exact ⟨pr, hr, ha⟩
      · exact ⟨pl, hl, hb⟩

theorem supportParts_ok {code : Code C P F} {cfg : C} {pr pl : P} {parts : List (String × Part F)}
    (hr : code.plan cfg .right = .ok pr) (hl : code.plan cfg .left = .ok pl)
    (h : supportParts code cfg pr pl = .ok parts) : ∃ b, code.hasSupport cfg = .ok b ∧ ∃ entries : List (Entry F),
      entries.map (fun e => (e.kind, e.side)) = (if b then [(.support, .right), (.support, .left)] else []) ∧
      parts = entries.map (fun e => (partName e.kind e.side, e.part)) ∧
      ∀ e ∈ entries, ∃ plan, code.plan cfg e.side = .ok plan ∧ Constructs code cfg plan e.part e.kind := by
  unfold supportParts at h
  obtain ⟨k, hk, h⟩ := bind_ok h
  refine ⟨k, hk, ?_⟩
  cases k with
  | false => cases h; exact ⟨[], by simp⟩
  | true =>
    obtain ⟨a, ha, h⟩ := bind_ok h
    obtain ⟨b, hb, h⟩ := bind_ok h
    cases h
    refine ⟨[⟨.support, .right, a⟩, ⟨.support, .left, b⟩], rfl, ?_, ?_⟩
    · simp [partName, kindName, sideName]
    · intro e he
      simp only [List.mem_cons, List.not_mem_nil, or_false] at he
      rcases he with rfl | rfl
      · exact ⟨pr, hr, ha⟩
      · exact ⟨pl, hl, hb⟩

theorem basicParts_ok {code : Code C P F} {cfg : C} {pr pl : P} {parts : List (String × Part F)}
    (hr : code.plan cfg .right = .ok pr) (hl : code.plan cfg .left = .ok pl)
    (h : basicParts code cfg pr pl = .ok parts) : ∃ entries : List (Entry F),
      entries.map (fun e => (e.kind, e.side)) = [(.body, .right), (.body, .left), (.floor, .right), (.floor, .left)] ∧
      parts = entries.map (fun e => (partName e.kind e.side, e.part)) ∧
      ∀ e ∈ entries, ∃ plan, code.plan cfg e.side = .ok plan ∧ Constructs code cfg plan e.part e.kind := by
  unfold basicParts at h
  obtain ⟨a, ha, h⟩ := bind_ok h
  obtain ⟨b, hb, h⟩ := bind_ok h
  obtain ⟨c, hc, h⟩ := bind_ok h
  obtain ⟨d, hd, h⟩ := bind_ok h
  cases h
  refine ⟨[⟨.body, .right, a⟩, ⟨.body, .left, b⟩, ⟨.floor, .right, c⟩, ⟨.floor, .left, d⟩], rfl, ?_, ?_⟩
  · simp [partName, kindName, sideName]
  · intro e he
    simp only [List.mem_cons, List.not_mem_nil, or_false] at he
    rcases he with rfl | rfl | rfl | rfl
    · exact ⟨pr, hr, ha⟩
    · exact ⟨pl, hl, hb⟩
    · exact ⟨pr, hr, a, ha, hc⟩
    · exact ⟨pl, hl, b, hb, hd⟩

theorem names_nodup (knob palm support pcb knobOnly : Bool) : (expectedNames knob palm support pcb knobOnly).Nodup := by
  cases knob <;> cases palm <;> cases support <;> cases pcb <;> cases knobOnly <;> decide +kernel

theorem expected_eq (knob palm support pcb : Bool) : expectedNames knob palm support pcb false =
    (if knob then ["rotary-knob.stl"] else []) ++ (if pcb then ["pcb-positions.kicad_mod"] else []) ++
      (allParts palm support).map fun e => partName e.1 e.2 ++ ".stl" := by
  cases knob <;> cases palm <;> cases support <;> cases pcb <;> decide +kernel

theorem make_ok {code : Code C P F} {js : List String} {threads : ℤ} {ko : Bool} {schedule : ℕ → List ℕ} {files : Files}
    (hs : Fair threads schedule) (h : make code js threads ko schedule = .ok files) :
    ∃ cfg knob, code.init js = .ok cfg ∧ code.hasKnob cfg = .ok knob ∧
      (ko = true → files.map Prod.fst = (if knob then ["rotary-knob.stl"] else [])) ∧
      (ko = false → ∃ palm support pcb, Made code cfg files knob palm support pcb) := by
  unfold make at h
  obtain ⟨cfg, hcfg, h⟩ := bind_ok h
  obtain ⟨_, -, h⟩ := bind_ok h
  obtain ⟨kf, hkf, h⟩ := bind_ok h
  obtain ⟨knob, hk, hkn, -⟩ := knobFiles_ok hkf
  refine ⟨cfg, knob, hcfg, hk, fun hko => ?_, fun hko => ?_⟩
  · subst hko; cases h; exact hkn
  · subst hko
    rw [if_neg (by simp)] at h
    obtain ⟨pr, hr, h⟩ := bind_ok h
    obtain ⟨pl, hl, h⟩ := bind_ok h
    obtain ⟨basic, hb, h⟩ := bind_ok h
    obtain ⟨pa, hpa, h⟩ := bind_ok h
    obtain ⟨su, hsu, h⟩ := bind_ok h
    obtain ⟨pf, hpf, h⟩ := bind_ok h
    obtain ⟨ft, hft, h⟩ := bind_ok h
    obtain ⟨out, hout, hfin⟩ := bind_ok h
    obtain ⟨e1, m1, rfl, c1⟩ := basicParts_ok hr hl hb
    obtain ⟨palm, hpalm, e2, m2, rfl, c2⟩ := palmParts_ok hr hl hpa
    obtain ⟨support, hsupport, e3, m3, rfl, c3⟩ := supportParts_ok hr hl hsu
    obtain ⟨pcb, hpcb, hpn⟩ := pcbFiles_ok hpf (by rw [hkn]; cases knob <;> simp)
    rw [hkn] at hpn
    rw [← List.map_append, ← List.map_append] at hft hout
    obtain ⟨entries, hentries⟩ : ∃ l, l = e1 ++ e2 ++ e3 := ⟨_, rfl⟩
    rw [← hentries] at hft hout
    have hme : entries.map (fun e => (e.kind, e.side)) = allParts palm support := by
      rw [hentries, List.map_append, List.map_append, m1, m2, m3]; rfl
    obtain ⟨hft, -⟩ := (triangulateAll_ok hs _).mp hft
    obtain ⟨out', ho', hall⟩ := combine_spec _ _ (mapM_ok hft)
    rw [hout] at ho'
    cases ho'
    rw [List.forall₂_map_left_iff] at hall
    have hnames : out.map (fun o => o.1 ++ ".stl") = (allParts palm support).map fun e => partName e.1 e.2 ++ ".stl" := by
      rw [← hme, List.map_map]
      clear * - hall
      induction hall with
      | nil => rfl
      | cons h1 _ ih => rw [List.map_cons, List.map_cons, ih, h1.1]; rfl
    obtain ⟨fs, rfl, hfs⟩ := partFiles_spec out pf files hfin (by
      rw [hpn, hnames, ← expected_eq]; exact names_nodup ..)
    refine ⟨palm, support, pcb, hpalm, hsupport, hpcb, entries, pf, fs, rfl, hpn, hme, ?_, ?_⟩
    · intro e he
      simp only [hentries, List.mem_append] at he
      rcases he with (he | he) | he
      · exact c1 e he
      · exact c2 e he
      · exact c3 e he
    · clear * - hall hfs
      induction hall generalizing fs with
      | nil => cases hfs; exact .nil
      | cons h1 _ ih =>
        cases hfs with
        | cons h2 h3 =>
          refine .cons ?_ (ih _ h3)
          obtain ⟨hn, ts, hts, hm⟩ := h1
          obtain ⟨b, hb, rfl⟩ := h2
          rw [hm, mirrorLeft_partName] at hb
          exact ⟨_, b, ⟨ts, hts, rfl⟩, hb, by rw [hn]⟩

/-- C44. The files are exactly those selected by the configuration, and their names are different. -/
theorem C44_names (code : Code C P F) (js : List String) (threads : ℤ) (knobOnly : Bool) (schedule : ℕ → List ℕ)
    (files : Files) (hs : Fair threads schedule) (h : make code js threads knobOnly schedule = .ok files) :
    ∃ cfg knob palm support pcb, code.init js = .ok cfg ∧ code.hasKnob cfg = .ok knob ∧
      (knobOnly = false → code.hasPalm cfg = .ok palm ∧ code.hasSupport cfg = .ok support ∧ code.hasPcb cfg = .ok pcb) ∧
      files.map Prod.fst = expectedNames knob palm support pcb knobOnly ∧ (files.map Prod.fst).Nodup := by
  obtain ⟨cfg, knob, h1, h2, h3, h4⟩ := make_ok hs h
  cases knobOnly with
  | true =>
    have : files.map Prod.fst = expectedNames knob false false false true := by
      rw [h3 rfl]; cases knob <;> rfl
    exact ⟨cfg, knob, false, false, false, h1, h2, by simp, this, this ▸ names_nodup ..⟩
  | false =>
    obtain ⟨palm, support, pcb, hm⟩ := h4 rfl
    obtain ⟨entries, pf, fs, rfl, hpf, he, -, hfs⟩ := hm.main
    have : (pf ++ fs).map Prod.fst = expectedNames knob palm support pcb false := by
      rw [expected_eq, List.map_append, hpf, ← he, List.map_map]
      congr 1
      clear * - hfs
      induction hfs with
      | nil => rfl
      | cons h1 _ ih =>
        obtain ⟨mesh, b, -, -, rfl⟩ := h1
        rw [List.map_cons, List.map_cons, ih]; rfl
    exact ⟨cfg, knob, palm, support, pcb, h1, h2, fun _ => ⟨hm.palm_eq, hm.support_eq, hm.pcb_eq⟩, this,
      this ▸ names_nodup ..⟩

/-- C45. Each file has the triangles of its own part: its mesh, and those of its own faces in order. -/
theorem C45_own_faces (code : Code C P F) (js : List String) (threads : ℤ) (schedule : ℕ → List ℕ) (files : Files)
    (hs : Fair threads schedule) (h : make code js threads false schedule = .ok files) (kind : Kind) (side : Side)
    (data : Data) (hf : (kindName kind ++ "-" ++ sideName side ++ ".stl", data) ∈ files) :
    ∃ cfg plan part mesh b, code.init js = .ok cfg ∧ code.plan cfg side = .ok plan ∧
      Constructs code cfg plan part kind ∧ IsMesh code part mesh ∧
      toBytes code.f32 (forSide side mesh) = .ok b ∧ data = .bytes b := by
  obtain ⟨cfg, knob, h1, h2, h3, h4⟩ := make_ok hs h
  obtain ⟨palm, support, pcb, hm⟩ := h4 rfl
  obtain ⟨entries, pf, fs, rfl, hpf, he, hplan, hfs⟩ := hm.main
  rcases List.mem_append.mp hf with hf | hf
  · exfalso
    have : kindName kind ++ "-" ++ sideName side ++ ".stl" ∈ pf.map Prod.fst := List.mem_map_of_mem (f := Prod.fst) hf
    rw [hpf] at this
    revert this
    cases kind <;> cases side <;> cases knob <;> cases pcb <;> decide +kernel
  · have key : ∃ e ∈ entries, ∃ mesh b, IsMesh code e.part mesh ∧ toBytes code.f32 (forSide e.side mesh) = .ok b ∧
        (kindName kind ++ "-" ++ sideName side ++ ".stl", data) = (partName e.kind e.side ++ ".stl", Data.bytes b) := by
      clear * - hfs hf
      induction hfs with
      | nil => cases hf
      | @cons e f es fs h1 _ ih =>
        rcases List.mem_cons.mp hf with rfl | hf
        · obtain ⟨mesh, b, h⟩ := h1
          exact ⟨e, List.mem_cons_self, mesh, b, h⟩
        · obtain ⟨e', he', h'⟩ := ih hf
          exact ⟨e', .tail _ he', h'⟩
    obtain ⟨e, hmem, mesh, b, hmesh, hb, heq⟩ := key
    rw [Prod.mk.injEq] at heq
    obtain ⟨rfl, rfl⟩ := partName_inj heq.1
    obtain ⟨plan, hp, hc⟩ := hplan e hmem
    exact ⟨cfg, plan, e.part, mesh, b, h1, hp, hc, hmesh, hb, heq.2⟩

/-- C45. If the parts have faces, then the files depend neither on the number of threads, nor on the order in which
the workers complete their work. -/
theorem C45_threads (code : Code C P F) (js : List String) (threads threads' : ℤ) (knobOnly : Bool)
    (schedule schedule' : ℕ → List ℕ) (hs : Fair threads schedule) (hs' : Fair threads' schedule')
    (hfaces : ∀ cfg plan part, code.body cfg plan = .ok part → part.faces ≠ []) (files : Files)
    (h : make code js threads knobOnly schedule = .ok files) :
    make code js threads' knobOnly schedule' = .ok files := by
  unfold make at h ⊢
  obtain ⟨cfg, hcfg, h⟩ := bind_ok h
  rw [hcfg]
  obtain ⟨_, hch, h⟩ := bind_ok h
  obtain ⟨kf, hkf, h⟩ := bind_ok h
  simp only [bind, Except.bind, hch, hkf]
  cases knobOnly with
  | true => exact h
  | false =>
    simp only [Bool.false_eq_true, if_false] at h ⊢
    obtain ⟨pr, hr, h⟩ := bind_ok h
    obtain ⟨pl, hl, h⟩ := bind_ok h
    obtain ⟨basic, hb, h⟩ := bind_ok h
    obtain ⟨pa, hpa, h⟩ := bind_ok h
    obtain ⟨su, hsu, h⟩ := bind_ok h
    obtain ⟨pf, hpf, h⟩ := bind_ok h
    obtain ⟨ft, hft, h⟩ := bind_ok h
    obtain ⟨out, hout, h⟩ := bind_ok h
    have hne : (basic ++ pa ++ su).flatMap (fun p => p.2.faces) ≠ [] := by
      unfold basicParts at hb
      obtain ⟨a, ha, hb⟩ := bind_ok hb
      obtain ⟨b, -, hb⟩ := bind_ok hb
      obtain ⟨c, -, hb⟩ := bind_ok hb
      obtain ⟨d, -, hb⟩ := bind_ok hb
      cases hb
      have := hfaces cfg pr a ha
      simp [this]
    obtain ⟨h1, -⟩ := (triangulateAll_ok hs _).mp hft
    have h2 := (triangulateAll_ok (code := code) hs' _).mpr ⟨h1, fun _ => hne⟩
    simp only [hr, hl, hb, hpa, hsu, hpf, h2, hout, h]

/-- C45. A part without faces would be a problem: several threads need at least one face. -/
theorem C45_no_faces (code : Code C P F) (threads : ℤ) (schedule : ℕ → List ℕ) :
    triangulateAll code threads schedule [] = if threads ≤ 1 then .ok [] else .error .indexError := by
  unfold triangulateAll
  split_ifs <;> rfl

/-! ### C46 -/

theorem mirrored_eq (t : Tri Vec) : mirrored t = t.mirroredX.reversed := rfl

theorem count_mirrored [DecidableEq Vec] (mesh : List (Tri Vec)) (x y : Vec) :
    (Geo.Spec.meshEdges (mesh.map mirrored)).count (x, y) =
      (Geo.Spec.meshEdges mesh).count (y.mirroredX, x.mirroredX) := by
  have hm : ∀ v w : Vec, v.mirroredX = w ↔ v = w.mirroredX := by
    intro v w
    constructor
    · rintro rfl; exact ((C24_involution v ⟨v, v, v⟩).1).symm
    · rintro rfl; exact (C24_involution w ⟨w, w, w⟩).1
  induction mesh with
  | nil => rfl
  | cons t mesh ih =>
    simp only [Geo.Spec.meshEdges, List.map_cons, List.flatMap_cons, List.count_append] at ih ⊢
    rw [ih]
    congr 1
    have e : Geo.Spec.sides (mirrored t) = [(t.c.mirroredX, t.b.mirroredX), (t.b.mirroredX, t.a.mirroredX),
      (t.a.mirroredX, t.c.mirroredX)] := rfl
    rw [e]
    simp only [Geo.Spec.sides, List.count_cons, List.count_nil, beq_iff_eq, Prod.mk.injEq, hm]
    have e1 : (t.c = x.mirroredX ∧ t.b = y.mirroredX) ↔ (t.b = y.mirroredX ∧ t.c = x.mirroredX) := and_comm
    have e2 : (t.b = x.mirroredX ∧ t.a = y.mirroredX) ↔ (t.a = y.mirroredX ∧ t.b = x.mirroredX) := and_comm
    have e3 : (t.a = x.mirroredX ∧ t.c = y.mirroredX) ↔ (t.c = y.mirroredX ∧ t.a = x.mirroredX) := and_comm
    simp only [e1, e2, e3]
    omega

theorem watertight_mirrored [DecidableEq Vec] (mesh : List (Tri Vec)) :
    Geo.Spec.Watertight (mesh.map mirrored) ↔ Geo.Spec.Watertight mesh := by
  have hm : ∀ v : Vec, v.mirroredX.mirroredX = v := fun v => (C24_involution v ⟨v, v, v⟩).1
  constructor
  · intro h x y
    have := h y.mirroredX x.mirroredX
    rw [count_mirrored, count_mirrored, hm, hm] at this
    exact this
  · intro h x y
    rw [count_mirrored, count_mirrored]
    exact h _ _

/-- C46. A left file has the mirror image of a mesh that was constructed for the left plan: the same number of
triangles, the same enclosed volume, and it is closed exactly if the mesh is. -/
theorem C46_left [DecidableEq Vec] (code : Code C P F) (js : List String) (threads : ℤ) (schedule : ℕ → List ℕ)
    (files : Files) (hs : Fair threads schedule) (h : make code js threads false schedule = .ok files) (kind : Kind)
    (data : Data) (hf : (kindName kind ++ "-left.stl", data) ∈ files) :
    ∃ cfg plan part mesh b, code.init js = .ok cfg ∧ code.plan cfg .left = .ok plan ∧
      Constructs code cfg plan part kind ∧ IsMesh code part mesh ∧ data = .bytes b ∧
      IsStl code.f32 b (mesh.map mirrored) ∧
      Geo.Spec.volume6 (mesh.map mirrored) = Geo.Spec.volume6 mesh ∧
      (Geo.Spec.Watertight (mesh.map mirrored) ↔ Geo.Spec.Watertight mesh) := by
  have hname : kindName kind ++ "-left.stl" = kindName kind ++ "-" ++ sideName .left ++ ".stl" := by
    cases kind <;> decide +kernel
  rw [hname] at hf
  obtain ⟨cfg, plan, part, mesh, b, h1, h2, h3, h4, h5, h6⟩ := C45_own_faces code js threads schedule files hs h kind .left data hf
  exact ⟨cfg, plan, part, mesh, b, h1, h2, h3, h4, h6, C43_format _ _ h5, C24_volume mesh, watertight_mirrored mesh⟩

/-- C46. If the plans of both sides are the same, then each left file has exactly the mirrored triangles of the right
file. -/
theorem C46_symmetric (code : Code C P F) (js : List String) (threads : ℤ) (schedule : ℕ → List ℕ)
    (files : Files) (hs : Fair threads schedule) (h : make code js threads false schedule = .ok files)
    (hsame : ∀ cfg, code.init js = .ok cfg → code.plan cfg .left = code.plan cfg .right) (kind : Kind)
    (left right : Data) (hl : (kindName kind ++ "-left.stl", left) ∈ files)
    (hr : (kindName kind ++ "-right.stl", right) ∈ files) :
    ∃ mesh bl br, left = .bytes bl ∧ right = .bytes br ∧
      IsStl code.f32 br mesh ∧ IsStl code.f32 bl (mesh.map mirrored) := by
  have hnl : kindName kind ++ "-left.stl" = kindName kind ++ "-" ++ sideName .left ++ ".stl" := by
    cases kind <;> decide +kernel
  have hnr : kindName kind ++ "-right.stl" = kindName kind ++ "-" ++ sideName .right ++ ".stl" := by
    cases kind <;> decide +kernel
  rw [hnl] at hl
  rw [hnr] at hr
  obtain ⟨cfg, plan, part, mesh, b, h1, h2, h3, h4, h5, h6⟩ := C45_own_faces code js threads schedule files hs h kind .left _ hl
  obtain ⟨cfg', plan', part', mesh', b', h1', h2', h3', h4', h5', h6'⟩ :=
    C45_own_faces code js threads schedule files hs h kind .right _ hr
  have hc : cfg = cfg' := by rw [h1] at h1'; cases h1'; rfl
  subst hc
  have hp : plan = plan' := by rw [hsame cfg h1, h2'] at h2; cases h2; rfl
  subst hp
  have hpart : part = part' := by
    cases kind with
    | body => have := h3.symm.trans h3'; cases this; rfl
    | floor =>
      obtain ⟨x, hx, hy⟩ := h3
      obtain ⟨x', hx', hy'⟩ := h3'
      have e1 : x = x' := by have := hx.symm.trans hx'; cases this; rfl
      subst e1
      have := hy.symm.trans hy'; cases this; rfl
    | palm => have := h3.symm.trans h3'; cases this; rfl
    | support => have := h3.symm.trans h3'; cases this; rfl
  subst hpart
  have hmesh : mesh = mesh' := by
    obtain ⟨ts, hts, rfl⟩ := h4
    obtain ⟨ts', hts', rfl⟩ := h4'
    have e1 := mapM_ok_iff.mpr hts
    have e2 := mapM_ok_iff.mpr hts'
    rw [e1] at e2
    cases e2; rfl
  subst hmesh
  exact ⟨mesh, b, b', h6, h6', C43_format _ _ h5', C43_format _ _ h5⟩

/-! ### A keyboard with two faces per part -/

namespace Example

/-- A triangle of the example. -/
def t0 : Tri Vec := ⟨⟨0, 0, 0⟩, ⟨1, 0, 0⟩, ⟨0, 2, 0⟩⟩

/-- Each part has one triangle and two faces; the left plan is a different one; all optional parts exist. -/
noncomputable def code : Code Unit Side ℝ where
  init _ := .ok ()
  check _ := .ok ()
  hasKnob _ := .ok true
  hasPalm _ := .ok true
  hasSupport _ := .ok true
  hasPcb _ := .ok true
  knob _ := .ok [t0]
  plan _ s := .ok s
  body _ _ := .ok ⟨[t0], [1, 2]⟩
  floor _ _ _ := .ok ⟨[], [3, 4]⟩
  palm _ s := .ok ⟨[], if s = .left then [5] else [6]⟩
  support _ _ := .ok ⟨[], [7]⟩
  pcb _ _ _ := .ok "pads"
  triangulate _ := .ok [t0]
  f32 x := some (if x = 0 then 0 else 63, 0, 0, 0)

theorem bytes_ok (ts : List (Tri Vec)) (hl : ts.length < 10) (h : ∀ t ∈ ts, t = t0 ∨ t = mirrored t0) :
    ∃ b, toBytes code.f32 ts = .ok b := by
  refine (C43_succeeds _).mpr ⟨by omega, ?_⟩
  intro t ht
  rcases h t ht with rfl | rfl
  · refine ⟨⟨0, 0, 1⟩, ⟨by norm_num [Vec.dot], 2, by norm_num, ?_⟩, ?_⟩
    · ext <;> norm_num [Geo.Spec.normalOf, Vec.cross, t0]
    · simp [Fits, code]
  · refine ⟨⟨0, 0, 1⟩, ⟨by norm_num [Vec.dot], 2, by norm_num, ?_⟩, ?_⟩
    · ext <;> norm_num [Geo.Spec.normalOf, Vec.cross, t0, mirrored]
    · simp [Fits, code]

/-- The chunks in their order. -/
def fwd (n : ℕ) : List ℕ := List.range (chunkCount n (chunkSize n 1))

theorem makes : ∃ files, make code [] 1 false fwd = .ok files := by
  obtain ⟨b1, h1⟩ := bytes_ok [t0] (by simp) (by simp)
  obtain ⟨b2, h2⟩ := bytes_ok [mirrored t0] (by simp) (by simp)
  obtain ⟨b3, h3⟩ := bytes_ok [t0, t0] (by simp) (by simp)
  obtain ⟨b4, h4⟩ := bytes_ok [mirrored t0, mirrored t0] (by simp) (by simp)
  obtain ⟨b5, h5⟩ := bytes_ok [t0, t0, t0] (by simp) (by simp)
  obtain ⟨b6, h6⟩ := bytes_ok [mirrored t0, mirrored t0, mirrored t0] (by simp) (by simp)
  have l1 : isLeft "body-right" = false := by decide +kernel
  have l2 : isLeft "body-left" = true := by decide +kernel
  have l3 : isLeft "floor-right" = false := by decide +kernel
  have l4 : isLeft "floor-left" = true := by decide +kernel
  have l5 : isLeft "palm-right" = false := by decide +kernel
  have l6 : isLeft "palm-left" = true := by decide +kernel
  have l7 : isLeft "support-right" = false := by decide +kernel
  have l8 : isLeft "support-left" = true := by decide +kernel
  have hc : combine [("body-right", (⟨[t0], [1, 2]⟩ : Part ℝ)), ("body-left", ⟨[t0], [1, 2]⟩), ("floor-right", ⟨[], [3, 4]⟩),
      ("floor-left", ⟨[], [3, 4]⟩), ("palm-right", ⟨[], [6]⟩), ("palm-left", ⟨[], [5]⟩), ("support-right", ⟨[], [7]⟩),
      ("support-left", ⟨[], [7]⟩)] (List.replicate 12 [t0]) = .ok
      [("body-right", [t0, t0, t0]), ("body-left", [mirrored t0, mirrored t0, mirrored t0]), ("floor-right", [t0, t0]),
       ("floor-left", [mirrored t0, mirrored t0]), ("palm-right", [t0]), ("palm-left", [mirrored t0]),
       ("support-right", [t0]), ("support-left", [mirrored t0])] := by
    simp [combine, popFaces, mirrorLeft, List.replicate, l1, l2, l3, l4, l5, l6, l7, l8, bind, Except.bind, pure,
      Except.pure, mirrored_eq]
  have hp : ∀ files, ∃ out, partFiles code.f32
      [("body-right", [t0, t0, t0]), ("body-left", [mirrored t0, mirrored t0, mirrored t0]), ("floor-right", [t0, t0]),
       ("floor-left", [mirrored t0, mirrored t0]), ("palm-right", [t0]), ("palm-left", [mirrored t0]),
       ("support-right", [t0]), ("support-left", [mirrored t0])] files = .ok out := by
    intro files
    simp [partFiles, h1, h2, h3, h4, h5, h6, bind, Except.bind]
  have hk : knobFiles code () = .ok (setItem [] "rotary-knob.stl" (.bytes b1)) := by
    unfold knobFiles
    have : code.knob () = .ok [t0] := rfl
    have e : code.hasKnob () = .ok true := rfl
    simp [bind, Except.bind, pure, Except.pure, this, h1, e]
  obtain ⟨out, ho⟩ := hp (setItem (setItem [] "rotary-knob.stl" (.bytes b1)) "pcb-positions.kicad_mod" (.text "pads"))
  refine ⟨out, ?_⟩
  rw [← ho]
  have hf : triangulateAll code 1 fwd [1, 2, 1, 2, 3, 4, 3, 4, 6, 5, 7, 7] = .ok (List.replicate 12 [t0]) := rfl
  have e : make code [] 1 false fwd = (do
      let files ← knobFiles code ()
      let files ← pcbFiles code () .right .left files
      let faceTriangles ← triangulateAll code 1 fwd [1, 2, 1, 2, 3, 4, 3, 4, 6, 5, 7, 7]
      let triangles ← combine [("body-right", (⟨[t0], [1, 2]⟩ : Part ℝ)), ("body-left", ⟨[t0], [1, 2]⟩), ("floor-right", ⟨[], [3, 4]⟩),
        ("floor-left", ⟨[], [3, 4]⟩), ("palm-right", ⟨[], [6]⟩), ("palm-left", ⟨[], [5]⟩), ("support-right", ⟨[], [7]⟩),
        ("support-left", ⟨[], [7]⟩)] faceTriangles
      partFiles code.f32 triangles files) := rfl
  rw [e, hk, hf]
  simp only [bind, Except.bind, hc]
  rfl

theorem completes (n w : ℕ) : Completes n w (List.range (chunkCount n (chunkSize n w))).reverse :=
  List.reverse_perm _

/-- With three threads that complete the chunks in reverse order, the example has the same files. -/
example : ∃ files, make code [] 3 false (fun n => (List.range (chunkCount n (chunkSize n 3))).reverse) = .ok files ∧
    files.map Prod.fst = ["rotary-knob.stl", "pcb-positions.kicad_mod", "body-right.stl", "body-left.stl",
      "floor-right.stl", "floor-left.stl", "palm-right.stl", "palm-left.stl", "support-right.stl", "support-left.stl"] := by
  obtain ⟨files, h⟩ := makes
  have h' := C45_threads code [] 1 3 false _ (fun n => (List.range (chunkCount n (chunkSize n 3))).reverse)
    (fun n => ?_) (fun n => completes n 3) ?_ files h
  · refine ⟨files, h', ?_⟩
    obtain ⟨_, knob, palm, support, pcb, -, h2, h3, h4, -⟩ := C44_names code [] 3 false _ files (fun n => completes n 3) h'
    obtain ⟨h5, h6, h7⟩ := h3 rfl
    cases h2; cases h5; cases h6; cases h7
    rw [h4]; rfl
  · exact List.Perm.refl _
  · rintro cfg plan part h
    cases h
    simp

end Example

end Chrumm.App
