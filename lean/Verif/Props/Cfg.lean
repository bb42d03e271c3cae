import Verif.Spec.Config

/-! C48, C49, C50: configurations. -/

namespace Chrumm.App
open Spec

variable {ident : String → Prop}

theorem bind_ok {α β : Type} {x : Py α} {f : α → Py β} {b : β} (h : (x >>= f) = .ok b) :
    ∃ a, x = .ok a ∧ f a = .ok b := by
  cases x with
  | error e => cases h
  | ok a => exact ⟨a, rfl, h⟩

/-- A public path gets a value. -/
def GivesP (ident : String → Prop) (o : List (String × Json)) (p : List String) (w : Json) : Prop :=
  PublicPath ident p ∧ Gives o p w

theorem entry_cons (key : String) (v : Json) (rest) (k : String) :
    entry ((key, v) :: rest) k = if k = key then some v else entry rest k := by
  unfold entry
  rw [List.lookup_cons]
  by_cases h : k = key
  · simp [h]
  · rw [beq_eq_false_iff_ne.mpr h, if_neg h]

theorem entry_none {rest : List (String × Json)} {key : String} (h : key ∉ rest.map Prod.fst) :
    entry rest key = none := by
  unfold entry
  rw [List.lookup_eq_none_iff]
  intro e he
  simp only [bne_iff_ne, ne_eq, beq_eq_false_iff_ne]
  rintro rfl
  exact h (List.mem_map_of_mem he)

theorem at_cons (o : List (String × Json)) (k : String) (p : List String) :
    at? o (k :: p) = if p = [] then entry o k else
      match entry o k with
      | some (.obj o') => at? o' p
      | _ => none := by
  cases p with
  | nil => simp [at?]
  | cons a p =>
    simp only [at?, List.cons_ne_nil, if_false]
    rcases entry o k with _ | (_ | _ | _ | _ | _ | _) <;> rfl

theorem value_cons (d : Dict) (k : String) (p : List String) :
    value d (k :: p) = match d k with
      | some (.leaf j) => if p = [] then some j else none
      | some (.space m) => value m p
      | none => none := by
  cases p with
  | nil => simp only [value]; rcases d k with _ | (_ | _) <;> simp [value]
  | cons => simp only [value]; rcases d k with _ | (_ | _) <;> simp

/-- What happens to the value at a path in one merge. -/
structure Merged (ident : String → Prop) (o : List (String × Json)) (d d' : Dict) : Prop where
  given : ∀ p w, GivesP ident o p w → ∃ k v, p.getLast? = some k ∧ convert k w = .ok v ∧ value d' p = some v
  cut : ∀ p, (∀ w, ¬ GivesP ident o p w) → (∃ q w, q ≠ [] ∧ q <+: p ∧ GivesP ident o q w) → value d' p = none
  kept : ∀ p, (∀ q w, q <+: p → ¬ GivesP ident o q w) → value d' p = value d p

theorem not_gives_nil (o : List (String × Json)) (w : Json) : ¬ GivesP ident o [] w := by
  rintro ⟨-, h, -⟩; simp [at?] at h

/-- Other first keys are as in the rest. -/
theorem gives_skip {key : String} {v : Json} {rest : List (String × Json)} {k : String} {p : List String} {w : Json}
    (h : k ≠ key ∨ ¬ isPublic ident key ∧ key ∉ rest.map Prod.fst) :
    GivesP ident ((key, v) :: rest) (k :: p) w ↔ GivesP ident rest (k :: p) w := by
  by_cases hk : k = key
  · subst hk
    rcases h with h | ⟨h, -⟩
    · exact absurd rfl h
    · constructor <;> rintro ⟨hp, -⟩ <;> exact absurd (hp k List.mem_cons_self) h
  · unfold GivesP Gives
    rw [at_cons, at_cons, entry_cons, if_neg hk]

theorem gives_same {key : String} {v : Json} {rest : List (String × Json)} {p : List String} {w : Json}
    (hv : ∀ o, v ≠ .obj o) (hk : isPublic ident key) :
    GivesP ident ((key, v) :: rest) (key :: p) w ↔ p = [] ∧ w = v := by
  unfold GivesP Gives
  rw [at_cons, entry_cons, if_pos rfl]
  constructor
  · rintro ⟨-, h, -⟩
    by_cases hp : p = []
    · rw [if_pos hp] at h; cases h; exact ⟨hp, rfl⟩
    · rw [if_neg hp] at h
      cases v <;> simp at h
      exact absurd rfl (hv _)
  · rintro ⟨rfl, rfl⟩
    exact ⟨fun k hk' => by simp at hk'; subst hk'; exact hk, by simp, hv⟩

theorem gives_deep {key : String} {o rest : List (String × Json)} {p : List String} {w : Json}
    (hk : isPublic ident key) :
    GivesP ident ((key, .obj o) :: rest) (key :: p) w ↔ GivesP ident o p w := by
  unfold GivesP Gives
  rw [at_cons, entry_cons, if_pos rfl]
  constructor
  · rintro ⟨h1, h2, h3⟩
    by_cases hp : p = []
    · rw [if_pos hp] at h2; cases h2; exact absurd rfl (h3 _)
    · rw [if_neg hp] at h2
      exact ⟨fun k hk => h1 k (.tail _ hk), h2, h3⟩
  · rintro ⟨h1, h2, h3⟩
    have hp : p ≠ [] := by rintro rfl; simp [at?] at h2
    rw [if_neg hp]
    exact ⟨fun k hk' => by
      rcases List.mem_cons.mp hk' with rfl | hk'
      · exact hk
      · exact h1 k hk', h2, h3⟩

theorem gives_absent {rest : List (String × Json)} {key : String} (h : key ∉ rest.map Prod.fst) (p : List String)
    (w : Json) : ¬ GivesP ident rest (key :: p) w := by
  rintro ⟨-, h', -⟩
  rw [at_cons, entry_none h] at h'
  split_ifs at h'

theorem prefix_cons {k : String} {p q : List String} (hq : q ≠ []) (h : q <+: k :: p) : ∃ q', q = k :: q' ∧ q' <+: p := by
  cases q with
  | nil => exact absurd rfl hq
  | cons a q =>
    rw [List.cons_prefix_cons] at h
    exact ⟨q, by rw [h.1], h.2⟩

/-- The first key decides. -/
theorem Merged.of {o : List (String × Json)} {d d' : Dict}
    (h : ∀ k p, (∀ w, GivesP ident o (k :: p) w → ∃ k' v, (k :: p).getLast? = some k' ∧ convert k' w = .ok v ∧
        value d' (k :: p) = some v) ∧
      ((∀ w, ¬ GivesP ident o (k :: p) w) → (∃ q w, q <+: p ∧ GivesP ident o (k :: q) w) → value d' (k :: p) = none) ∧
      ((∀ q w, q <+: p → ¬ GivesP ident o (k :: q) w) → value d' (k :: p) = value d (k :: p))) :
    Merged ident o d d' := by
  refine ⟨fun p w hg => ?_, fun p hn he => ?_, fun p hn => ?_⟩
  · cases p with
    | nil => exact absurd hg (not_gives_nil _ _)
    | cons k p => exact (h k p).1 w hg
  · cases p with
    | nil => rfl
    | cons k p =>
      obtain ⟨q, w, hq, hp, hg⟩ := he
      obtain ⟨q', rfl, hq'⟩ := prefix_cons hq hp
      exact (h k p).2.1 hn ⟨q', w, hq', hg⟩
  · cases p with
    | nil => rfl
    | cons k p => exact (h k p).2.2 fun q w hq => hn (k :: q) w (by rw [List.cons_prefix_cons]; exact ⟨rfl, hq⟩)

theorem Merged.at {o : List (String × Json)} {d d' : Dict} (h : Merged ident o d d') (k : String) (p : List String) :
    (∀ w, GivesP ident o (k :: p) w → ∃ k' v, (k :: p).getLast? = some k' ∧ convert k' w = .ok v ∧
        value d' (k :: p) = some v) ∧
      ((∀ w, ¬ GivesP ident o (k :: p) w) → (∃ q w, q <+: p ∧ GivesP ident o (k :: q) w) → value d' (k :: p) = none) ∧
      ((∀ q w, q <+: p → ¬ GivesP ident o (k :: q) w) → value d' (k :: p) = value d (k :: p)) := by
  refine ⟨fun w hg => h.given _ w hg, fun hn ⟨q, w, hq, hg⟩ => h.cut _ hn ⟨k :: q, w, by simp, by
    rw [List.cons_prefix_cons]; exact ⟨rfl, hq⟩, hg⟩, fun hn => h.kept _ fun q w hq hg => ?_⟩
  by_cases hq0 : q = []
  · subst hq0; exact not_gives_nil _ _ hg
  · obtain ⟨q', rfl, hq'⟩ := prefix_cons hq0 hq
    exact hn q' w hq' hg

theorem merge_spec : ∀ (o : List (String × Json)) (d d' : Dict), NoDuplicates (.obj o) →
    mergeDicts ident o d = .ok d' → Merged ident o d d' := by
  intro o d
  induction o, d using mergeDicts.induct ident with
  | case1 d =>
    intro d' _ h
    rw [mergeDicts] at h
    cases h
    refine ⟨fun p w hg => ?_, fun p _ he => ?_, fun p _ => rfl⟩
    · obtain ⟨-, h, -⟩ := hg
      cases p with
      | nil => simp [at?] at h
      | cons k p => rw [at_cons] at h; simp [entry] at h
    · obtain ⟨q, w, -, -, -, h, -⟩ := he
      cases q with
      | nil => simp [at?] at h
      | cons k p => rw [at_cons] at h; simp [entry] at h
  | case2 key rest d hpub o iho ihr =>
    intro d' hnd h
    have hnd' := hnd
    obtain - | - | - | - | - | ⟨_, hkeys, hin⟩ := hnd'
    rw [List.map_cons, List.nodup_cons] at hkeys
    rw [mergeDicts, if_pos hpub] at h
    obtain ⟨sub, hsub, h⟩ := bind_ok h
    obtain ⟨sub', hsub', h⟩ := bind_ok h
    have m1 := iho sub sub' (hin _ List.mem_cons_self) hsub'
    have m2 := ihr sub' d' (.obj _ hkeys.2 fun e he => hin e (.tail _ he)) h
    refine Merged.of fun k p => ?_
    by_cases hk : k = key
    · subst hk
      have hv : value d' (k :: p) = value sub' p := by
        rw [(m2.at k p).2.2 fun q w _ => gives_absent hkeys.1 q w, value_cons]
        simp [Dict.set]
      have hv0 : value d (k :: p) = value sub p := by
        rw [value_cons]
        unfold subDict at hsub
        rcases hd : d k with _ | (_ | m) <;> rw [hd] at hsub <;> simp at hsub
        · rw [← hsub]
          cases p with
          | nil => rfl
          | cons a p => rw [value_cons]
        · rw [← hsub]
      have hg : ∀ q w, GivesP ident ((k, .obj o) :: rest) (k :: q) w ↔ GivesP ident o q w := fun q w => gives_deep hpub
      rw [hv, hv0]
      simp only [hg]
      refine ⟨fun w hw => ?_, fun hn ⟨q, w, hq, hw⟩ => ?_, fun hn => ?_⟩
      · obtain ⟨k', v, h1, h2, h3⟩ := m1.given p w hw
        refine ⟨k', v, ?_, h2, h3⟩
        rw [List.getLast?_cons, h1]; rfl
      · exact m1.cut p hn ⟨q, w, by rintro rfl; exact not_gives_nil _ _ hw, hq, hw⟩
      · exact m1.kept p hn
    · have hv0 : value (d.set key (.space sub')) (k :: p) = value d (k :: p) := by
        rw [value_cons, value_cons]; simp [Dict.set, hk]
      have hg : ∀ q w, GivesP ident ((key, .obj o) :: rest) (k :: q) w ↔ GivesP ident rest (k :: q) w :=
        fun q w => gives_skip (.inl hk)
      rw [← hv0]
      simp only [hg]
      exact m2.at k p
  | case3 key rest d hpub v hv ih =>
    intro d' hnd h
    have hnd' := hnd
    obtain - | - | - | - | - | ⟨_, hkeys, hin⟩ := hnd'
    rw [List.map_cons, List.nodup_cons] at hkeys
    have hno : ∀ o, v ≠ .obj o := fun o ho => hv o ho
    rw [mergeDicts, if_pos hpub] at h
    swap
    · exact hv
    obtain ⟨w0, hw0, h⟩ := bind_ok h
    have m2 := ih w0 d' (.obj _ hkeys.2 fun e he => hin e (.tail _ he)) h
    refine Merged.of fun k p => ?_
    by_cases hk : k = key
    · subst hk
      have hv : value d' (k :: p) = if p = [] then some w0 else none := by
        rw [(m2.at k p).2.2 fun q w _ => gives_absent hkeys.1 q w, value_cons]
        simp [Dict.set]
      have hg : ∀ q w, GivesP ident ((k, v) :: rest) (k :: q) w ↔ q = [] ∧ w = v := fun q w => gives_same hno hpub
      rw [hv]
      simp only [hg]
      refine ⟨?_, fun hn _ => ?_, fun hn => ?_⟩
      · rintro w ⟨rfl, rfl⟩
        exact ⟨k, w0, rfl, hw0, by simp⟩
      · rw [if_neg]
        intro hp
        exact hn v ⟨hp, rfl⟩
      · exact absurd ⟨rfl, rfl⟩ (hn [] v List.nil_prefix)
    · have hv0 : value (d.set key (.leaf w0)) (k :: p) = value d (k :: p) := by
        rw [value_cons, value_cons]; simp [Dict.set, hk]
      have hg : ∀ q w, GivesP ident ((key, v) :: rest) (k :: q) w ↔ GivesP ident rest (k :: q) w :=
        fun q w => gives_skip (.inl hk)
      rw [← hv0]
      simp only [hg]
      exact m2.at k p
  | case4 key v rest d hpub ih =>
    intro d' hnd h
    have hnd' := hnd
    obtain - | - | - | - | - | ⟨_, hkeys, hin⟩ := hnd'
    rw [List.map_cons, List.nodup_cons] at hkeys
    unfold mergeDicts at h
    rw [if_neg hpub] at h
    have m2 := ih d' (.obj _ hkeys.2 fun e he => hin e (.tail _ he)) h
    refine Merged.of fun k p => ?_
    have hg : ∀ q w, GivesP ident ((key, v) :: rest) (k :: q) w ↔ GivesP ident rest (k :: q) w :=
      fun q w => gives_skip (.inr ⟨hpub, hkeys.1⟩)
    simp only [hg]
    exact m2.at k p

theorem convert_ok {p : List String} {k : String} {w v : Json} (hk : p.getLast? = some k) :
    convert k w = .ok v ↔ Stored p w v := by
  unfold convert Stored AnglePath isAngle
  simp only [hk, Option.some.injEq, exists_eq_left']
  by_cases h : k.toLower.endsWith "angle" = true
  · rw [if_pos h]
    simp only [h, true_and, not_true, false_and, or_false]
    cases w with
    | bool b => cases b <;> simp [radians, number, eq_comm, mul_div_assoc]
    | _ => simp [radians, number, eq_comm, mul_div_assoc]
  · rw [if_neg h]
    simp [h, eq_comm]

theorem convert_error {p : List String} {k : String} {w : Json} {e : Exn} (hk : p.getLast? = some k)
    (h : convert k w = .error e) : e = .typeError ∧ AnglePath p ∧ number w = none := by
  unfold convert isAngle at h
  by_cases hk' : k.toLower.endsWith "angle" = true
  · rw [if_pos hk'] at h
    refine ⟨?_, ⟨k, hk, hk'⟩, ?_⟩ <;> cases w <;> simp_all [radians, number]
  · rw [if_neg hk'] at h; cases h

theorem public_prefix {p q : List String} (hp : PublicPath ident p) (hq : q <+: p) : PublicPath ident q :=
  fun k hk => hp k (hq.subset hk)

/-- One merge, for public paths. -/
theorem merged_iff {o : List (String × Json)} {d d' : Dict} (h : Merged ident o d d') {p : List String}
    (hp : PublicPath ident p) (v : Json) :
    value d' p = some v ↔ (∃ w, Gives o p w ∧ Stored p w v) ∨
      ((∀ q w, q <+: p → ¬ Gives o q w) ∧ value d p = some v) := by
  by_cases hg : ∃ w, Gives o p w
  · obtain ⟨w, hw⟩ := hg
    obtain ⟨k, v', hk, hc, hv⟩ := h.given p w ⟨hp, hw⟩
    rw [hv]
    constructor
    · rintro h'
      cases h'
      exact .inl ⟨w, hw, (convert_ok hk).mp hc⟩
    · rintro (⟨w', hw', hs⟩ | ⟨hn, -⟩)
      · have : w' = w := by
          have := hw'.1.symm.trans hw.1
          simpa using this
        subst this
        rw [← convert_ok hk, hc] at hs
        cases hs; rfl
      · exact absurd hw (hn p w List.prefix_rfl)
  · have hg' : ∀ w, ¬ GivesP ident o p w := fun w hw => hg ⟨w, hw.2⟩
    by_cases hq : ∃ q w, q <+: p ∧ Gives o q w
    · obtain ⟨q, w, hq, hw⟩ := hq
      have hw' : GivesP ident o q w := ⟨public_prefix hp hq, hw⟩
      rw [h.cut p hg' ⟨q, w, by rintro rfl; exact not_gives_nil _ _ hw', hq, hw'⟩]
      constructor
      · simp
      · rintro (⟨w', hw', -⟩ | ⟨hn, -⟩)
        · exact absurd ⟨w', hw'⟩ hg
        · exact absurd hw (hn q w hq)
    · rw [h.kept p fun q w hqp hw => hq ⟨q, w, hqp, hw.2⟩]
      constructor
      · intro hv
        exact .inr ⟨fun q w hqp hw => hq ⟨q, w, hqp, hw⟩, hv⟩
      · rintro (⟨w', hw', -⟩ | ⟨-, hv⟩)
        · exact absurd ⟨w', hw'⟩ hg
        · exact hv

theorem foldl_snoc (g : Dict) (docs : List Json) (j : Json) :
    init ident g (docs ++ [j]) = init ident g docs >>= fun d => mergeOne ident d j := by
  unfold init
  rw [List.foldlM_append]
  congr 1
  funext d
  simp

theorem init_nil (g : Dict) : init ident g [] = .ok (clear g) := rfl

theorem mergeOne_ok {d d' : Dict} {j : Json} (h : mergeOne ident d j = .ok d') :
    ∃ o, j = .obj o ∧ mergeDicts ident o d = .ok d' := by
  cases j <;> simp [mergeOne] at h
  exact ⟨_, rfl, h⟩

theorem value_clear (g : Dict) {p : List String} (hp : PublicPath ident p) : value (clear g) p = none := by
  cases p with
  | nil => rfl
  | cons k p =>
    have : clear g k = none := by
      unfold clear
      rw [if_neg]
      exact (hp k List.mem_cons_self).2
    rw [value_cons, this]

/-- C48. The value at a path is the one of the last configuration that gives it one, unless a later configuration
gives a value to a part of the path. -/
theorem C48_last_wins (globals : Dict) (docs : List Json) (d : Dict) (hdocs : ∀ j ∈ docs, NoDuplicates j)
    (h : init ident globals docs = .ok d) (p : List String) (hp : PublicPath ident p) (v : Json) :
    value d p = some v ↔ ∃ before o after w, docs = before ++ .obj o :: after ∧ Gives o p w ∧ Stored p w v ∧
      ∀ o', .obj o' ∈ after → ∀ q w', q <+: p → ¬ Gives o' q w' := by
  induction docs using List.reverseRecOn generalizing d v with
  | nil =>
    rw [init_nil] at h
    cases h
    rw [value_clear _ hp]
    simp
  | append_singleton docs j ih =>
    rw [foldl_snoc] at h
    obtain ⟨d0, h0, h⟩ := bind_ok h
    obtain ⟨o, rfl, h⟩ := mergeOne_ok h
    have m := merge_spec o d0 d (hdocs _ (by simp)) h
    rw [merged_iff m hp, ih d0 (fun j hj => hdocs j (by simp [hj])) h0]
    constructor
    · rintro (⟨w, hw, hs⟩ | ⟨hn, before, o1, after, w, rfl, hw, hs, hl⟩)
      · exact ⟨docs, o, [], w, rfl, hw, hs, by simp⟩
      · refine ⟨before, o1, after ++ [.obj o], w, by simp, hw, hs, ?_⟩
        intro o' ho'
        rcases List.mem_append.mp ho' with ho' | ho'
        · exact hl o' ho'
        · simp at ho'
          subst ho'
          exact hn
    · rintro ⟨before, o1, after, w, he, hw, hs, hl⟩
      rcases List.eq_nil_or_concat after with rfl | ⟨after', last, rfl⟩
      · have := List.append_inj' he rfl
        obtain ⟨rfl, h'⟩ := this
        simp at h'
        subst h'
        exact .inl ⟨w, hw, hs⟩
      · have he' : docs ++ [.obj o] = (before ++ .obj o1 :: after') ++ [last] := by
          rw [he]; simp
        obtain ⟨rfl, h'⟩ := List.append_inj' he' rfl
        simp at h'
        subst h'
        exact .inr ⟨hl o (by simp), before, o1, after', w, rfl, hw, hs, fun o' ho' => hl o' (by simp [ho'])⟩

theorem at_skip {key k : String} (h : k ≠ key) (v : Json) (rest : List (String × Json)) (p : List String) :
    at? ((key, v) :: rest) (k :: p) = at? rest (k :: p) := by
  rw [at_cons, at_cons, entry_cons, if_neg h]

theorem at_key (key : String) (v : Json) (rest : List (String × Json)) (p : List String) :
    at? ((key, v) :: rest) (key :: p) = if p = [] then some v else
      match v with
      | .obj o => at? o p
      | _ => none := by
  rw [at_cons, entry_cons, if_pos rfl]
  cases v <;> rfl

theorem at_absent {rest : List (String × Json)} {key : String} (h : key ∉ rest.map Prod.fst) (p : List String) :
    at? rest (key :: p) = none := by
  rw [at_cons, entry_none h]
  simp

theorem value_subDict {d sub : Dict} {k : String} (hsub : subDict d k = .ok sub) (p : List String) :
    value d (k :: p) = value sub p := by
  rw [value_cons]
  unfold subDict at hsub
  rcases hd : d k with _ | (_ | m) <;> rw [hd] at hsub <;> simp at hsub
  · rw [← hsub]
    cases p with
    | nil => rfl
    | cons a p => rw [value_cons]
  · rw [← hsub]

theorem value_set {d : Dict} {k key : String} (h : k ≠ key) (v : Val) (p : List String) :
    value (d.set key v) (k :: p) = value d (k :: p) := by
  rw [value_cons, value_cons]; simp [Dict.set, h]

theorem badAngle_cons {key : String} {v : Json} {rest : List (String × Json)} (hk : key ∉ rest.map Prod.fst)
    (h : BadAngle ident rest) : BadAngle ident ((key, v) :: rest) := by
  obtain ⟨p, w, hp, ha, ⟨hg, hg'⟩, hw⟩ := h
  cases p with
  | nil => simp [at?] at hg
  | cons k p =>
    by_cases hkk : k = key
    · subst hkk; rw [at_absent hk] at hg; cases hg
    · exact ⟨k :: p, w, hp, ha, ⟨by rw [at_skip hkk]; exact hg, hg'⟩, hw⟩

theorem clash_cons {key : String} {v : Json} {rest : List (String × Json)} {d : Dict} {x : Val}
    (hk : key ∉ rest.map Prod.fst) : Clash ident (d.set key x) rest ↔
      ∃ k p v', k ≠ key ∧ PublicPath ident (k :: p) ∧ HasObject ((key, v) :: rest) (k :: p) ∧ value d (k :: p) = some v' := by
  constructor
  · rintro ⟨p, v', hp, ⟨o, ho⟩, hv⟩
    cases p with
    | nil => simp [at?] at ho
    | cons k p =>
      by_cases hkk : k = key
      · subst hkk; rw [at_absent hk] at ho; cases ho
      · refine ⟨k, p, v', hkk, hp, ⟨o, by rw [at_skip hkk]; exact ho⟩, ?_⟩
        rwa [value_set hkk] at hv
  · rintro ⟨k, p, v', hkk, hp, ⟨o, ho⟩, hv⟩
    exact ⟨k :: p, v', hp, ⟨o, by rwa [at_skip hkk] at ho⟩, by rw [value_set hkk]; exact hv⟩

theorem public_cons {k : String} {p : List String} (hk : isPublic ident k) (hp : PublicPath ident p) :
    PublicPath ident (k :: p) := by
  intro k' hk'
  rcases List.mem_cons.mp hk' with rfl | hk'
  · exact hk
  · exact hp k' hk'

theorem bind_error {α β : Type} {x : Py α} {f : α → Py β} {e : Exn} (h : (x >>= f) = .error e) :
    x = .error e ∨ ∃ a, x = .ok a ∧ f a = .error e := by
  cases x with
  | error e' => exact .inl (by cases h; rfl)
  | ok a => exact .inr ⟨a, rfl, h⟩

theorem merge_error : ∀ (o : List (String × Json)) (d : Dict) (e : Exn), NoDuplicates (.obj o) →
    mergeDicts ident o d = .error e → e = .typeError ∧ BadAngle ident o ∨ e = .attributeError ∧ Clash ident d o := by
  intro o d
  induction o, d using mergeDicts.induct ident with
  | case1 d => intro e _ h; rw [mergeDicts] at h; cases h
  | case2 key rest d hpub o iho ihr =>
    intro e hnd h
    obtain - | - | - | - | - | ⟨_, hkeys, hin⟩ := hnd
    rw [List.map_cons, List.nodup_cons] at hkeys
    rw [mergeDicts, if_pos hpub] at h
    rcases bind_error h with h | ⟨sub, hsub, h⟩
    · right
      unfold subDict at h
      rcases hd : d key with _ | (j | m) <;> rw [hd] at h <;> simp at h
      refine ⟨h.symm, [key], j, public_cons hpub (by simp [PublicPath]), ⟨o, by rw [at_key]; simp⟩, ?_⟩
      rw [value_cons, hd]; simp
    rcases bind_error h with h | ⟨sub', hsub', h⟩
    · rcases iho sub e (hin _ List.mem_cons_self) h with ⟨he, p, w, hp, ⟨k, hk, ha⟩, ⟨hg, hg'⟩, hw⟩ |
        ⟨he, p, v, hp, ⟨o', ho⟩, hv⟩
      · left
        have hp0 : p ≠ [] := by rintro rfl; simp [at?] at hg
        refine ⟨he, key :: p, w, public_cons hpub hp, ⟨k, by rw [List.getLast?_cons, hk]; rfl, ha⟩,
          ⟨by rw [at_key, if_neg hp0]; exact hg, hg'⟩, hw⟩
      · right
        have hp0 : p ≠ [] := by rintro rfl; simp [at?] at ho
        exact ⟨he, key :: p, v, public_cons hpub hp, ⟨o', by rw [at_key, if_neg hp0]; exact ho⟩,
          by rw [value_subDict hsub]; exact hv⟩
    · rcases ihr sub' e (.obj _ hkeys.2 fun e he => hin e (.tail _ he)) h with ⟨he, hb⟩ | ⟨he, hc⟩
      · exact .inl ⟨he, badAngle_cons hkeys.1 hb⟩
      · obtain ⟨k, p, v', -, h1, h2, h3⟩ := (clash_cons (v := .obj o) hkeys.1).mp hc
        exact .inr ⟨he, k :: p, v', h1, h2, h3⟩
  | case3 key rest d hpub v hv ih =>
    intro e hnd h
    obtain - | - | - | - | - | ⟨_, hkeys, hin⟩ := hnd
    rw [List.map_cons, List.nodup_cons] at hkeys
    rw [mergeDicts, if_pos hpub] at h
    swap
    · exact hv
    rcases bind_error h with h | ⟨w, hw, h⟩
    · left
      obtain ⟨h1, h2, h3⟩ := convert_error (p := [key]) rfl h
      exact ⟨h1, [key], v, public_cons hpub (by simp [PublicPath]), h2, ⟨by rw [at_key]; simp, fun o ho => hv o ho⟩, h3⟩
    · rcases ih w e (.obj _ hkeys.2 fun e he => hin e (.tail _ he)) h with ⟨he, hb⟩ | ⟨he, hc⟩
      · exact .inl ⟨he, badAngle_cons hkeys.1 hb⟩
      · obtain ⟨k, p, v', -, h1, h2, h3⟩ := (clash_cons (v := v) hkeys.1).mp hc
        exact .inr ⟨he, k :: p, v', h1, h2, h3⟩
  | case4 key v rest d hpub ih =>
    intro e hnd h
    obtain - | - | - | - | - | ⟨_, hkeys, hin⟩ := hnd
    rw [List.map_cons, List.nodup_cons] at hkeys
    unfold mergeDicts at h
    rw [if_neg hpub] at h
    rcases ih e (.obj _ hkeys.2 fun e he => hin e (.tail _ he)) h with ⟨he, hb⟩ | ⟨he, p, v', hp, ⟨o, ho⟩, hv⟩
    · exact .inl ⟨he, badAngle_cons hkeys.1 hb⟩
    · refine .inr ⟨he, p, v', hp, ⟨o, ?_⟩, hv⟩
      cases p with
      | nil => simp [at?] at ho
      | cons k p =>
        rw [at_skip]
        · exact ho
        · rintro rfl; exact hpub (hp k List.mem_cons_self)

theorem merge_ok : ∀ (o : List (String × Json)) (d d' : Dict), NoDuplicates (.obj o) →
    mergeDicts ident o d = .ok d' → ¬ Clash ident d o := by
  intro o d
  induction o, d using mergeDicts.induct ident with
  | case1 d =>
    rintro d' _ - ⟨p, v, -, ⟨o, ho⟩, -⟩
    cases p with
    | nil => simp [at?] at ho
    | cons k p => rw [at_cons] at ho; simp [entry] at ho
  | case2 key rest d hpub o iho ihr =>
    rintro d' hnd h ⟨p, v, hp, ⟨o', ho⟩, hv⟩
    obtain - | - | - | - | - | ⟨_, hkeys, hin⟩ := hnd
    rw [List.map_cons, List.nodup_cons] at hkeys
    rw [mergeDicts, if_pos hpub] at h
    obtain ⟨sub, hsub, h⟩ := bind_ok h
    obtain ⟨sub', hsub', h⟩ := bind_ok h
    cases p with
    | nil => simp [at?] at ho
    | cons k p =>
      by_cases hk : k = key
      · subst hk
        rw [value_subDict hsub] at hv
        have hp0 : p ≠ [] := by rintro rfl; simp [value] at hv
        rw [at_key, if_neg hp0] at ho
        exact iho sub sub' (hin _ List.mem_cons_self) hsub' ⟨p, v, fun k hk => hp k (.tail _ hk), ⟨o', ho⟩, hv⟩
      · exact ihr sub' d' (.obj _ hkeys.2 fun e he => hin e (.tail _ he)) h
          ((clash_cons (v := .obj o) hkeys.1).mpr ⟨k, p, v, hk, hp, ⟨o', ho⟩, hv⟩)
  | case3 key rest d hpub v0 hv0 ih =>
    rintro d' hnd h ⟨p, v, hp, ⟨o', ho⟩, hv⟩
    obtain - | - | - | - | - | ⟨_, hkeys, hin⟩ := hnd
    rw [List.map_cons, List.nodup_cons] at hkeys
    rw [mergeDicts, if_pos hpub] at h
    swap
    · exact hv0
    obtain ⟨w, hw, h⟩ := bind_ok h
    cases p with
    | nil => simp [at?] at ho
    | cons k p =>
      by_cases hk : k = key
      · subst hk
        rw [at_key] at ho
        split_ifs at ho with hp0
        · cases ho; exact hv0 _ rfl
        · cases v0 <;> simp at ho
          exact hv0 _ rfl
      · exact ih w d' (.obj _ hkeys.2 fun e he => hin e (.tail _ he)) h
          ((clash_cons (v := v0) hkeys.1).mpr ⟨k, p, v, hk, hp, ⟨o', ho⟩, hv⟩)
  | case4 key v0 rest d hpub ih =>
    rintro d' hnd h ⟨p, v, hp, ⟨o', ho⟩, hv⟩
    obtain - | - | - | - | - | ⟨_, hkeys, hin⟩ := hnd
    rw [List.map_cons, List.nodup_cons] at hkeys
    unfold mergeDicts at h
    rw [if_neg hpub] at h
    refine ih d' (.obj _ hkeys.2 fun e he => hin e (.tail _ he)) h ⟨p, v, hp, ⟨o', ?_⟩, hv⟩
    cases p with
    | nil => simp [at?] at ho
    | cons k p =>
      rw [at_skip] at ho
      · exact ho
      · rintro rfl; exact hpub (hp k List.mem_cons_self)

/-- C48. Loading fails exactly when one of the configurations is not an object, has an angle that is not a number, or
has an object where the configurations before it left a value. -/
theorem C48_fails (globals : Dict) (docs : List Json) (hdocs : ∀ j ∈ docs, NoDuplicates j) :
    (∃ e, init ident globals docs = .error e) ↔ ∃ before j after d, docs = before ++ j :: after ∧
      init ident globals before = .ok d ∧
      ((∀ o, j ≠ .obj o) ∨ ∃ o, j = .obj o ∧ (BadAngle ident o ∨ Clash ident d o)) := by
  induction docs using List.reverseRecOn with
  | nil => simp [init_nil]
  | append_singleton docs j ih =>
    have ih := ih fun j hj => hdocs j (by simp [hj])
    rw [foldl_snoc]
    rcases h0 : init ident globals docs with e0 | d0
    · have : ∃ e, init ident globals docs = .error e := ⟨e0, h0⟩
      obtain ⟨before, j', after, d, rfl, h1, h2⟩ := ih.mp this
      refine ⟨fun _ => ⟨before, j', after ++ [j], d, by simp, h1, h2⟩, fun _ => ⟨e0, rfl⟩⟩
    · have hno : ¬ ∃ e, init ident globals docs = .error e := by rw [h0]; simp
      rw [ih] at hno
      have key : (∃ e, mergeOne ident d0 j = .error e) ↔
          ((∀ o, j ≠ .obj o) ∨ ∃ o, j = .obj o ∧ (BadAngle ident o ∨ Clash ident d0 o)) := by
        by_cases hj : ∃ o, j = .obj o
        · obtain ⟨o, rfl⟩ := hj
          have hnd := hdocs (.obj o) (by simp)
          have : (∃ e, mergeOne ident d0 (.obj o) = .error e) ↔ (BadAngle ident o ∨ Clash ident d0 o) := by
            unfold mergeOne
            dsimp only
            constructor
            · rintro ⟨e, he⟩
              rcases merge_error o d0 e hnd he with ⟨-, h⟩ | ⟨-, h⟩
              · exact .inl h
              · exact .inr h
            · intro h
              rcases hm : mergeDicts ident o d0 with e | d'
              · exact ⟨e, rfl⟩
              · rcases h with ⟨p, w, hp, ha, hg, hw⟩ | h
                · obtain ⟨k, v, hk, hc, -⟩ := (merge_spec o d0 d' hnd hm).given p w ⟨hp, hg⟩
                  rw [convert_ok hk] at hc
                  rcases hc with ⟨-, x, hx, -⟩ | ⟨hc, -⟩
                  · rw [hw] at hx; cases hx
                  · exact absurd ha hc
                · exact absurd h (merge_ok o d0 d' hnd hm)
          rw [this]
          simp
        · push Not at hj
          constructor
          · intro _; exact .inl hj
          · intro _
            cases j <;> first | exact ⟨_, rfl⟩ | exact absurd rfl (hj _)
      show (∃ e, mergeOne ident d0 j = .error e) ↔ _
      rw [key]
      constructor
      · intro h
        exact ⟨docs, j, [], d0, rfl, h0, h⟩
      · rintro ⟨before, j', after, d, he, h1, h2⟩
        rcases List.eq_nil_or_concat after with rfl | ⟨after', last, rfl⟩
        · obtain ⟨rfl, h'⟩ := List.append_inj' he rfl
          simp at h'
          subst h'
          rw [h0] at h1
          cases h1
          exact h2
        · have he' : docs ++ [j] = (before ++ j' :: after') ++ [last] := by rw [he]; simp
          obtain ⟨rfl, h'⟩ := List.append_inj' he' rfl
          exact absurd ⟨before, j', after', d, rfl, h1, h2⟩ hno

/-- C48. Which exceptions can be raised. -/
theorem C48_exceptions (globals : Dict) (docs : List Json) (hdocs : ∀ j ∈ docs, NoDuplicates j) (e : Exn)
    (h : init ident globals docs = .error e) :
    ∃ before j after d, docs = before ++ j :: after ∧ init ident globals before = .ok d ∧
      ((e = .attributeError ∧ ∀ o, j ≠ .obj o) ∨ (e = .typeError ∧ ∃ o, j = .obj o ∧ BadAngle ident o) ∨
        (e = .attributeError ∧ ∃ o, j = .obj o ∧ Clash ident d o)) := by
  induction docs using List.reverseRecOn with
  | nil => rw [init_nil] at h; cases h
  | append_singleton docs j ih =>
    rw [foldl_snoc] at h
    rcases bind_error h with h | ⟨d, hd, h⟩
    · obtain ⟨before, j', after, d, rfl, h1, h2⟩ := ih (fun j hj => hdocs j (by simp [hj])) h
      exact ⟨before, j', after ++ [j], d, by simp, h1, h2⟩
    · refine ⟨docs, j, [], d, rfl, hd, ?_⟩
      by_cases hj : ∃ o, j = .obj o
      · obtain ⟨o, rfl⟩ := hj
        rcases merge_error o d e (hdocs _ (by simp)) h with ⟨he, h⟩ | ⟨he, h⟩
        · exact .inr (.inl ⟨he, o, rfl, h⟩)
        · exact .inr (.inr ⟨he, o, rfl, h⟩)
      · push Not at hj
        refine .inl ⟨?_, hj⟩
        cases j <;> simp [mergeOne] at h <;> first | exact h.symm | exact absurd rfl (hj _)

/-- C48. Configurations that agree on what is an object, and whose angles are numbers, are loaded. -/
theorem C48_succeeds (globals : Dict) (docs : List Json) (hdocs : ∀ j ∈ docs, NoDuplicates j)
    (hobj : ∀ j ∈ docs, ∃ o, j = .obj o)
    (hangle : ∀ o, .obj o ∈ docs → ∀ p w, AnglePath p → Gives o p w → ∃ x, number w = some x)
    (hsame : ∀ o o', .obj o ∈ docs → .obj o' ∈ docs → ∀ p w, HasObject o p → ¬ Gives o' p w) :
    ∃ d, init ident globals docs = .ok d := by
  rcases h : init ident globals docs with e | d
  · exfalso
    obtain ⟨before, j, after, d, rfl, h1, h2⟩ := (C48_fails globals docs hdocs).mp ⟨e, h⟩
    rcases h2 with h2 | ⟨o, rfl, ⟨p, w, hp, ha, hg, hw⟩ | ⟨p, v, hp, ho, hv⟩⟩
    · obtain ⟨o, rfl⟩ := hobj j (by simp)
      exact h2 o rfl
    · obtain ⟨x, hx⟩ := hangle o (by simp) p w ha hg
      rw [hw] at hx; cases hx
    · obtain ⟨before', o', after', w, rfl, hg, -⟩ :=
        (C48_last_wins globals before d (fun j hj => hdocs j (by simp [hj])) h1 p hp v).mp hv
      exact hsame o o' (by simp) (by simp) p w ho hg
  · exact ⟨d, rfl⟩

/-- C49. The value of an angle is the number of one of the configurations, converted to radians. -/
theorem C49_angle (globals : Dict) (docs : List Json) (d : Dict) (hdocs : ∀ j ∈ docs, NoDuplicates j)
    (h : init ident globals docs = .ok d) (p : List String) (hp : PublicPath ident p) (ha : AnglePath p) (v : Json)
    (hv : value d p = some v) :
    ∃ o w x, .obj o ∈ docs ∧ Gives o p w ∧ number w = some x ∧ v = .num (x * Real.pi / 180) := by
  obtain ⟨before, o, after, w, rfl, hg, hs, -⟩ := (C48_last_wins globals docs d hdocs h p hp v).mp hv
  rcases hs with ⟨-, x, hx, rfl⟩ | ⟨hn, -⟩
  · exact ⟨o, w, x, by simp, hg, hx, rfl⟩
  · exact absurd ha hn

/-- C49. All other values are those of one of the configurations. -/
theorem C49_other (globals : Dict) (docs : List Json) (d : Dict) (hdocs : ∀ j ∈ docs, NoDuplicates j)
    (h : init ident globals docs = .ok d) (p : List String) (hp : PublicPath ident p) (ha : ¬ AnglePath p) (v : Json)
    (hv : value d p = some v) : ∃ o, .obj o ∈ docs ∧ Gives o p v := by
  obtain ⟨before, o, after, w, rfl, hg, hs, -⟩ := (C48_last_wins globals docs d hdocs h p hp v).mp hv
  rcases hs with ⟨hn, -⟩ | ⟨-, rfl⟩
  · exact absurd hn ha
  · exact ⟨o, by simp, hg⟩

/-- Equal on public names, or the same exception. -/
def Agree (r r' : Py Dict) : Prop :=
  match r, r' with
  | .ok d, .ok d' => ∀ k : String, ¬ k.startsWith "_" → d k = d' k
  | .error e, .error e' => e = e'
  | _, _ => False

theorem merge_agree : ∀ (o : List (String × Json)) (d d' : Dict), (∀ k : String, ¬ k.startsWith "_" → d k = d' k) →
    Agree (mergeDicts ident o d) (mergeDicts ident o d') := by
  intro o d
  induction o, d using mergeDicts.induct ident with
  | case1 d => intro d' h; rw [mergeDicts, mergeDicts]; exact h
  | case2 key rest d hpub o iho ihr =>
    intro d' h
    rw [mergeDicts, mergeDicts, if_pos hpub, if_pos hpub]
    have hs : subDict d key = subDict d' key := by unfold subDict; rw [h key hpub.2]
    rw [← hs]
    rcases subDict d key with e | sub
    · exact rfl
    · show Agree (mergeDicts ident o sub >>= _) (mergeDicts ident o sub >>= _)
      rcases mergeDicts ident o sub with e | sub'
      · exact rfl
      · exact ihr sub' _ fun k hk => by simp only [Dict.set]; rw [h k hk]
  | case3 key rest d hpub v hv ih =>
    intro d' h
    rw [mergeDicts, mergeDicts, if_pos hpub, if_pos hpub]
    rotate_left
    · exact hv
    · exact hv
    rcases convert key v with e | w
    · exact rfl
    · exact ih w _ fun k hk => by simp only [Dict.set]; rw [h k hk]
  | case4 key v rest d hpub ih =>
    intro d' h
    unfold mergeDicts
    rw [if_neg hpub, if_neg hpub]
    exact ih d' h

/-- C50. What was configured before has no influence: neither on the public names, nor on the exception. -/
theorem C50_fresh (globals globals' : Dict) (docs : List Json) :
    (∀ e, init ident globals docs = .error e ↔ init ident globals' docs = .error e) ∧
    ∀ d d', init ident globals docs = .ok d → init ident globals' docs = .ok d' →
      ∀ k : String, ¬ k.startsWith "_" → d k = d' k := by
  have key : Agree (init ident globals docs) (init ident globals' docs) := by
    induction docs using List.reverseRecOn with
    | nil =>
      rw [init_nil, init_nil]
      intro k hk
      unfold clear
      rw [if_neg hk, if_neg hk]
    | append_singleton docs j ih =>
      rw [foldl_snoc, foldl_snoc]
      rcases h : init ident globals docs with e | d <;> rcases h' : init ident globals' docs with e' | d' <;>
        rw [h, h'] at ih
      · exact ih
      · exact ih.elim
      · exact ih.elim
      · show Agree (mergeOne ident d j) (mergeOne ident d' j)
        cases j <;> first | rfl | exact merge_agree _ d d' ih
  rcases h : init ident globals docs with e | d <;> rcases h' : init ident globals' docs with e' | d' <;>
    rw [h, h'] at key
  · refine ⟨fun e1 => ?_, fun d d' hd => by cases hd⟩
    have : e = e' := key
    subst this
    simp
  · exact key.elim
  · exact key.elim
  · refine ⟨fun e => by simp, fun d1 d1' h1 h1' => ?_⟩
    cases h1; cases h1'
    exact key

theorem merge_private : ∀ (o : List (String × Json)) (d d' : Dict), mergeDicts ident o d = .ok d' →
    ∀ k : String, ¬ isPublic ident k → d' k = d k := by
  intro o d
  induction o, d using mergeDicts.induct ident with
  | case1 d => intro d' h k _; rw [mergeDicts] at h; cases h; rfl
  | case2 key rest d hpub o iho ihr =>
    intro d' h k hk
    rw [mergeDicts, if_pos hpub] at h
    obtain ⟨sub, hsub, h⟩ := bind_ok h
    obtain ⟨sub', hsub', h⟩ := bind_ok h
    rw [ihr sub' d' h k hk]
    simp only [Dict.set]
    rw [if_neg]
    rintro rfl; exact hk hpub
  | case3 key rest d hpub v hv ih =>
    intro d' h k hk
    rw [mergeDicts, if_pos hpub] at h
    swap
    · exact hv
    obtain ⟨w, hw, h⟩ := bind_ok h
    rw [ih w d' h k hk]
    simp only [Dict.set]
    rw [if_neg]
    rintro rfl; exact hk hpub
  | case4 key v rest d hpub ih =>
    intro d' h k hk
    unfold mergeDicts at h
    rw [if_neg hpub] at h
    exact ih d' h k hk

/-- C50. Private names stay as they are. -/
theorem C50_private (globals : Dict) (docs : List Json) (d : Dict) (h : init ident globals docs = .ok d) (k : String)
    (hk : k.startsWith "_") : d k = globals k := by
  induction docs using List.reverseRecOn generalizing d with
  | nil => rw [init_nil] at h; cases h; unfold clear; rw [if_pos hk]
  | append_singleton docs j ih =>
    rw [foldl_snoc] at h
    obtain ⟨d0, h0, h⟩ := bind_ok h
    obtain ⟨o, rfl, h⟩ := mergeOne_ok h
    rw [merge_private o d0 d h k fun hp => hp.2 hk, ih d0 h0]

/-- All keys of a namespace are public, and so on. -/
inductive PublicVal (ident : String → Prop) : Val → Prop
  | leaf (j) : PublicVal ident (.leaf j)
  | space (m : Dict) : (∀ k v, m k = some v → isPublic ident k) → (∀ k v, m k = some v → PublicVal ident v) →
      PublicVal ident (.space m)

theorem merge_public : ∀ (o : List (String × Json)) (d d' : Dict), mergeDicts ident o d = .ok d' →
    (∀ k v, isPublic ident k → d k = some v → PublicVal ident v) →
    ∀ k v, isPublic ident k → d' k = some v → PublicVal ident v := by
  intro o d
  induction o, d using mergeDicts.induct ident with
  | case1 d => intro d' h hd; rw [mergeDicts] at h; cases h; exact hd
  | case2 key rest d hpub o iho ihr =>
    intro d' h hd
    rw [mergeDicts, if_pos hpub] at h
    obtain ⟨sub, hsub, h⟩ := bind_ok h
    obtain ⟨sub', hsub', h⟩ := bind_ok h
    refine ihr sub' d' h fun k v hk hv => ?_
    simp only [Dict.set] at hv
    split_ifs at hv with hkk
    · cases hv
      have hs : PublicVal ident (.space sub) := by
        unfold subDict at hsub
        rcases hdk : d key with _ | (_ | m) <;> rw [hdk] at hsub <;> simp at hsub
        · rw [← hsub]; exact .space _ (by simp) (by simp)
        · rw [← hsub]; exact hd key _ hpub hdk
      obtain - | ⟨_, hs1, hs2⟩ := hs
      have hp1 : ∀ k v, sub' k = some v → isPublic ident k := by
        intro k v hv
        by_contra hn
        rw [merge_private o sub sub' hsub' k hn] at hv
        exact hn (hs1 k v hv)
      exact .space _ hp1 fun k v hv => iho sub sub' hsub' (fun k v _ hv => hs2 k v hv) k v (hp1 k v hv) hv
    · exact hd k v hk hv
  | case3 key rest d hpub v hv ih =>
    intro d' h hd
    rw [mergeDicts, if_pos hpub] at h
    swap
    · exact hv
    obtain ⟨w, hw, h⟩ := bind_ok h
    refine ih w d' h fun k v hk hv => ?_
    simp only [Dict.set] at hv
    split_ifs at hv with hkk
    · cases hv; exact .leaf _
    · exact hd k v hk hv
  | case4 key v rest d hpub ih =>
    intro d' h hd
    unfold mergeDicts at h
    rw [if_neg hpub] at h
    exact ih d' h hd

theorem init_public (globals : Dict) (docs : List Json) (d : Dict) (h : init ident globals docs = .ok d) :
    ∀ k v, ¬ k.startsWith "_" → d k = some v → isPublic ident k ∧ PublicVal ident v := by
  induction docs using List.reverseRecOn generalizing d with
  | nil =>
    rw [init_nil] at h; cases h
    intro k v hk hv
    unfold clear at hv
    rw [if_neg hk] at hv
    cases hv
  | append_singleton docs j ih =>
    rw [foldl_snoc] at h
    obtain ⟨d0, h0, h⟩ := bind_ok h
    obtain ⟨o, rfl, h⟩ := mergeOne_ok h
    intro k v hk hv
    have hp : isPublic ident k := by
      by_contra hn
      rw [merge_private o d0 d h k hn] at hv
      exact hn (ih d0 h0 k v hk hv).1
    exact ⟨hp, merge_public o d0 d h (fun k v hk hv => (ih d0 h0 k v hk.2 hv).2) k v hp hv⟩

/-- C50. All names that are reachable from a public name are public identifiers. -/
theorem C50_identifiers (globals : Dict) (docs : List Json) (d : Dict) (h : init ident globals docs = .ok d) (k : String)
    (p : List String) (hk : ¬ k.startsWith "_") (v : Json) (hv : value d (k :: p) = some v) :
    PublicPath ident (k :: p) := by
  have key : ∀ (p : List String) (m : Dict) (v : Json), PublicVal ident (.space m) → value m p = some v →
      PublicPath ident p := by
    intro p
    induction p with
    | nil => intro m v _ hv; cases hv
    | cons k p ih =>
      intro m v hm hv
      obtain - | ⟨_, hm1, hm2⟩ := hm
      rw [value_cons] at hv
      rcases hmk : m k with _ | (_ | m') <;> rw [hmk] at hv <;> dsimp only at hv
      · cases hv
      · split_ifs at hv with hp
        subst hp
        exact public_cons (hm1 k _ hmk) (by simp [PublicPath])
      · exact public_cons (hm1 k _ hmk) (ih m' v (hm2 k _ hmk) hv)
  rw [value_cons] at hv
  rcases hdk : d k with _ | (_ | m') <;> rw [hdk] at hv <;> dsimp only at hv
  · cases hv
  · split_ifs at hv with hp
    subst hp
    exact public_cons (init_public globals docs d h k _ hk hdk).1 (by simp [PublicPath])
  · obtain ⟨h1, h2⟩ := init_public globals docs d h k _ hk hdk
    exact public_cons h1 (key p m' v h2 hv)

/-! A base configuration, and another one that changes one value. -/

def exBase : List (String × Json) :=
  [("body", .obj [("splitAngle", .num 10), ("wall", .num 3), ("_note", .str "x")]), ("2nd", .num 1)]
def exUser : List (String × Json) := [("body", .obj [("splitAngle", .num 20)])]

theorem ex_noDup : ∀ j ∈ [Json.obj exBase, Json.obj exUser], NoDuplicates j := by
  intro j hj
  simp only [List.mem_cons, List.not_mem_nil, or_false] at hj
  rcases hj with rfl | rfl
  · refine .obj _ (by simp [exBase]) fun e he => ?_
    simp only [exBase, List.mem_cons, List.not_mem_nil, or_false] at he
    rcases he with rfl | rfl
    · refine .obj _ (by simp) fun e he => ?_
      simp only [List.mem_cons, List.not_mem_nil, or_false] at he
      rcases he with rfl | rfl | rfl <;> constructor
    · constructor
  · refine .obj _ (by simp [exUser]) fun e he => ?_
    simp only [exUser, List.mem_cons, List.not_mem_nil, or_false] at he
    subst he
    refine .obj _ (by simp) fun e he => ?_
    simp only [List.mem_cons, List.not_mem_nil, or_false] at he
    subst he
    constructor

def exIdent (k : String) : Prop := k ∈ ["body", "splitAngle", "wall", "_note"]

theorem ex_public (k : String) (h : k ∈ ["body", "splitAngle", "wall"]) : isPublic exIdent k := by
  simp only [List.mem_cons, List.not_mem_nil, or_false] at h
  rcases h with rfl | rfl | rfl <;> exact ⟨by simp [exIdent], by decide +kernel⟩

theorem ex_note : ¬ isPublic exIdent "_note" := fun h => h.2 (by decide +kernel)
theorem ex_2nd : ¬ isPublic exIdent "2nd" := fun h => by have := h.1; simp [exIdent] at this
theorem ex_angle : isAngle "splitAngle" := by unfold isAngle; decide +kernel
theorem ex_wall : ¬ isAngle "wall" := by unfold isAngle; decide +kernel

/-- The example is loaded: the angle of the second, the other value of the first, and no private names. -/
theorem ex_init (g : Dict) : ∃ d, init exIdent g [.obj exBase, .obj exUser] = .ok d ∧
    value d ["body", "splitAngle"] = some (.num (20 * (Real.pi / 180))) ∧
    value d ["body", "wall"] = some (.num 3) ∧ value d ["body", "_note"] = none := by
  have hb := ex_public "body" (by simp)
  have hs := ex_public "splitAngle" (by simp)
  have hw := ex_public "wall" (by simp)
  have hc : clear g "body" = none := by
    unfold clear
    rw [if_neg hb.2]
  simp [init, mergeOne, exBase, exUser, mergeDicts, hb, hs, hw, ex_note, ex_2nd, convert, ex_angle, ex_wall, radians,
    subDict, Dict.set, value, hc, pure, Except.pure, bind, Except.bind]

example (g : Dict) : ∃ d, init exIdent g [.obj exBase, .obj exUser] = .ok d ∧
    ∃ before o after w, [Json.obj exBase, Json.obj exUser] = before ++ .obj o :: after ∧
      Gives o ["body", "splitAngle"] w ∧ Stored ["body", "splitAngle"] w (.num (20 * (Real.pi / 180))) := by
  obtain ⟨d, hd, h1, -⟩ := ex_init g
  obtain ⟨b, o, a, w, h2, h3, h4, -⟩ := (C48_last_wins g _ d ex_noDup hd ["body", "splitAngle"] (by
    intro k hk
    simp only [List.mem_cons, List.not_mem_nil, or_false] at hk
    rcases hk with rfl | rfl
    · exact ex_public _ (by simp)
    · exact ex_public _ (by simp)) _).mp h1
  exact ⟨d, hd, b, o, a, w, h2, h3, h4⟩

/-- A value where the base has an object replaces it; but an object where the base has a value is an error. -/
example (g : Dict) : (∃ d, init exIdent g [.obj exBase, .obj [("body", .null)]] = .ok d ∧
      value d ["body"] = some .null ∧ value d ["body", "wall"] = none) ∧
    init exIdent g [.obj [("body", .null)], .obj exBase] = .error .attributeError ∧
    init exIdent g [.obj [("splitAngle", .str "10")]] = .error .typeError ∧
    init exIdent g [.obj exBase, .arr []] = .error .attributeError := by
  have hb := ex_public "body" (by simp)
  have hs := ex_public "splitAngle" (by simp)
  have hw := ex_public "wall" (by simp)
  have hc : clear g "body" = none := by
    unfold clear
    rw [if_neg hb.2]
  have hba : ¬ isAngle "body" := by unfold isAngle; decide +kernel
  refine ⟨?_, ?_, ?_, ?_⟩ <;>
  simp [init, mergeOne, exBase, mergeDicts, hb, hs, hw, ex_note, ex_2nd, convert, ex_angle, ex_wall, radians, hba,
    subDict, Dict.set, value, hc, pure, Except.pure, bind, Except.bind]

end Chrumm.App
