import Verif.Props.PlanFlat

/-! Walls and bosses of the plan. -/

namespace Chrumm.Part
open Geo Geo.Spec Spec

/-! ### Columns of a moved layout -/

theorem mapM_map_ok {α β γ δ : Type} (φ : α → β) (ψ : γ → δ) (F : α → Py γ) (G : β → Py δ) :
    ∀ (l : List α), (∀ x ∈ l, G (φ x) = (F x).map ψ) → (l.map φ).mapM G = (l.mapM F).map (List.map ψ)
  | [], _ => rfl
  | x :: l, h => by
    rw [List.map_cons, List.mapM_cons, List.mapM_cons, h x (by simp), mapM_map_ok φ ψ F G l fun y hy => h y (by simp [hy])]
    cases F x with
    | error e => rfl
    | ok c =>
      cases l.mapM F with
      | error e => rfl
      | ok cs => rfl

theorem pyIndex_map {α β : Type} (f : α → β) (l : List α) (i : ℤ) : pyIndex (l.map f) i = (pyIndex l i).map f := by
  have hg : ∀ j, pyGet (l.map f) j = (pyGet l j).map f := by
    intro j
    unfold pyGet
    rw [List.getElem?_map]
    cases l[j]? <;> rfl
  unfold pyIndex
  rw [List.length_map]
  split_ifs
  · exact hg _
  · exact hg _
  · rfl

/-- The keys of a row's group are moved. -/
noncomputable def movedRow (a p : Mat) (row : List (List (Option Key))) : List (List (Option Key)) :=
  (row.modify 0 fun keys => keys.map (Option.map (·.transform a))).modify 1 fun keys => keys.map (Option.map (·.transform p))

theorem halves_moved (l : Layout) (a p t : Mat) (side : Option Side) :
    (l.moved a p t).halves side = (l.halves side).map (List.map (movedRow a p)) := by
  unfold Layout.halves Layout.moved Layout.mapThumb Layout.mapGroup
  rcases side with _ | _ | _ <;> simp [movedRow, List.map_map, Function.comp_def]

/-- The matrix of a group. -/
def ofGroup (g : ℕ) (a p : Mat) : Mat := if g = 0 then a else p

theorem rowGroup_moved (a p : Mat) (row : List (List (Option Key))) (g : ℕ) (hg : g < 2) :
    Layout.rowGroup (movedRow a p row) g =
      (Layout.rowGroup row g).map (List.map (Option.map fun k : Key => k.transform (ofGroup g a p))) := by
  unfold Layout.rowGroup pyIndex pyGet movedRow
  have h0 : (0 : ℤ) ≤ (g : ℤ) := by omega
  simp only [Int.toNat_natCast, if_pos h0, List.getElem?_modify]
  have h2 : g = 0 ∨ g = 1 := by omega
  rcases h2 with rfl | rfl
  · rcases row[0]? with _ | gk <;> simp [Except.map, ofGroup]
  · rcases row[1]? with _ | gk <;> simp [Except.map, ofGroup]

/-- The column of a half. -/
noncomputable def colOf (g : ℕ) (i : ℤ) (half : Half) : Py (List Key) := do
  let col ← half.mapM fun row => do
    let g ← Layout.rowGroup row g
    pyIndex g i
  pure (col.filterMap id)

theorem colOf_moved (a p : Mat) (g : ℕ) (hg : g < 2) (i : ℤ) (half : Half) :
    colOf g i (half.map (movedRow a p)) = (colOf g i half).map (List.map fun k : Key => k.transform (ofGroup g a p)) := by
  unfold colOf
  rw [mapM_map_ok (movedRow a p) (Option.map fun k : Key => k.transform (ofGroup g a p))
    (fun row => do
      let g ← Layout.rowGroup row g
      pyIndex g i)]
  · cases (half.mapM fun row => do
      let g ← Layout.rowGroup row g
      pyIndex g i) with
    | error e => rfl
    | ok ks =>
      simp only [bind, Except.bind, Except.map, pure, Except.pure]
      rw [filterMap_optionMap]
  · intro row hr
    rw [rowGroup_moved _ _ _ _ hg]
    cases Layout.rowGroup row g with
    | error e => rfl
    | ok gk =>
      simp only [bind, Except.bind, Except.map]
      exact pyIndex_map _ _ _

theorem colKeys_moved (l : Layout) (a p t : Mat) (g : ℕ) (hg : g < 2) (i : ℤ) (side : Option Side) :
    (l.moved a p t).colKeys g i side = (l.colKeys g i side).map (List.map fun k : Key => k.transform (ofGroup g a p)) := by
  show (((l.moved a p t).halves side).mapM (colOf g i) >>= fun keys => pure keys.flatten) =
    Except.map _ ((l.halves side).mapM (colOf g i) >>= fun keys => pure keys.flatten)
  rw [halves_moved, mapM_map_ok (List.map (movedRow a p)) (List.map fun k : Key => k.transform (ofGroup g a p)) (colOf g i) _ _
    fun half _ => colOf_moved a p g hg i half]
  cases (l.halves side).mapM (colOf g i) with
  | error e => rfl
  | ok kss =>
    simp only [bind, Except.bind, Except.map, pure, Except.pure]
    rw [List.map_flatten]

/-- One key per column of a half. -/
noncomputable def perColOf (l : Layout) (side : Option Side) (g : ℕ) (i : ℤ) (half : Half) : Py (List Key) := do
  let row ← pyIndex half 0
  let g' ← Layout.rowGroup row g
  (List.range g'.length).mapM fun (c : ℕ) => do
    let col ← l.colKeys g c side
    pyIndex col i

theorem perColOf_moved (l : Layout) (a p t : Mat) (g : ℕ) (hg : g < 2) (i : ℤ) (side : Option Side) (half : Half) :
    perColOf (l.moved a p t) side g i (half.map (movedRow a p)) =
      (perColOf l side g i half).map (List.map fun k : Key => k.transform (ofGroup g a p)) := by
  unfold perColOf
  rw [pyIndex_map]
  cases pyIndex half 0 with
  | error e => rfl
  | ok row =>
    simp only [bind, Except.bind, Except.map]
    rw [rowGroup_moved _ _ _ _ hg]
    cases Layout.rowGroup row g with
    | error e => rfl
    | ok gk =>
      simp only [Except.map, List.length_map]
      have := mapM_map_ok (id : ℕ → ℕ) (fun k : Key => k.transform (ofGroup g a p))
        (fun c : ℕ => do
          let col ← l.colKeys g c side
          pyIndex col i)
        (fun c : ℕ => do
          let col ← (l.moved a p t).colKeys g c side
          pyIndex col i) (List.range gk.length) (by
          intro c hc
          dsimp only [id]
          rw [colKeys_moved _ _ _ _ _ hg]
          cases l.colKeys g c side with
          | error e => rfl
          | ok col => exact pyIndex_map _ _ _)
      rw [List.map_id] at this
      exact this

theorem perCol_moved (l : Layout) (a p t : Mat) (g : ℕ) (hg : g < 2) (i : ℤ) (side : Option Side) :
    (l.moved a p t).perCol g i side = (l.perCol g i side).map (List.map fun k : Key => k.transform (ofGroup g a p)) := by
  show (((l.moved a p t).halves side).mapM (perColOf (l.moved a p t) side g i) >>= fun keys => pure keys.flatten) =
    Except.map _ ((l.halves side).mapM (perColOf l side g i) >>= fun keys => pure keys.flatten)
  rw [halves_moved, mapM_map_ok (List.map (movedRow a p)) (List.map fun k : Key => k.transform (ofGroup g a p))
    (perColOf l side g i) _ _ fun half _ => perColOf_moved l a p t g hg i side half]
  cases (l.halves side).mapM (perColOf l side g i) with
  | error e => rfl
  | ok kss =>
    simp only [bind, Except.bind, Except.map, pure, Except.pure]
    rw [List.map_flatten]

theorem mem_colKeys {l : Layout} (h2 : TwoGroups l) {g : ℕ} (hg : g < 2) {i : ℤ} {side : Option Side} {ks : List Key}
    (h : l.colKeys g i side = .ok ks) : ∀ k ∈ ks, k ∈ fingers l g side := by
  intro k hk
  unfold Layout.colKeys at h
  obtain ⟨kss, h1, h⟩ := bind_ok h
  cases h
  obtain ⟨col, hcol, hk⟩ := List.mem_flatten.mp hk
  have hf := mapM_ok h1
  obtain ⟨n, hn, hcol⟩ := List.mem_iff_getElem.mp hcol
  have hn' : n < (l.halves side).length := by rw [hf.length_eq]; exact hn
  have hh := List.Forall₂.get hf hn' hn
  simp only [List.get_eq_getElem] at hh
  rw [hcol] at hh
  have hmem : (l.halves side)[n] ∈ l.halves side := List.getElem_mem hn'
  generalize (l.halves side)[n] = half at hh hmem
  obtain ⟨os, ho, hh⟩ := bind_ok hh
  cases hh
  obtain ⟨o, ho', rfl⟩ := List.mem_filterMap.mp hk
  have hf2 := mapM_ok ho
  obtain ⟨m, hm, hom⟩ := List.mem_iff_getElem.mp ho'
  have hm' : m < half.length := by rw [hf2.length_eq]; exact hm
  have hr := List.Forall₂.get hf2 hm' hm
  simp only [List.get_eq_getElem] at hr
  rw [hom] at hr
  obtain ⟨gk, hgk, hr⟩ := bind_ok hr
  have hrow : half[m] ∈ half := List.getElem_mem hm'
  rw [rowGroup_ok (by rw [h2.mem_halves hmem _ hrow]; exact hg)] at hgk
  cases hgk
  have hin : some k ∈ half[m].getD g [] := by
    have hget : ∀ j, pyGet (half[m].getD g []) j = .ok (some k) → some k ∈ half[m].getD g [] := by
      intro j hj
      rw [pyGet_ok] at hj
      exact List.mem_of_getElem? hj
    unfold pyIndex at hr
    split_ifs at hr
    · exact hget _ hr
    · exact hget _ hr
  unfold fingers
  rw [List.mem_flatMap]
  refine ⟨half, ?_, ?_⟩
  · unfold Layout.halves at hmem
    rw [mem_selected] at hmem
    exact hmem
  · unfold keysOf
    rw [List.mem_flatMap]
    exact ⟨half[m], hrow, List.mem_filterMap.mpr ⟨some k, hin, rfl⟩⟩

theorem pyIndex_mem {α : Type} {l : List α} {i : ℤ} {x : α} (h : pyIndex l i = .ok x) : x ∈ l := by
  have hget : ∀ j, pyGet l j = .ok x → x ∈ l := by
    intro j hj
    rw [pyGet_ok] at hj
    exact List.mem_of_getElem? hj
  unfold pyIndex at h
  split_ifs at h
  · exact hget _ h
  · exact hget _ h

theorem mem_perCol {l : Layout} (h2 : TwoGroups l) {g : ℕ} (hg : g < 2) {i : ℤ} {side : Option Side} {ks : List Key}
    (h : l.perCol g i side = .ok ks) : ∀ k ∈ ks, k ∈ fingers l g side := by
  intro k hk
  unfold Layout.perCol at h
  obtain ⟨kss, h1, h⟩ := bind_ok h
  cases h
  obtain ⟨col, hcol, hk⟩ := List.mem_flatten.mp hk
  have hf := mapM_ok h1
  obtain ⟨n, hn, hcol⟩ := List.mem_iff_getElem.mp hcol
  have hn' : n < (l.halves side).length := by rw [hf.length_eq]; exact hn
  have hh := List.Forall₂.get hf hn' hn
  simp only [List.get_eq_getElem] at hh
  rw [hcol] at hh
  obtain ⟨row, -, hh⟩ := bind_ok hh
  obtain ⟨gk, -, hh⟩ := bind_ok hh
  have hf2 := mapM_ok hh
  obtain ⟨m, hm, hkm⟩ := List.mem_iff_getElem.mp hk
  have hm' : m < (List.range gk.length).length := by rw [hf2.length_eq]; exact hm
  have hr := List.Forall₂.get hf2 hm' hm
  simp only [List.get_eq_getElem] at hr
  rw [hkm] at hr
  obtain ⟨c, hc, hr⟩ := bind_ok hr
  exact mem_colKeys h2 hg hc k (pyIndex_mem hr)

end Chrumm.Part
