import Verif.Spec.Stl
import Verif.Props.Mesh
import Verif.Props.Flat

/-! C43: STL files. -/

namespace Chrumm.App
open Geo Spec

variable {f32 : ℝ → Option Word}

private theorem bind_ok {α β : Type} {x : Py α} {f : α → Py β} {b : β} (h : (x >>= f) = .ok b) :
    ∃ a, x = .ok a ∧ f a = .ok b := by
  cases x with
  | error e => cases h
  | ok a => exact ⟨a, rfl, h⟩

private theorem bind_error {α β : Type} {x : Py α} {f : α → Py β} {e : Exn} (h : (x >>= f) = .error e) :
    x = .error e ∨ ∃ a, x = .ok a ∧ f a = .error e := by
  cases x with
  | error e' => exact .inl (by cases h; rfl)
  | ok a => exact .inr ⟨a, rfl, h⟩

theorem header_length : header.length = 80 := by decide +kernel

theorem header_zero : header.getD 0 0 = 0 := by decide +kernel

theorem packFloat_ok {x : ℝ} {l : List UInt8} (h : packFloat f32 x = .ok l) : ∃ w, f32 x = some w ∧ l = w.toList := by
  unfold packFloat at h
  rcases hf : f32 x with _ | w <;> rw [hf] at h
  · cases h
  · cases h; exact ⟨w, rfl, rfl⟩

theorem packVector_ok {v : Vec} {l : List UInt8} (h : packVector f32 v = .ok l) :
    ∃ x y z, f32 v.x = some x ∧ f32 v.y = some y ∧ f32 v.z = some z ∧ l = x.toList ++ y.toList ++ z.toList := by
  unfold packVector at h
  obtain ⟨_, h1, h⟩ := bind_ok h
  obtain ⟨_, h2, h⟩ := bind_ok h
  obtain ⟨_, h3, h⟩ := bind_ok h
  obtain ⟨x, hx, rfl⟩ := packFloat_ok h1
  obtain ⟨y, hy, rfl⟩ := packFloat_ok h2
  obtain ⟨z, hz, rfl⟩ := packFloat_ok h3
  cases h
  exact ⟨x, y, z, hx, hy, hz, rfl⟩

/-- What is read from the 50 bytes of a triangle. -/
def TriangleAt (f32 : ℝ → Option Word) (l : List UInt8) (i : ℕ) (t : Tri Vec) : Prop :=
  (∃ n, Geo.Spec.UnitOf n (Geo.Spec.normalOf t) ∧ VectorAt f32 l i n) ∧
    VectorAt f32 l (i + 12) t.a ∧ VectorAt f32 l (i + 24) t.b ∧ VectorAt f32 l (i + 36) t.c ∧
    byteAt l (i + 48) = 0 ∧ byteAt l (i + 49) = 0

theorem packTriangle_ok {t : Tri Vec} {l : List UInt8} (h : packTriangle f32 t = .ok l) :
    l.length = 50 ∧ TriangleAt f32 l 0 t := by
  unfold packTriangle at h
  obtain ⟨n, hn, h⟩ := bind_ok h
  obtain ⟨parts, hp, h⟩ := bind_ok h
  have hf := mapM_ok hp
  obtain - | ⟨h1, hf⟩ := hf
  obtain - | ⟨h2, hf⟩ := hf
  obtain - | ⟨h3, hf⟩ := hf
  obtain - | ⟨h4, hf⟩ := hf
  cases hf
  obtain ⟨x1, y1, z1, hx1, hy1, hz1, rfl⟩ := packVector_ok h1
  obtain ⟨x2, y2, z2, hx2, hy2, hz2, rfl⟩ := packVector_ok h2
  obtain ⟨x3, y3, z3, hx3, hy3, hz3, rfl⟩ := packVector_ok h3
  obtain ⟨x4, y4, z4, hx4, hy4, hz4, rfl⟩ := packVector_ok h4
  cases h
  refine ⟨rfl, ⟨n, normalized_unit hn, hx1, hy1, hz1⟩, ⟨hx2, hy2, hz2⟩, ⟨hx3, hy3, hz3⟩, ⟨hx4, hy4, hz4⟩, rfl, rfl⟩

theorem getD_append_right' {α : Type} (a b : List α) (i : ℕ) (d : α) : (a ++ b).getD (a.length + i) d = b.getD i d := by
  rw [List.getD_eq_getElem?_getD, List.getD_eq_getElem?_getD, List.getElem?_append_right (by omega),
    Nat.add_sub_cancel_left]

theorem getD_append_left' {α : Type} (a b : List α) (i : ℕ) (d : α) (h : i < a.length) :
    (a ++ b).getD i d = a.getD i d := by
  simp [List.getD, List.getElem?_append_left h]

/-- Skipping a prefix. -/
theorem triangleAt_skip {a b : List UInt8} {i : ℕ} {t : Tri Vec} (h : TriangleAt f32 b i t) :
    TriangleAt f32 (a ++ b) (a.length + i) t := by
  have key : ∀ j, (a ++ b).getD (a.length + i + j) 0 = b.getD (i + j) 0 := fun j => by
    rw [Nat.add_assoc]; exact getD_append_right' ..
  have key0 : (a ++ b).getD (a.length + i) 0 = b.getD i 0 := key 0
  unfold TriangleAt VectorAt wordAt byteAt at h ⊢
  simp only [Nat.add_assoc] at h key ⊢
  simp only [key, key0]
  exact h

theorem triangleAt_append {a b : List UInt8} {t : Tri Vec} (hl : a.length = 50) (h : TriangleAt f32 a 0 t) :
    TriangleAt f32 (a ++ b) 0 t := by
  have key : ∀ j, j < 50 → (a ++ b).getD j 0 = a.getD j 0 := fun j hj => getD_append_left' a b j 0 (by omega)
  unfold TriangleAt VectorAt wordAt byteAt at h ⊢
  simp only [Nat.zero_add, Nat.reduceAdd] at h ⊢
  simp only [key _ (by norm_num : 0 < 50), key _ (by norm_num : 1 < 50), key _ (by norm_num : 2 < 50),
    key _ (by norm_num : 3 < 50), key _ (by norm_num : 4 < 50), key _ (by norm_num : 5 < 50),
    key _ (by norm_num : 6 < 50), key _ (by norm_num : 7 < 50), key _ (by norm_num : 8 < 50),
    key _ (by norm_num : 9 < 50), key _ (by norm_num : 10 < 50), key _ (by norm_num : 11 < 50),
    key _ (by norm_num : 12 < 50), key _ (by norm_num : 13 < 50), key _ (by norm_num : 14 < 50),
    key _ (by norm_num : 15 < 50), key _ (by norm_num : 16 < 50), key _ (by norm_num : 17 < 50),
    key _ (by norm_num : 18 < 50), key _ (by norm_num : 19 < 50), key _ (by norm_num : 20 < 50),
    key _ (by norm_num : 21 < 50), key _ (by norm_num : 22 < 50), key _ (by norm_num : 23 < 50),
    key _ (by norm_num : 24 < 50), key _ (by norm_num : 25 < 50), key _ (by norm_num : 26 < 50),
    key _ (by norm_num : 27 < 50), key _ (by norm_num : 28 < 50), key _ (by norm_num : 29 < 50),
    key _ (by norm_num : 30 < 50), key _ (by norm_num : 31 < 50), key _ (by norm_num : 32 < 50),
    key _ (by norm_num : 33 < 50), key _ (by norm_num : 34 < 50), key _ (by norm_num : 35 < 50),
    key _ (by norm_num : 36 < 50), key _ (by norm_num : 37 < 50), key _ (by norm_num : 38 < 50),
    key _ (by norm_num : 39 < 50), key _ (by norm_num : 40 < 50), key _ (by norm_num : 41 < 50),
    key _ (by norm_num : 42 < 50), key _ (by norm_num : 43 < 50), key _ (by norm_num : 44 < 50),
    key _ (by norm_num : 45 < 50), key _ (by norm_num : 46 < 50), key _ (by norm_num : 47 < 50),
    key _ (by norm_num : 48 < 50), key _ (by norm_num : 49 < 50)]
  exact h

theorem blocks {ts : List (Tri Vec)} {parts : List (List UInt8)}
    (h : List.Forall₂ (fun t p => packTriangle f32 t = .ok p) ts parts) :
    parts.flatten.length = 50 * ts.length ∧
      ∀ (i : ℕ) (hi : i < ts.length), TriangleAt f32 parts.flatten (50 * i) ts[i] := by
  induction h with
  | nil => simp
  | @cons t p ts parts h1 h2 ih =>
    obtain ⟨hl, ht⟩ := packTriangle_ok h1
    refine ⟨by simp [ih.1, hl]; ring, fun i hi => ?_⟩
    rw [List.flatten_cons]
    cases i with
    | zero => exact triangleAt_append hl ht
    | succ i =>
      have := triangleAt_skip (a := p) (ih.2 i (by simpa using hi))
      rw [hl] at this
      rw [show 50 * (i + 1) = 50 + 50 * i by ring]
      exact this

theorem packCount_ok {n : ℕ} {l : List UInt8} (h : packCount n = .ok l) :
    n < 2 ^ 32 ∧ l.length = 4 ∧ uintAt l 0 = n := by
  unfold packCount at h
  split_ifs at h with hn
  cases h
  refine ⟨hn, rfl, ?_⟩
  simp only [uintAt, byteAt, List.getD_cons_zero, List.getD_cons_succ, Nat.zero_add, UInt8.toNat_ofNat']
  norm_num
  omega

/-- C43. The bytes are a binary STL file with exactly the triangles. -/
theorem C43_format (ts : List (Tri Vec)) (file : List UInt8) (h : toBytes f32 ts = .ok file) : IsStl f32 file ts := by
  unfold toBytes at h
  obtain ⟨count, hc, h⟩ := bind_ok h
  obtain ⟨parts, hp, h⟩ := bind_ok h
  cases h
  obtain ⟨hn, hcl, hcu⟩ := packCount_ok hc
  obtain ⟨hl, hb⟩ := blocks (mapM_ok hp)
  have hh := header_length
  have hhc : (header ++ count).length = 84 := by simp [hh, hcl]
  refine ⟨by rw [List.length_append, hhc, hl], ?_, ?_, fun i hi => ?_⟩
  · have : (header ++ count ++ parts.flatten).getD 0 0 = 0 := by
      rw [List.append_assoc, getD_append_left' _ _ _ _ (by omega), header_zero]
    unfold byteAt
    rw [this]
    decide
  · have key : ∀ j, j < 4 → (header ++ count ++ parts.flatten).getD (80 + j) 0 = count.getD j 0 := by
      intro j hj
      rw [List.append_assoc, ← hh, getD_append_right', getD_append_left' _ _ _ _ (by omega)]
    rw [← hcu]
    unfold uintAt byteAt
    have k0 := key 0 (by norm_num)
    have k1 := key 1 (by norm_num)
    have k2 := key 2 (by norm_num)
    have k3 := key 3 (by norm_num)
    simp only [Nat.add_zero, Nat.zero_add, Nat.reduceAdd] at k0 k1 k2 k3 ⊢
    rw [k0, k1, k2, k3]
  · have := triangleAt_skip (a := header ++ count) (hb i hi)
    rw [hhc] at this
    exact this

theorem packVector_iff (v : Vec) : (∃ l, packVector f32 v = .ok l) ↔ Fits f32 v := by
  unfold packVector packFloat Fits
  rcases f32 v.x with _ | x <;> rcases f32 v.y with _ | y <;> rcases f32 v.z with _ | z <;>
    simp [bind, Except.bind, pure, Except.pure]

theorem packTriangle_iff (t : Tri Vec) : (∃ l, packTriangle f32 t = .ok l) ↔
    ∃ n, Geo.Spec.UnitOf n (Geo.Spec.normalOf t) ∧ Fits f32 n ∧ Fits f32 t.a ∧ Fits f32 t.b ∧ Fits f32 t.c := by
  constructor
  · rintro ⟨l, h⟩
    unfold packTriangle at h
    obtain ⟨n, hn, h⟩ := bind_ok h
    obtain ⟨parts, hp, h⟩ := bind_ok h
    have hf := mapM_ok hp
    obtain - | ⟨h1, hf⟩ := hf
    obtain - | ⟨h2, hf⟩ := hf
    obtain - | ⟨h3, hf⟩ := hf
    obtain - | ⟨h4, hf⟩ := hf
    exact ⟨n, normalized_unit hn, (packVector_iff _).mp ⟨_, h1⟩, (packVector_iff _).mp ⟨_, h2⟩,
      (packVector_iff _).mp ⟨_, h3⟩, (packVector_iff _).mp ⟨_, h4⟩⟩
  · rintro ⟨n, hu, h1, h2, h3, h4⟩
    have hn : t.normal = .ok n := Geo.Spec.UnitOf.normalized hu
    obtain ⟨ps, hps⟩ := mapM_ok_of (f := packVector f32) [n, t.a, t.b, t.c] (by
      intro v hv
      simp only [List.mem_cons, List.not_mem_nil, or_false] at hv
      rw [packVector_iff]
      rcases hv with rfl | rfl | rfl | rfl <;> assumption)
    unfold packTriangle
    rw [hn]
    show ∃ l, ((do let parts ← [n, t.a, t.b, t.c].mapM (packVector f32); pure (parts.flatten ++ [0, 0])) : Py _) = .ok l
    rw [hps]
    exact ⟨_, rfl⟩

/-- C43. There is a file exactly if the number of triangles can be encoded, all coordinates can be encoded, and no
triangle is degenerate. -/
theorem C43_succeeds (ts : List (Tri Vec)) : (∃ file, toBytes f32 ts = .ok file) ↔
    ts.length < 2 ^ 32 ∧ ∀ t ∈ ts, ∃ n, Geo.Spec.UnitOf n (Geo.Spec.normalOf t) ∧
      Fits f32 n ∧ Fits f32 t.a ∧ Fits f32 t.b ∧ Fits f32 t.c := by
  constructor
  · rintro ⟨file, h⟩
    unfold toBytes at h
    obtain ⟨count, hc, h⟩ := bind_ok h
    obtain ⟨parts, hp, h⟩ := bind_ok h
    refine ⟨(packCount_ok hc).1, fun t ht => ?_⟩
    rw [← packTriangle_iff]
    have hf := mapM_ok hp
    clear * - hf ht
    induction hf with
    | nil => cases ht
    | cons h1 _ ih =>
      rcases List.mem_cons.mp ht with rfl | ht
      · exact ⟨_, h1⟩
      · exact ih ht
  · rintro ⟨hn, h⟩
    obtain ⟨ps, hps⟩ := mapM_ok_of (f := packTriangle f32) ts fun t ht => (packTriangle_iff t).mpr (h t ht)
    unfold toBytes packCount
    rw [if_pos hn, hps]
    exact ⟨_, rfl⟩

/-- C43. Which exceptions can be raised: a degenerate triangle leads to a division by zero. -/
theorem C43_exceptions (ts : List (Tri Vec)) (e : Exn) (h : toBytes f32 ts = .error e) :
    (e = .structError ∧ 2 ^ 32 ≤ ts.length) ∨ (e = .zeroDivision ∧ ∃ t ∈ ts, Geo.Spec.normalOf t = 0) ∨
      (e = .overflow ∧ ∃ t ∈ ts, ∃ n, Geo.Spec.UnitOf n (Geo.Spec.normalOf t) ∧ ∃ v ∈ [n, t.a, t.b, t.c], ¬ Fits f32 v) := by
  unfold toBytes at h
  rcases bind_error h with h | ⟨count, hc, h⟩
  · left
    unfold packCount at h
    split_ifs at h with hn
    cases h
    exact ⟨rfl, by omega⟩
  rcases bind_error h with h | ⟨parts, hp, h⟩
  · right
    obtain ⟨t, ht, h⟩ := mapM_error _ h
    unfold packTriangle at h
    rcases bind_error h with h | ⟨n, hn, h⟩
    · left
      obtain ⟨h0, rfl⟩ := (Vec.normalized_error _).mp h
      exact ⟨rfl, t, ht, h0⟩
    rcases bind_error h with h | ⟨parts, hp, h⟩
    · right
      obtain ⟨v, hv, h⟩ := mapM_error _ h
      refine ⟨?_, t, ht, n, normalized_unit hn, v, hv, ?_⟩
      · have hpf : ∀ x e, packFloat f32 x = .error e → e = .overflow := by
          intro x e h
          unfold packFloat at h
          rcases hx : f32 x with _ | w <;> rw [hx] at h <;> cases h
          rfl
        unfold packVector at h
        rcases bind_error h with h | ⟨_, -, h⟩
        · exact hpf _ _ h
        rcases bind_error h with h | ⟨_, -, h⟩
        · exact hpf _ _ h
        rcases bind_error h with h | ⟨_, -, h⟩
        · exact hpf _ _ h
        · cases h
      · rw [← packVector_iff, h]
        simp
    · cases h
  · cases h

/-- A triangle, with an encoding that has no large numbers. -/
example : ∃ file, toBytes (fun x => if |x| < 1000 then some (if x = 0 then 0 else if 0 < x then 63 else 191, 0, 0, 0) else none)
    [⟨⟨0, 0, 0⟩, ⟨1, 0, 0⟩, ⟨0, 2, 0⟩⟩] = .ok file ∧ file.length = 134 ∧ uintAt file 80 = 1 ∧
      wordAt file (84 + 12) = (0, 0, 0, 0) ∧ wordAt file (84 + 24) = (63, 0, 0, 0) := by
  have hu : Geo.Spec.UnitOf ⟨0, 0, 1⟩ (Geo.Spec.normalOf ⟨⟨0, 0, 0⟩, ⟨1, 0, 0⟩, ⟨0, 2, 0⟩⟩) := by
    refine ⟨by norm_num [Vec.dot], 2, by norm_num, ?_⟩
    ext <;> norm_num [Geo.Spec.normalOf, Vec.cross]
  obtain ⟨file, hf⟩ := (C43_succeeds (f32 := fun x => if |x| < 1000 then
      some (if x = 0 then 0 else if 0 < x then 63 else 191, 0, 0, 0) else none)
      [⟨⟨0, 0, 0⟩, ⟨1, 0, 0⟩, ⟨0, 2, 0⟩⟩]).mpr ⟨by norm_num, by
        intro t ht
        simp only [List.mem_cons, List.not_mem_nil, or_false] at ht
        subst ht
        refine ⟨_, hu, ?_⟩
        norm_num [Fits]
        exact ⟨⟨nofun, nofun⟩, nofun, ⟨nofun, nofun⟩, nofun, nofun, nofun⟩⟩
  obtain ⟨h1, -, h3, h4⟩ := C43_format _ _ hf
  refine ⟨file, hf, by simpa using h1, by simpa using h3, ?_, ?_⟩
  · have := (h4 0 (by simp)).2.1.1
    norm_num at this
    exact this.symm
  · have := (h4 0 (by simp)).2.2.1.1
    norm_num at this
    exact this.symm

end Chrumm.App
