import Verif.Props.OffsetStart

/-! C101: what the cut loop of an offset outline leaves. -/

namespace Chrumm.Part
open Geo Geo.Spec Spec

/-- `r` is a part of the segment `m`, in the same direction. -/
def PartOf (r m : Segment) : Prop := ∃ t u, 0 ≤ t ∧ t ≤ u ∧ u ≤ 1 ∧ r.a = between2D m.a m.b t ∧ r.b = between2D m.a m.b u

/-- The cross product of two segments. -/
def crossOf (s o : Segment) : ℝ := (s.b.x - s.a.x) * (o.b.y - o.a.y) - (s.b.y - s.a.y) * (o.b.x - o.a.x)

/-- Two segments meet at most at the end of the first, unless they are nearly parallel. -/
def Uncross (s o : Segment) : Prop := ∀ t u, 0 ≤ t → t ≤ 1 → 0 ≤ u → u ≤ 1 → between2D s.a s.b t = between2D o.a o.b u →
  between2D s.a s.b t = s.b ∨ |crossOf s o| < 1 / 1000000

theorem partOf_refl {s : Segment} (h : OnGround s) : PartOf s s :=
  ⟨0, 1, le_rfl, zero_le_one, le_rfl, by ext <;> simp [between2D, h.1], by ext <;> simp [between2D, h.2]⟩

theorem partOf_trans {a b c : Segment} (h1 : PartOf a b) (h2 : PartOf b c) : PartOf a c := by
  obtain ⟨t, u, t0, tu, u1, e1, e2⟩ := h1
  obtain ⟨v, w, v0, vw, w1, f1, f2⟩ := h2
  refine ⟨v + (w - v) * t, v + (w - v) * u, ?_, ?_, ?_, ?_, ?_⟩
  · have := mul_nonneg (sub_nonneg.mpr vw) t0
    linarith
  · have := mul_le_mul_of_nonneg_left tu (sub_nonneg.mpr vw)
    linarith
  · have := mul_le_mul_of_nonneg_left u1 (sub_nonneg.mpr vw)
    linarith
  · rw [e1, f1, f2]
    ext <;> simp only [between2D] <;> ring
  · rw [e2, f1, f2]
    ext <;> simp only [between2D] <;> ring

theorem cross_part {s o r m : Segment} (h1 : PartOf r s) (h2 : PartOf m o) : |crossOf r m| ≤ |crossOf s o| := by
  obtain ⟨t, u, t0, tu, u1, e1, e2⟩ := h1
  obtain ⟨v, w, v0, vw, w1, f1, f2⟩ := h2
  have : crossOf r m = (u - t) * (w - v) * crossOf s o := by
    unfold crossOf
    rw [e1, e2, f1, f2]
    simp only [between2D]
    ring
  rw [this, abs_mul, abs_of_nonneg (mul_nonneg (by linarith) (by linarith))]
  have : (u - t) * (w - v) ≤ 1 := by
    have := mul_le_mul (show u - t ≤ 1 by linarith) (show w - v ≤ 1 by linarith) (by linarith) (by norm_num)
    linarith
  exact mul_le_of_le_one_left (abs_nonneg _) this

/-- A part of the second segment does not cross the first one either. -/
theorem uncross_right {s o m : Segment} (h : Uncross s o) (hm : PartOf m o) (hs : OnGround s) : Uncross s m := by
  intro t u t0 t1 u0 u1 e
  obtain ⟨v, w, v0, vw, w1, f1, f2⟩ := id hm
  have a1 := mul_nonneg (sub_nonneg.mpr vw) u0
  have a2 := mul_le_mul_of_nonneg_left u1 (sub_nonneg.mpr vw)
  refine (h t (v + (w - v) * u) t0 t1 (by linarith) (by linarith) ?_).imp id fun h => (cross_part (partOf_refl hs) hm).trans_lt h
  rw [e, f1, f2]
  ext <;> simp only [between2D] <;> ring

/-- The result of the search for the nearest cut. -/
theorem nearestCut_ok {s : Segment} {k : ℕ} {cs : List Segment} {best r : Option (ℝ × ℕ × Vec)} (h : nearestCut s k cs best = .ok r) :
    (r = none → best = none ∧ ∀ c ∈ cs, s.intersect2D c = .ok none) ∧
    ∀ x, r = some x → (best = some x ∨ ∃ i c, cs[i]? = some c ∧ x.2.1 = k + i ∧ s.intersect2D c = .ok (some x.2.2) ∧ x.1 = (x.2.2 - s.a).magSquared) ∧
      (∀ b, best = some b → x.1 ≤ b.1) ∧ ∀ c ∈ cs, ∀ p, s.intersect2D c = .ok (some p) → x.1 ≤ (p - s.a).magSquared := by
  induction cs generalizing k best with
  | nil =>
    unfold nearestCut at h
    obtain rfl := Except.ok.inj h
    refine ⟨fun h => ⟨h, by simp⟩, fun x hx => ⟨Or.inl hx, fun b hb => ?_, by simp⟩⟩
    rw [hx] at hb
    obtain rfl := Option.some.inj hb
    exact le_rfl
  | cons c cs ih =>
    unfold nearestCut at h
    obtain ⟨pos, hp, h⟩ := bind_ok h
    have shift : ∀ {b' : Option (ℝ × ℕ × Vec)} {x : ℝ × ℕ × Vec}, (∃ i c', cs[i]? = some c' ∧ x.2.1 = k + 1 + i ∧ s.intersect2D c' = .ok (some x.2.2) ∧
        x.1 = (x.2.2 - s.a).magSquared) → b' = some x ∨ ∃ i c', (c :: cs)[i]? = some c' ∧ x.2.1 = k + i ∧ s.intersect2D c' = .ok (some x.2.2) ∧
        x.1 = (x.2.2 - s.a).magSquared := by
      rintro b' x ⟨i, c', h1, h2, h3⟩
      exact Or.inr ⟨i + 1, c', by simpa using h1, by omega, h3⟩
    cases pos with
    | none =>
      dsimp only at h
      obtain ⟨r1, r2⟩ := ih h
      refine ⟨fun h => ⟨(r1 h).1, ?_⟩, fun x hx => ?_⟩
      · intro c' hc
        rcases List.mem_cons.mp hc with rfl | hc
        · exact hp
        · exact (r1 h).2 _ hc
      · obtain ⟨q1, q2, q3⟩ := r2 x hx
        refine ⟨q1.elim Or.inl shift, q2, fun c' hc p hcp => ?_⟩
        rcases List.mem_cons.mp hc with rfl | hc
        · rw [hp] at hcp; cases hcp
        · exact q3 _ hc _ hcp
    | some p =>
      dsimp only at h
      cases best with
      | none =>
        dsimp only at h
        obtain ⟨r1, r2⟩ := ih h
        refine ⟨fun h => absurd (r1 h).1 (by simp), fun x hx => ?_⟩
        obtain ⟨q1, q2, q3⟩ := r2 x hx
        have q2' := q2 _ rfl
        refine ⟨?_, by simp, fun c' hc p' hcp => ?_⟩
        · rcases q1 with q1 | q1
          · obtain rfl := Option.some.inj q1
            exact Or.inr ⟨0, c, rfl, rfl, hp, rfl⟩
          · exact shift q1
        · rcases List.mem_cons.mp hc with rfl | hc
          · rw [hp] at hcp
            obtain rfl := Option.some.inj (Except.ok.inj hcp)
            exact q2'
          · exact q3 _ hc _ hcp
      | some b =>
        dsimp only at h
        split_ifs at h with hlt
        · obtain ⟨r1, r2⟩ := ih h
          refine ⟨fun h => absurd (r1 h).1 (by simp), fun x hx => ?_⟩
          obtain ⟨q1, q2, q3⟩ := r2 x hx
          have q2' := q2 _ rfl
          refine ⟨?_, ?_, fun c' hc p' hcp => ?_⟩
          · rcases q1 with q1 | q1
            · obtain rfl := Option.some.inj q1
              exact Or.inr ⟨0, c, rfl, rfl, hp, rfl⟩
            · exact shift q1
          · intro b' hb'
            obtain rfl := Option.some.inj hb'
            exact le_trans q2' hlt.le
          · rcases List.mem_cons.mp hc with rfl | hc
            · rw [hp] at hcp
              obtain rfl := Option.some.inj (Except.ok.inj hcp)
              exact q2'
            · exact q3 _ hc _ hcp
        · obtain ⟨r1, r2⟩ := ih h
          refine ⟨fun h => absurd (r1 h).1 (by simp), fun x hx => ?_⟩
          obtain ⟨q1, q2, q3⟩ := r2 x hx
          refine ⟨q1.elim Or.inl shift, q2, fun c' hc p' hcp => ?_⟩
          rcases List.mem_cons.mp hc with rfl | hc
          · rw [hp] at hcp
            obtain rfl := Option.some.inj (Except.ok.inj hcp)
            exact (q2 _ rfl).trans (not_lt.mp hlt)
          · exact q3 _ hc _ hcp

/-- Segments without an intersection do not cross. -/
theorem uncross_of_none {s o : Segment} (h : s.intersect2D o = .ok none) : Uncross s o := by
  intro t u t0 t1 u0 u1 e
  right
  by_contra hc
  rw [not_lt] at hc
  have := (C29_intersection s o 0 (between2D s.a s.b t)).mpr ⟨by norm_num, by unfold crossOf at hc; norm_num; linarith, t, u, rfl, e, fun _ => ⟨t0, t1⟩, fun _ => ⟨u0, u1⟩⟩
  rw [h] at this
  cases this

/-- A segment that is cut at its nearest intersection does not cross what it was compared with. -/
theorem uncross_of_cut {s o : Segment} {pos : Vec} {t : ℝ} (hs : s.a.z = 0) (hp : pos = between2D s.a s.b t) (t0 : 0 ≤ t) (t1 : t ≤ 1)
    (h : ∀ p, s.intersect2D o = .ok (some p) → (pos - s.a).magSquared ≤ (p - s.a).magSquared) (hr : ∃ r, s.intersect2D o = .ok r) :
    Uncross ⟨s.a, pos⟩ o := by
  have hpart : PartOf ⟨s.a, pos⟩ s := ⟨0, t, le_rfl, t0, t1, by ext <;> simp [between2D, hs], hp⟩
  obtain ⟨r, hr⟩ := hr
  intro v u v0 v1 u0 u1 e
  dsimp only at e ⊢
  by_cases hc : |crossOf s o| < 1 / 1000000
  · right
    refine lt_of_le_of_lt ?_ hc
    have := mul_le_mul v1 t1 t0 zero_le_one
    have h2 : crossOf ⟨s.a, pos⟩ o = t * crossOf s o := by
      unfold crossOf
      rw [hp]
      simp only [between2D]
      ring
    rw [h2, abs_mul, abs_of_nonneg t0]
    exact mul_le_of_le_one_left (abs_nonneg _) t1
  · left
    have e2 : between2D s.a pos v = between2D s.a s.b (v * t) := by
      rw [hp]
      ext <;> simp only [between2D] <;> ring
    have hx := (C29_intersection s o 0 (between2D s.a s.b (v * t))).mpr ⟨by norm_num, by unfold crossOf at hc; norm_num; linarith, v * t, u, rfl, by rw [← e2, e],
      fun _ => ⟨mul_nonneg v0 t0, by nlinarith⟩, fun _ => ⟨u0, u1⟩⟩
    have := h _ hx
    have hle : t * t * ((s.b.x - s.a.x) ^ 2 + (s.b.y - s.a.y) ^ 2) ≤ v * t * (v * t) * ((s.b.x - s.a.x) ^ 2 + (s.b.y - s.a.y) ^ 2) := by
      rw [hp] at this
      simp only [Vec.magSquared, Vec.dot, between2D, Vec.sub_x, Vec.sub_y, Vec.sub_z, hs] at this
      linarith
    have hD : 0 < (s.b.x - s.a.x) ^ 2 + (s.b.y - s.a.y) ^ 2 := by
      by_contra hn
      have a1 : (s.b.x - s.a.x) ^ 2 ≤ 0 := by nlinarith [sq_nonneg (s.b.y - s.a.y)]
      have a2 : (s.b.y - s.a.y) ^ 2 ≤ 0 := by nlinarith [sq_nonneg (s.b.x - s.a.x)]
      have b1 : s.b.x - s.a.x = 0 := by nlinarith
      have b2 : s.b.y - s.a.y = 0 := by nlinarith
      apply hc
      unfold crossOf
      rw [b1, b2]
      norm_num
    have h3 : t * t ≤ v * t * (v * t) := le_of_mul_le_mul_right hle hD
    have h4 : v * t = t := by
      by_cases ht : t = 0
      · rw [ht]; ring
      · have ht' : 0 < t := lt_of_le_of_ne t0 (Ne.symm ht)
        have : 1 ≤ v * v := by
          by_contra hn
          have := mul_lt_mul_of_pos_right (not_le.mp hn) (mul_pos ht' ht')
          linarith
        have : v = 1 := by nlinarith
        rw [this]; ring
    rw [e2, h4, hp]

theorem setStart_get {pos : Vec} {l : List Segment} {i : ℕ} (h : i ≠ 0) : (setStart pos l)[i]? = l[i]? := by
  cases l with
  | nil => rfl
  | cons a l => cases i with
    | zero => exact absurd rfl h
    | succ i => rfl

/-- What the cut loop leaves: parts of the segments in the same order, that do not cross. -/
structure CutOk (f : Bool) (ss rs : List Segment) : Prop where
  chain : List.IsChain (fun s t => s.b = t.a) rs
  head : rs.head?.map Segment.a = ss.head?.map Segment.a
  last : rs.getLast?.map Segment.b = ss.getLast?.map Segment.b
  apart : ∀ i j r s, i + 2 ≤ j → (f = true → ¬ (i = 0 ∧ j + 1 = rs.length)) → rs[i]? = some r → rs[j]? = some s → Uncross r s
  many : 2 ≤ ss.length → 2 ≤ rs.length
  parts : ∃ g : ℕ → ℕ, StrictMono g ∧ g 0 = 0 ∧ ∀ i r, rs[i]? = some r → ∃ m, ss[g i]? = some m ∧ PartOf r m

theorem cutLoops_ok : ∀ (n : ℕ) (f : Bool) (ss rs : List Segment), ss.length ≤ n → (∀ s ∈ ss, OnGround s) → List.IsChain (fun s t => s.b = t.a) ss →
    cutLoops f ss = .ok rs → CutOk f ss rs := by
  intro n
  induction n with
  | zero =>
    intro f ss rs hn hg hc h
    obtain rfl := List.length_eq_zero_iff.mp (by omega : ss.length = 0)
    unfold cutLoops at h
    obtain rfl := Except.ok.inj h
    exact ⟨List.isChain_nil, rfl, rfl, by simp, by simp, id, strictMono_id, rfl, by simp⟩
  | succ n ih =>
    intro f ss rs hn hg hc h
    cases ss with
    | nil =>
      unfold cutLoops at h
      obtain rfl := Except.ok.inj h
      exact ⟨List.isChain_nil, rfl, rfl, by simp, by simp, id, strictMono_id, rfl, by simp⟩
    | cons s tail =>
      rw [cutLoops] at h
      obtain ⟨cut, h1, h⟩ := bind_ok h
      have hgs := hg s (by simp)
      have htail := (List.isChain_cons.mp hc)
      -- the candidates
      have cand : ∀ m x, 1 ≤ m → tail[m]? = some x → (f = true → m + 1 < tail.length) → x ∈ (if f = true then tail.dropLast else tail).drop 1 := by
        intro m x hm hx hf
        refine List.mem_of_getElem? (i := m - 1) ?_
        rw [List.getElem?_drop, show 1 + (m - 1) = m by omega]
        split_ifs with hft
        · rw [List.getElem?_dropLast, if_pos (by have := hf hft; omega)]
          exact hx
        · exact hx
      cases cut with
      | none =>
        dsimp only at h
        obtain ⟨rest, h2, h⟩ := bind_ok h
        obtain rfl := Except.ok.inj h
        have hcut := (nearestCut_ok h1).1 rfl
        obtain ⟨r1, r2, r3, r4, -, g, g1, g2, g3⟩ := ih false tail rest (by simpa using hn) (fun x hx => hg x (by simp [hx])) htail.2 h2
        refine ⟨List.isChain_cons.mpr ⟨?_, r1⟩, rfl, ?_, ?_, ?_, fun i => if i = 0 then 0 else g (i - 1) + 1, ?_, rfl, ?_⟩
        · intro y hy
          have : rest.head?.map Segment.a = some y.a := by rw [hy]; rfl
          rw [r2] at this
          obtain ⟨z, hz, e⟩ := Option.map_eq_some_iff.mp this
          rw [htail.1 z hz, e]
        · cases hr : rest.getLast? with
          | none =>
            obtain rfl := List.getLast?_eq_none_iff.mp hr
            rw [List.getLast?_nil] at r3
            have ht : tail = [] := by
              rw [← List.getLast?_eq_none_iff]
              simpa using r3.symm
            rw [ht]
          | some y =>
            have hy : tail.getLast?.map Segment.b = some y.b := by rw [← r3, hr]; rfl
            obtain ⟨z, hz, e⟩ := Option.map_eq_some_iff.mp hy
            have hr0 : rest ≠ [] := by rintro rfl; simp at hr
            have ht0 : tail ≠ [] := by rintro rfl; simp at hz
            rw [List.getLast?_cons, List.getLast?_cons, hr, hz]
            simp [e]
        · intro i j r x hij hf hi hj
          cases i with
          | succ i =>
            obtain ⟨j, rfl⟩ : ∃ k, j = k + 1 := ⟨j - 1, by omega⟩
            exact r4 i j r x (by omega) (by simp) (by simpa using hi) (by simpa using hj)
          | zero =>
            obtain ⟨j, rfl⟩ : ∃ k, j = k + 1 := ⟨j - 1, by omega⟩
            obtain rfl : s = r := by simpa using hi
            have hj' : rest[j]? = some x := by simpa using hj
            obtain ⟨m, hm, pm⟩ := g3 j x hj'
            have gj : 1 ≤ g j := by have := g1 (show 0 < j by omega); omega
            refine uncross_right (uncross_of_none (hcut.2 m (cand (g j) m gj hm fun hft => ?_))) pm hgs
            have hl := hf hft
            have jl := (List.getElem?_eq_some_iff.mp hj').1
            have : j + 1 < rest.length := by
              simp only [true_and, List.length_cons] at hl
              omega
            obtain ⟨m', hm', -⟩ := g3 (j + 1) _ (List.getElem?_eq_getElem this)
            have := (List.getElem?_eq_some_iff.mp hm').1
            have := g1 (Nat.lt_succ_self j)
            simp only [Nat.succ_eq_add_one] at this
            omega
        · intro hlen
          cases rest with
          | nil =>
            exfalso
            cases tail with
            | nil => exact absurd hlen (by simp)
            | cons y ys => cases r2
          | cons y ys => simp
        · intro i j hij
          dsimp only
          rw [if_neg (show j ≠ 0 by omega)]
          split_ifs with h0
          · omega
          · have := g1 (show i - 1 < j - 1 by omega)
            omega
        · intro i r hi
          cases i with
          | zero =>
            obtain rfl : s = r := by simpa using hi
            exact ⟨s, rfl, partOf_refl hgs⟩
          | succ i =>
            obtain ⟨m, hm, pm⟩ := g3 i r (by simpa using hi)
            exact ⟨m, by simpa using hm, pm⟩
      | some w =>
        obtain ⟨d, k, pos⟩ := w
        dsimp only at h
        obtain ⟨rest, h2, h⟩ := bind_ok h
        obtain rfl := Except.ok.inj h
        obtain ⟨q1, -, q3⟩ := (nearestCut_ok h1).2 _ rfl
        rcases q1 with q1 | ⟨i0, c, ci, ck, cx, cd⟩
        · cases q1
        dsimp only at ck cx cd q3
        have ci' : tail[k]? = some c := by
          rw [List.getElem?_drop] at ci
          rw [ck]
          split_ifs at ci with hft
          · rw [List.getElem?_dropLast] at ci
            split_ifs at ci
            exact ci
          · exact ci
        have hk := (List.getElem?_eq_some_iff.mp ci').1
        have hdrop : tail.drop k = c :: tail.drop (k + 1) := by
          rw [List.drop_eq_getElem_cons hk, (List.getElem?_eq_some_iff.mp ci').2]
        obtain ⟨-, -, t, u, e1, e2, b1, b2⟩ := (C29_intersection s c 0 pos).mp cx
        have t0 := (b1 (by simp)).1
        have t1 := (b1 (by simp)).2
        have u0 := (b2 rfl).1
        have u1 := (b2 rfl).2
        have hcg := hg c (by simp [List.mem_of_getElem? ci'])
        have pz : pos.z = 0 := by rw [e1]; rfl
        have pc : PartOf ⟨pos, c.b⟩ c := ⟨u, 1, u0, u1, le_rfl, e2, by ext <;> simp [between2D, hcg.2]⟩
        have dropChain : List.IsChain (fun s t : Segment => s.b = t.a) (c :: tail.drop (k + 1)) := by
          rw [← hdrop]
          exact htail.2.suffix (List.drop_suffix k tail)
        have newChain : List.IsChain (fun s t : Segment => s.b = t.a) (setStart pos (tail.drop k)) := by
          rw [hdrop]
          have := List.isChain_cons.mp dropChain
          exact List.isChain_cons.mpr ⟨this.1, this.2⟩
        have newGround : ∀ x ∈ setStart pos (tail.drop k), OnGround x := by
          rw [hdrop]
          intro x hx
          rcases List.mem_cons.mp hx with rfl | hx
          · exact ⟨pz, hcg.2⟩
          · exact hg x (by simp [List.mem_of_mem_drop hx])
        obtain ⟨r1, r2, r3, r4, -, g, g1, g2, g3⟩ := ih false _ rest (by
          rw [setStart_length, List.length_drop]; rw [List.length_cons] at hn; omega) newGround newChain h2
        have r2' : rest.head?.map Segment.a = some pos := by
          rw [r2, hdrop]; rfl
        have r3' : rest.getLast?.map Segment.b = tail.getLast?.map Segment.b := by
          rw [r3, hdrop]
          have : tail.getLast? = (c :: tail.drop (k + 1)).getLast? := by
            rw [← hdrop, List.getLast?_drop, if_neg (by omega)]
          rw [this]
          cases htd : tail.drop (k + 1) with
          | nil => rfl
          | cons y ys => simp [setStart, List.getLast?_cons]
        refine ⟨List.isChain_cons.mpr ⟨?_, r1⟩, rfl, ?_, ?_, ?_, fun i => if i = 0 then 0 else g (i - 1) + k + 1, ?_, rfl, ?_⟩
        · intro y hy
          have : rest.head?.map Segment.a = some y.a := by rw [hy]; rfl
          rw [r2'] at this
          exact Option.some.inj this
        · cases hr : rest.getLast? with
          | none =>
            obtain rfl := List.getLast?_eq_none_iff.mp hr
            cases r2'
          | some y =>
            have hy : tail.getLast?.map Segment.b = some y.b := by rw [← r3', hr]; rfl
            obtain ⟨z, hz, e⟩ := Option.map_eq_some_iff.mp hy
            rw [List.getLast?_cons, List.getLast?_cons, hr, hz]
            simp [e]
        · intro i j r x hij hf hi hj
          cases i with
          | succ i =>
            obtain ⟨j, rfl⟩ : ∃ k, j = k + 1 := ⟨j - 1, by omega⟩
            exact r4 i j r x (by omega) (by simp) (by simpa using hi) (by simpa using hj)
          | zero =>
            obtain ⟨j, rfl⟩ : ∃ k, j = k + 1 := ⟨j - 1, by omega⟩
            obtain rfl : (⟨s.a, pos⟩ : Segment) = r := by simpa using hi
            have hj' : rest[j]? = some x := by simpa using hj
            obtain ⟨m, hm, pm⟩ := g3 j x hj'
            have gj : 1 ≤ g j := by have := g1 (show 0 < j by omega); omega
            rw [setStart_get (by omega), List.getElem?_drop] at hm
            refine uncross_right (uncross_of_cut hgs.1 e1 t0 t1 (fun p hp => ?_) (intersect_ok s m (by norm_num) (by norm_num))) pm ⟨hgs.1, pz⟩
            rw [← cd]
            refine q3 m (cand (k + g j) m (by omega) hm fun hft => ?_) p hp
            have hl := hf hft
            have jl := (List.getElem?_eq_some_iff.mp hj').1
            have : j + 1 < rest.length := by
              simp only [true_and, List.length_cons] at hl
              omega
            obtain ⟨m', hm', -⟩ := g3 (j + 1) _ (List.getElem?_eq_getElem this)
            rw [setStart_get (by have := g1 (Nat.lt_succ_self j); simp only [Nat.succ_eq_add_one] at this; omega), List.getElem?_drop] at hm'
            have := (List.getElem?_eq_some_iff.mp hm').1
            have := g1 (Nat.lt_succ_self j)
            simp only [Nat.succ_eq_add_one] at this
            omega
        · intro hlen
          cases rest with
          | nil =>
            exfalso
            cases r2'
          | cons y ys => simp
        · intro i j hij
          dsimp only
          rw [if_neg (show j ≠ 0 by omega)]
          split_ifs with h0
          · omega
          · have := g1 (show i - 1 < j - 1 by omega)
            omega
        · intro i r hi
          cases i with
          | zero =>
            obtain rfl : (⟨s.a, pos⟩ : Segment) = r := by simpa using hi
            exact ⟨s, rfl, 0, t, le_rfl, t0, t1, by ext <;> simp [between2D, hgs.1], e1⟩
          | succ i =>
            obtain ⟨m, hm, pm⟩ := g3 i r (by simpa using hi)
            simp only [Nat.succ_ne_zero, if_false, Nat.add_sub_cancel]
            by_cases h0 : g i = 0
            · rw [h0, hdrop] at hm
              obtain rfl : (⟨pos, c.b⟩ : Segment) = m := by simpa [setStart] using hm
              exact ⟨c, by rw [h0]; simpa using ci', partOf_trans pm pc⟩
            · rw [setStart_get h0, List.getElem?_drop] at hm
              exact ⟨m, by rw [List.getElem?_cons_succ, Nat.add_comm]; exact hm, pm⟩

/-- The sides of a closed outline. -/
def sidesOf (p : List Vec) : List Segment := (List.range p.length).map fun j => ⟨cyc p j, cyc p (j + 1)⟩

theorem cyc_lt {l : List Vec} {i : ℕ} (h : i < l.length) : cyc l i = l[i] := by
  unfold cyc
  rw [Nat.mod_eq_of_lt h, List.getD_eq_getElem?_getD, List.getElem?_eq_getElem h]
  rfl

/-- Segments that are closed are the sides of the outline of their beginnings. -/
theorem closed_sides {ss : List Segment} (h : ∀ i, i < ss.length → (ss.getD ((i + ss.length - 1) % ss.length) ⟨0, 0⟩).b = (ss.getD i ⟨0, 0⟩).a) :
    ss = sidesOf (ss.map Segment.a) := by
  unfold sidesOf
  apply List.ext_getElem
  · simp
  · intro i h1 h2
    simp only [List.length_map, List.getElem_map, List.getElem_range]
    have e1 : (ss[i]).a = cyc (ss.map Segment.a) i := by rw [cyc_lt (by simpa using h1), List.getElem_map]
    have e2 : (ss[i]).b = cyc (ss.map Segment.a) (i + 1) := by
      by_cases hl : i + 1 < ss.length
      · have := h (i + 1) hl
        rw [show i + 1 + ss.length - 1 = i + ss.length by omega, Nat.add_mod_right, Nat.mod_eq_of_lt h1] at this
        simp only [List.getD_eq_getElem?_getD, List.getElem?_eq_getElem h1, List.getElem?_eq_getElem hl, Option.getD_some] at this
        rw [this, cyc_lt (by simpa using hl), List.getElem_map]
      · have hl : i + 1 = ss.length := by omega
        have := h 0 (by omega)
        rw [show 0 + ss.length - 1 = i by omega, Nat.mod_eq_of_lt h1] at this
        simp only [List.getD_eq_getElem?_getD, List.getElem?_eq_getElem h1, List.getElem?_eq_getElem (show 0 < ss.length by omega), Option.getD_some] at this
        rw [this]
        have hc : cyc (ss.map Segment.a) (i + 1) = cyc (ss.map Segment.a) 0 := by
          have := cyc_period (ss.map Segment.a) 0
          rw [List.length_map, Nat.zero_add] at this
          rw [hl, this]
        rw [hc, cyc_lt (by rw [List.length_map]; omega), List.getElem_map]
    rw [← e1, ← e2]

/-- Connected segments are closed. -/
theorem connect_closed {ss r : List Segment} (h : connect ss = .ok r) : r = sidesOf (r.map Segment.a) := by
  have st : ∀ k ≤ ss.length, ∀ r, (List.range k).foldlM connectStep ss = .ok r → r.length = ss.length ∧
      ∀ i < k, (r.getD ((i + ss.length - 1) % ss.length) ⟨0, 0⟩).b = (r.getD i ⟨0, 0⟩).a := by
    intro k
    induction k with
    | zero =>
      intro _ r hr
      obtain rfl := Except.ok.inj hr
      exact ⟨rfl, by simp⟩
    | succ k ih =>
      intro hk r hr
      rw [List.range_succ, List.foldlM_append] at hr
      obtain ⟨m, hm, hr⟩ := bind_ok hr
      obtain ⟨lm, cm⟩ := ih (by omega) m hm
      rw [List.foldlM_cons] at hr
      obtain ⟨m', hm', hr⟩ := bind_ok hr
      obtain rfl := Except.ok.inj hr
      have hlen := connectStep_length hm'
      refine ⟨hlen.trans lm, ?_⟩
      unfold connectStep at hm'
      dsimp only at hm'
      obtain ⟨x, -, hm'⟩ := bind_ok hm'
      obtain ⟨mid, -, hm'⟩ := bind_ok hm'
      obtain rfl := Except.ok.inj hm'
      rw [lm]
      have g : ∀ j < ss.length, ((m.modify ((k + ss.length - 1) % ss.length) fun s => { s with b := mid }).modify k fun s => { s with a := mid }).getD j ⟨0, 0⟩ =
          ⟨if j = k then mid else (m.getD j ⟨0, 0⟩).a, if j = (k + ss.length - 1) % ss.length then mid else (m.getD j ⟨0, 0⟩).b⟩ := by
        intro j hj
        simp only [List.getD_eq_getElem?_getD, List.getElem?_modify, List.getElem?_eq_getElem (show j < m.length by omega)]
        by_cases h1 : j = k <;> by_cases h2 : j = (k + ss.length - 1) % ss.length
        · simp [h1, ← h2]
        · simp [h1, Ne.symm h2, h1 ▸ h2, h1 ▸ Ne.symm h2]
        · simp [h1, ← h2, Ne.symm h1]
        · simp [h1, h2, Ne.symm h1, Ne.symm h2]
      intro i hi
      have hn : 0 < ss.length := by omega
      rw [g _ (Nat.mod_lt _ hn), g _ (by omega)]
      dsimp only
      by_cases hik : i = k
      · rw [hik, if_pos rfl, if_pos rfl]
      · rw [if_neg hik, if_neg, cm i (by omega)]
        intro he
        apply hik
        have : (i + ss.length - 1 + 1) % ss.length = (k + ss.length - 1 + 1) % ss.length := by rw [Nat.add_mod, he, ← Nat.add_mod]
        rw [show i + ss.length - 1 + 1 = i + ss.length by omega, show k + ss.length - 1 + 1 = k + ss.length by omega, Nat.add_mod_right, Nat.add_mod_right,
          Nat.mod_eq_of_lt (by omega), Nat.mod_eq_of_lt (by omega)] at this
        exact this
  obtain ⟨hl, hc⟩ := st ss.length le_rfl r h
  refine closed_sides fun i hi => ?_
  rw [hl] at hi ⊢
  exact hc i hi

theorem sidesOf_starts (p : List Vec) : (sidesOf p).map Segment.a = p := by
  unfold sidesOf
  apply List.ext_getElem
  · simp
  · intro i h1 h2
    simp only [List.getElem_map, List.getElem_range]
    exact cyc_lt h2

theorem sidesOf_length (p : List Vec) : (sidesOf p).length = p.length := by simp [sidesOf]

theorem cyc_rotate (p : List Vec) (k j : ℕ) : cyc (p.rotate k) j = cyc p (j + k) := by
  by_cases h : p.length = 0
  · rw [List.length_eq_zero_iff.mp h]
    simp [cyc]
  · have h' : 0 < p.length := by omega
    unfold cyc
    rw [List.length_rotate]
    have hj := Nat.mod_lt j h'
    rw [List.getD_eq_getElem?_getD, List.getD_eq_getElem?_getD, List.getElem?_eq_getElem (by rw [List.length_rotate]; exact hj), List.getElem_rotate,
      List.getElem?_eq_getElem (Nat.mod_lt _ h')]
    simp only [Option.getD_some]
    congr 1
    rw [Nat.add_mod, Nat.mod_mod, ← Nat.add_mod]

theorem rotate_sides {p : List Vec} {k : ℕ} (h : k ≤ p.length) : rotateAt (sidesOf p) k = sidesOf (p.rotate k) := by
  unfold sidesOf
  rw [rotateAt_range (f := fun j => (⟨cyc p j, cyc p (j + 1)⟩ : Segment)) (fun i => by
    rw [cyc_period, show i + p.length + 1 = i + 1 + p.length by ring, cyc_period]) h, List.length_rotate]
  apply List.map_congr_left
  intro j _
  rw [cyc_rotate, cyc_rotate, show j + 1 + k = j + k + 1 by ring]

theorem sidesOf_get {p : List Vec} {i : ℕ} (h : i < p.length) : (sidesOf p)[i]? = some ⟨cyc p i, cyc p (i + 1)⟩ := by
  unfold sidesOf
  rw [List.getElem?_map, List.getElem?_range h]
  rfl

theorem sidesOf_chain (p : List Vec) : List.IsChain (fun s t : Segment => s.b = t.a) (sidesOf p) := by
  rw [List.isChain_iff_getElem]
  intro i hi
  simp [sidesOf]

/-- What the cut loop leaves is closed. -/
theorem cut_sides {p : List Vec} {rs : List Segment} (h : CutOk true (sidesOf p) rs) : rs = sidesOf (rs.map Segment.a) := by
  refine closed_sides fun i hi => ?_
  obtain ⟨h1, h2, h3, -, -, -⟩ := h
  by_cases h0 : i = 0
  · subst h0
    have hp : 0 < p.length := by
      by_contra hn
      rw [List.length_eq_zero_iff.mp (by omega : p.length = 0)] at h2
      cases rs with
      | nil => simp at hi
      | cons a l => cases h2
    have e2 : rs.head? = some (rs[0]'hi) := List.head?_eq_getElem?.trans (List.getElem?_eq_getElem hi)
    have e3 : rs.getLast? = some (rs[rs.length - 1]'(by omega)) := List.getLast?_eq_getElem?.trans (List.getElem?_eq_getElem _)
    have e4 : (sidesOf p).head? = some ⟨cyc p 0, cyc p 1⟩ := by rw [List.head?_eq_getElem?, sidesOf_get hp]
    have e5 : (sidesOf p).getLast? = some ⟨cyc p (p.length - 1), cyc p 0⟩ := by
      rw [List.getLast?_eq_getElem?, sidesOf_length, sidesOf_get (by omega), show p.length - 1 + 1 = 0 + p.length by omega, cyc_period]
    rw [e2, e4] at h2
    rw [e3, e5] at h3
    have h2 := Option.some.inj h2
    have h3 := Option.some.inj h3
    rw [show 0 + rs.length - 1 = rs.length - 1 by omega, Nat.mod_eq_of_lt (by omega)]
    simp only [List.getD_eq_getElem?_getD, List.getElem?_eq_getElem hi, List.getElem?_eq_getElem (show rs.length - 1 < rs.length by omega), Option.getD_some]
    dsimp only at h2 h3
    rw [h2, h3]
  · rw [show i + rs.length - 1 = i - 1 + rs.length by omega, Nat.add_mod_right, Nat.mod_eq_of_lt (by omega)]
    have := List.isChain_iff_getElem.mp h1 (i - 1) (by omega)
    simp only [show i - 1 + 1 = i by omega] at this
    simp only [List.getD_eq_getElem?_getD, List.getElem?_eq_getElem hi, List.getElem?_eq_getElem (show i - 1 < rs.length by omega), Option.getD_some]
    exact this

/-- Closed segments stay the same when they are connected again. -/
theorem connect_sides {q : List Vec} (hn : 2 ≤ q.length) (hz : ∀ p ∈ q, p.z = 0) : connect (sidesOf q) = .ok (sidesOf q) := by
  unfold sidesOf
  refine connect_clean (m := fun j => cyc q (j + 1)) hn (cyc_period q) (cyc_period q) (fun i => ?_) (fun i => hz _ (cyc_mem (by omega) i)) ?_
  · rw [show i + q.length + 1 = i + 1 + q.length by ring, cyc_period]
  · intro i a _ b _
    refine ⟨?_, ?_, Or.inl ⟨rfl, rfl⟩⟩
    · unfold left; ring
    · unfold left; ring

/-- Joining the moved sides. -/
theorem moved_connect {e m : List Vec} {d : ℝ} {closed : Bool} {o r : List Segment} (h : MovedOutline e d closed m) (ho : offsetSides e d closed = .ok o)
    (hr : connect o = .ok r) : r = sidesOf m := by
  have hsame := h.same
  have n3 := h.size
  rw [offsetSides_eq n3 h.sides] at ho
  obtain rfl := Except.ok.inj ho
  have pq : ∀ i, cyc m (i + e.length) = cyc m i := fun i => by rw [← hsame, cyc_period]
  have c1 := connect_clean (n := e.length) (by omega) pq (movedStart_period e d closed) (movedEnd_period e d closed) (fun i => h.ground _ (cyc_mem (by omega) i)) (by
    intro i a ha b hb
    have s0 := rightward_moved (d := sideOffset e d closed i) (h.sides i)
    have s1 := rightward_moved (d := sideOffset e d closed (i + 1)) (h.sides (i + 1))
    have o0 := h.on i
    have o1 := h.on (i + 1)
    refine ⟨?_, ?_, ?_⟩
    · simp only [List.mem_cons, List.not_mem_nil, or_false] at ha
      rcases ha with rfl | rfl
      · exact moved_collinear (h.sides i) o0.1 s0.2 o0.2
      · exact moved_collinear (h.sides i) s0.1 s0.2 o0.2
    · simp only [List.mem_cons, List.not_mem_nil, or_false] at hb
      rcases hb with rfl | rfl
      · exact moved_collinear (h.sides (i + 1)) s1.1 o1.2 o1.1
      · exact moved_collinear (h.sides (i + 1)) s1.1 s1.2 o1.1
    · exact (h.corner i).imp id fun c => c a ha b hb)
  rw [c1] at hr
  rw [← Except.ok.inj hr, sidesOf, hsame]

theorem toSegments_sides (e : List Vec) : toSegments e true = sidesOf e := by
  unfold toSegments sidesOf
  rw [show e.length + true.toNat - 1 = e.length by simp]
  apply List.map_congr_left
  intro j hj
  have hj := List.mem_range.mp hj
  unfold cyc
  rw [Nat.mod_eq_of_lt hj]

theorem offsetSides_ground {e : List Vec} {d : ℝ} {c : Bool} {o : List Segment} (h1 : offsetSides e d c = .ok o) : ∀ s ∈ o, OnGround s := by
  unfold offsetSides at h1
  dsimp only at h1
  obtain ⟨off, k1, h1⟩ := bind_ok h1
  have go : ∀ s ∈ off, OnGround s := by
    intro s hs
    obtain ⟨a, -, ha⟩ := forall₂_right_mem (mapM_ok k1) hs
    exact offset2D_ground ha
  cases c with
  | true =>
    obtain rfl := Except.ok.inj h1
    exact go
  | false =>
    obtain ⟨l, k2, h1⟩ := bind_ok h1
    obtain ⟨st, k3, h1⟩ := bind_ok h1
    obtain rfl := Except.ok.inj h1
    intro s hs
    rcases List.mem_append.mp hs with hs | hs
    · exact go s (List.mem_of_mem_dropLast hs)
    · rw [List.mem_singleton.mp hs]
      exact offset2D_ground k3

theorem offsetSides_length {e : List Vec} {d : ℝ} {c : Bool} {o : List Segment} (he : e ≠ []) (h1 : offsetSides e d c = .ok o) : o.length = e.length := by
  unfold offsetSides at h1
  dsimp only at h1
  rw [toSegments_sides] at h1
  obtain ⟨off, k1, h1⟩ := bind_ok h1
  have e1 : off.length = e.length := by rw [← (mapM_ok k1).length_eq, sidesOf_length]
  have := List.length_pos_iff.mpr he
  cases c with
  | true =>
    obtain rfl := Except.ok.inj h1
    exact e1
  | false =>
    obtain ⟨l, k2, h1⟩ := bind_ok h1
    obtain ⟨st, k3, h1⟩ := bind_ok h1
    obtain rfl := Except.ok.inj h1
    simp only [List.length_append, List.length_dropLast, List.length_cons, List.length_nil]
    omega

/-- A point is not too close to the outline. -/
theorem tooClose_iff {e : List Vec} {d : ℝ} {s : Segment} : (!isTooClose (toSegments e true) d s) = true ↔ FarFrom e d s.a := by
  unfold isTooClose FarFrom
  rw [toSegments_sides, Bool.not_eq_true', List.any_eq_false]
  unfold sidesOf
  simp only [List.mem_map, List.mem_range, decide_eq_true_eq, not_lt, forall_exists_index, and_imp, forall_apply_eq_imp_iff₂]
  constructor
  · intro h i hi t t0 t1
    exact (h i hi).trans ((C28_segment_distance ⟨cyc e i, cyc e (i + 1)⟩ s.a).1 t t0 t1)
  · intro h i hi
    obtain ⟨t, t0, t1, ht⟩ := (C28_segment_distance ⟨cyc e i, cyc e (i + 1)⟩ s.a).2
    rw [ht]
    exact h i hi t t0 t1

open Classical in
set_option maxHeartbeats 1000000 in
/-- C101: an offset outline of any shape. `c` consists of the moved and joined sides, and begins where it keeps the distance to the original outline, if
it does so anywhere. `q` is what remains of `c` after the loops are cut off: it does not cross itself any more. The result is `q`, if all of its sides
are long enough; otherwise the short ones are missing. -/
theorem C101_cut {e r : List Vec} {d : ℝ} {closed : Bool} (h : naiveOffset2D e d closed = .ok r) (hd : 1 / 1000000 ≤ |d|) (h3 : 3 ≤ e.length) :
    ∃ c q : List Vec, c.length = e.length ∧ (∀ p ∈ c ++ q, p.z = 0) ∧ (∀ m, MovedOutline e d closed m → m.IsRotated c) ∧
      ((∃ p ∈ c, FarFrom e d p) → ∀ p ∈ c.head?, FarFrom e d p) ∧ CutFrom c q ∧ Uncrossed q ∧
      (∃ l : List ℕ, l.Sublist (List.range q.length) ∧ (∀ i ∈ List.range q.length, i ∈ l ↔ LongSide q i) ∧ r.length = l.length) ∧
      ((∀ i < q.length, LongSide q i) → q.IsRotated r) := by
  unfold naiveOffset2D at h
  rw [if_neg (not_lt.mpr hd)] at h
  dsimp only at h
  obtain ⟨o0, h0, h⟩ := bind_ok h
  obtain ⟨o1, h1, h⟩ := bind_ok h
  obtain ⟨o2, h2, h⟩ := bind_ok h
  obtain ⟨o3, h3', h⟩ := bind_ok h
  obtain ⟨u, h4, h⟩ := bind_ok h
  obtain rfl := Except.ok.inj h
  have l0 := offsetSides_length (by rintro rfl; simp at h3) h0
  have l1 := connect_length h1
  have g1 := connect_ground (offsetSides_ground h0) h1
  have s1 := connect_closed h1
  obtain ⟨p, rfl⟩ : ∃ p, o1 = sidesOf p := ⟨_, s1⟩
  clear s1
  rw [sidesOf_length] at l1
  have pz : ∀ v ∈ p, v.z = 0 := by
    intro v hv
    rw [← sidesOf_starts p] at hv
    obtain ⟨s, hs, rfl⟩ := List.mem_map.mp hv
    exact (g1 s hs).1
  -- the start
  obtain ⟨k, hk, hkl, hfar⟩ : ∃ k, offsetStart (toSegments e true) (sidesOf p) d = k ∧ k < p.length ∧ ((∃ v ∈ p, FarFrom e d v) → FarFrom e d (cyc p k)) := by
    refine ⟨_, rfl, ?_⟩
    unfold offsetStart
    cases hf : (sidesOf p).findIdx? fun s => !isTooClose (toSegments e true) d s with
    | none =>
      refine ⟨by simp only [Option.getD_none]; omega, fun ⟨v, hv, hfv⟩ => ?_⟩
      exfalso
      rw [← sidesOf_starts p] at hv
      obtain ⟨s, hs, rfl⟩ := List.mem_map.mp hv
      have := List.findIdx?_eq_none_iff.mp hf s hs
      rw [tooClose_iff.mpr hfv] at this
      cases this
    | some k =>
      obtain ⟨a1, a2, -⟩ := List.findIdx?_eq_some_iff_getElem.mp hf
      rw [sidesOf_length] at a1
      refine ⟨a1, fun _ => ?_⟩
      have e1 : (sidesOf p)[k]'(by rw [sidesOf_length]; exact a1) = ⟨cyc p k, cyc p (k + 1)⟩ := by simp [sidesOf]
      rw [e1] at a2
      exact tooClose_iff.mp a2
  rw [hk, rotate_sides hkl.le] at h2
  have cl : (p.rotate k).length = e.length := by rw [List.length_rotate]; omega
  have rz : ∀ v ∈ p.rotate k, v.z = 0 := fun v hv => pz v (List.mem_rotate.mp hv)
  have gs : ∀ s ∈ sidesOf (p.rotate k), OnGround s := by
    intro s hs
    unfold sidesOf at hs
    obtain ⟨j, -, rfl⟩ := List.mem_map.mp hs
    exact ⟨rz _ (cyc_mem (by omega) _), rz _ (cyc_mem (by omega) _)⟩
  have cut := cutLoops_ok _ _ _ _ le_rfl gs (sidesOf_chain _) h2
  have s2 := cut_sides cut
  have g2 := cutLoops_ground gs h2
  obtain ⟨q, rfl⟩ : ∃ q, o2 = sidesOf q := ⟨_, s2⟩
  clear s2
  have many := cut.many (by rw [sidesOf_length]; omega)
  rw [sidesOf_length] at many
  have qz : ∀ v ∈ q, v.z = 0 := by
    intro v hv
    rw [← sidesOf_starts q] at hv
    obtain ⟨s, hs, rfl⟩ := List.mem_map.mp hv
    exact (g2 s hs).1
  have hlong : ∀ i, segMagnitude2D ⟨cyc q i, cyc q (i + 1)⟩ = dist2D (cyc q i) (cyc q (i + 1)) := by
    intro i
    unfold segMagnitude2D Vec.magnitude2D dist2D distSq2D
    simp only [Vec.sub_x, Vec.sub_y, pow_two]
  refine ⟨p.rotate k, q, cl, ?_, ?_, ?_, ⟨?_, ?_⟩, ?_, ⟨(List.range q.length).filter fun i => decide (LongSide q i), List.filter_sublist, ?_, ?_⟩, ?_⟩
  · intro v hv
    exact (List.mem_append.mp hv).elim (rz v) (qz v)
  · intro m hm
    have := moved_connect hm h0 h1
    have e2 := congrArg (List.map Segment.a) this
    rw [sidesOf_starts, sidesOf_starts] at e2
    exact ⟨k, by rw [e2]⟩
  · rintro ⟨v, hv, hfv⟩ w hw
    have e2 : (p.rotate k).head? = some (cyc p k) := by
      rw [List.head?_eq_getElem?, List.getElem?_eq_getElem (by omega), ← cyc_lt, cyc_rotate, Nat.zero_add]
    rw [e2] at hw
    obtain rfl := Option.mem_some_iff.mp hw
    exact hfar ⟨v, List.mem_rotate.mp hv, hfv⟩
  · have := cut.head
    rwa [← List.head?_map, ← List.head?_map, sidesOf_starts, sidesOf_starts] at this
  · obtain ⟨g, m, -, hg⟩ := cut.parts
    refine ⟨g, m, fun i hi => ?_⟩
    obtain ⟨x, hx, px⟩ := hg i _ (sidesOf_get hi)
    have hl := (List.getElem?_eq_some_iff.mp hx).1
    rw [sidesOf_length] at hl
    rw [sidesOf_get hl] at hx
    obtain rfl := Option.some.inj hx
    exact ⟨hl, px⟩
  · intro i j t w hij hj hn t0 t1 w0 w1 he
    exact cut.apart i j _ _ hij (fun _ => by rw [sidesOf_length]; exact hn) (sidesOf_get (by omega)) (sidesOf_get hj) t w t0 t1 w0 w1 he
  · intro i hi
    rw [List.mem_filter]
    simp [List.mem_range.mp hi]
  · rw [List.length_map, rotateAt_length, connect_length h3']
    unfold sidesOf
    rw [List.filter_map, List.length_map]
    congr 1
    apply List.filter_congr
    intro i _
    simp only [Function.comp, hlong]
    rfl
  · intro hall
    have e3 : (sidesOf q).filter (fun s => decide (segMagnitude2D s ≥ 1 / 1000)) = sidesOf q := by
      rw [List.filter_eq_self]
      intro s hs
      unfold sidesOf at hs
      obtain ⟨j, hj, rfl⟩ := List.mem_map.mp hs
      rw [hlong]
      exact decide_eq_true (hall j (List.mem_range.mp hj))
    rw [e3, connect_sides many qz] at h3'
    obtain rfl := Except.ok.inj h3'
    have hu : u ≤ q.length := by
      unfold nearestIndex at h4
      obtain ⟨m, hm, h4⟩ := bind_ok h4
      obtain rfl := Except.ok.inj h4
      have := List.idxOf_lt_length_iff.mpr (pyMin_ok hm).1
      rw [List.length_map, sidesOf_length] at this
      exact this.le
    rw [rotate_sides hu, sidesOf_starts]
    exact ⟨u, rfl⟩

theorem clean_moved {e q : List Vec} {d : ℝ} {closed : Bool} (h : CleanOffset e d closed q) : MovedOutline e d closed q :=
  ⟨h.size, h.same, h.ground, h.sides, h.on, h.corner⟩

/-- Three sides of a square are moved inwards: nothing is cut off. -/
example : ∃ r c q : List Vec, naiveOffset2D exSquare (-1) = .ok r ∧ exMoved.IsRotated c ∧ CutFrom c q ∧ Uncrossed q := by
  obtain ⟨r, h1, -⟩ := C101_offset exSquare_clean (by norm_num)
  obtain ⟨c, q, -, -, h2, -, h3, h4, -⟩ := C101_cut h1 (by norm_num) (by decide)
  exact ⟨r, c, q, h1, h2 _ (clean_moved exSquare_clean), h3, h4⟩

end Chrumm.Part
