import Verif.Props.BContour
import Mathlib.Tactic.IntervalCases

/-!
# Properties of the closest point search on contours: C55
-/

set_option linter.unusedSectionVars false
set_option linter.unusedSimpArgs false

namespace PathLib

open Bezier Spec BContour

/-! ## C55 -/

/-- The Euclidean distance of two points. -/
noncomputable def Spec.distance (p q : Pt ℝ) : ℝ := Real.sqrt ((p.1 - q.1) ^ 2 + (p.2 - q.2) ^ 2)

private theorem hypot_eq (p q : Pt ℝ) : butils.hypot (p.1 - q.1) (p.2 - q.2) = distance p q := by
  unfold butils.hypot distance
  congr 1
  ring

private theorem findClosest_fold (p : Pt ℝ) (LUT : List (Pt ℝ)) (k : Nat) (hk : k ≤ LUT.length) :
    let acc := (List.range k).foldl (fun (acc : ℝ × Int) (index : Nat) =>
      let q := LUT.getD index (0, 0)
      let dist := butils.hypot (q.1 - p.1) (q.2 - p.2)
      if dist < acc.1 then (dist, (index : Int)) else acc) (maxSafe, -1)
    (acc = (maxSafe, -1) ∧ ∀ j (hj : j < LUT.length), j < k → maxSafe ≤ distance LUT[j] p) ∨
    ∃ i, ∃ hi : i < LUT.length, i < k ∧ acc = (distance LUT[i] p, (i : Int)) ∧ distance LUT[i] p < maxSafe ∧
      (∀ j (hj : j < LUT.length), j < k → distance LUT[i] p ≤ distance LUT[j] p) ∧
      (∀ j (hj : j < LUT.length), j < i → distance LUT[i] p < distance LUT[j] p) := by
  induction k with
  | zero => left; simp
  | succ k ih =>
    intro acc
    have hk' : k < LUT.length := by omega
    have hacc : acc = (fun (acc : ℝ × Int) (index : Nat) =>
      let q := LUT.getD index (0, 0)
      let dist := butils.hypot (q.1 - p.1) (q.2 - p.2)
      if dist < acc.1 then (dist, (index : Int)) else acc) ((List.range k).foldl (fun (acc : ℝ × Int) (index : Nat) =>
      let q := LUT.getD index (0, 0)
      let dist := butils.hypot (q.1 - p.1) (q.2 - p.2)
      if dist < acc.1 then (dist, (index : Int)) else acc) (maxSafe, -1)) k := by
      simp only [acc, List.range_succ, List.foldl_append, List.foldl_cons, List.foldl_nil]
    have hd : LUT.getD k (0, 0) = LUT[k] := by simp [List.getD, hk']
    simp only [hd, hypot_eq] at hacc
    rcases ih (by omega) with ⟨e, h⟩ | ⟨i, hi, hik, e, h0, h1, h2⟩
    · simp only [hypot_eq] at e
      rw [e] at hacc
      by_cases hlt : distance LUT[k] p < maxSafe
      · right
        rw [if_pos hlt] at hacc
        refine ⟨k, hk', by omega, hacc, hlt, ?_, ?_⟩
        · intro j hj hjk
          rcases Nat.lt_succ_iff_lt_or_eq.mp hjk with h' | rfl
          · exact hlt.le.trans (h j hj h')
          · exact le_rfl
        · intro j hj hjk
          exact hlt.trans_le (h j hj hjk)
      · left
        rw [if_neg hlt] at hacc
        refine ⟨hacc, ?_⟩
        intro j hj hjk
        rcases Nat.lt_succ_iff_lt_or_eq.mp hjk with h' | rfl
        · exact h j hj h'
        · exact not_lt.mp hlt
    · simp only [hypot_eq] at e
      rw [e] at hacc
      right
      by_cases hlt : distance LUT[k] p < distance LUT[i] p
      · rw [if_pos hlt] at hacc
        refine ⟨k, hk', by omega, hacc, hlt.trans h0, ?_, ?_⟩
        · intro j hj hjk
          rcases Nat.lt_succ_iff_lt_or_eq.mp hjk with h' | rfl
          · exact hlt.le.trans (h1 j hj h')
          · exact le_rfl
        · intro j hj hjk
          exact hlt.trans_le (h1 j hj hjk)
      · rw [if_neg hlt] at hacc
        refine ⟨i, hi, by omega, hacc, h0, ?_, h2⟩
        intro j hj hjk
        rcases Nat.lt_succ_iff_lt_or_eq.mp hjk with h' | rfl
        · exact h1 j hj h'
        · exact not_lt.mp hlt

/-- C55: `_findClosest` returns the first index at which the distance is minimal. -/
theorem C55_findClosest (p : Pt ℝ) (LUT : List (Pt ℝ)) (hn : ∃ q ∈ LUT, distance q p < 9007199254740991) :
    ∃ i, ∃ hi : i < LUT.length, findClosest p LUT = (i : Int) ∧
      (∀ j (hj : j < LUT.length), distance LUT[i] p ≤ distance LUT[j] p) ∧
      (∀ j (hj : j < LUT.length), j < i → distance LUT[i] p < distance LUT[j] p) := by
  rcases findClosest_fold p LUT LUT.length le_rfl with ⟨_, h⟩ | ⟨i, hi, _, e, _, h1, h2⟩
  · obtain ⟨q, hq, hd⟩ := hn
    obtain ⟨j, hj, rfl⟩ := List.getElem_of_mem hq
    exact absurd (h j hj hj) (not_le.mpr hd)
  · refine ⟨i, hi, ?_, fun j hj => h1 j hj hj, h2⟩
    unfold findClosest
    rw [e]

/-- C55: and -1 when there is no point at a distance below `MAX_SAFE_INTEGER`. -/
theorem C55_findClosest_none (p : Pt ℝ) (LUT : List (Pt ℝ)) (hn : ∀ q ∈ LUT, 9007199254740991 ≤ distance q p) :
    findClosest p LUT = -1 := by
  rcases findClosest_fold p LUT LUT.length le_rfl with ⟨e, _⟩ | ⟨i, hi, _, _, h0, _⟩
  · unfold findClosest
    rw [e]
  · exact absurd (hn _ (List.getElem_mem hi)) (not_le.mpr h0)

theorem findClosest_range (p : Pt ℝ) (LUT : List (Pt ℝ)) :
    findClosest p LUT = -1 ∨ 0 ≤ findClosest p LUT ∧ findClosest p LUT < LUT.length := by
  by_cases h : ∃ q ∈ LUT, distance q p < 9007199254740991
  · obtain ⟨i, hi, e, _⟩ := C55_findClosest p LUT h
    right; rw [e]; omega
  · left
    push Not at h
    exact C55_findClosest_none p LUT h

example : findClosest ((1:ℝ), 0) [(0, 0), (1, 0), (1, 0)] = 1 := by
  obtain ⟨i, hi, e, h1, h2⟩ := C55_findClosest ((1:ℝ), 0) [(0, 0), (1, 0), (1, 0)]
    ⟨(1, 0), by simp, by norm_num [distance]⟩
  rw [e]
  simp only [List.length_cons, List.length_nil] at hi
  have a := h1 1 (by simp)
  interval_cases i
  · norm_num [distance] at a
  · rfl
  · have b := h2 1 (by simp) (by omega)
    simp at b

/-- What the search has found: nothing, or a point of the curve, strictly between the parameters `A` and `B`, with its distance. -/
def Found (A B : ℝ) (p : Pt ℝ) (ps : Segment ℝ) (q : Pt ℝ) (d : ℝ) : Prop :=
  (q = (0, 0) ∧ d = maxSafe) ∨
    ∃ t, A < t ∧ t < B ∧ Bezier.get ps t = .ok q ∧ d = distance q p ∧ d < maxSafe

private def Good (A B : ℝ) (p : Pt ℝ) (ps : Segment ℝ) (r : Refine) : Prop :=
  Found A B p ps r.q r.closest ∧ ∀ x ∈ r.tt, A ≤ x ∧ x ≤ B

private theorem Found.le {A B : ℝ} {p : Pt ℝ} {ps : Segment ℝ} {q : Pt ℝ} {d : ℝ} (h : Found A B p ps q d) : d ≤ maxSafe := by
  rcases h with ⟨_, rfl⟩ | ⟨_, _, _, _, _, h⟩
  · exact le_rfl
  · exact h.le

private theorem inner_good {A B : ℝ} {p : Pt ℝ} {ps : Segment ℝ} {t1 step : ℝ} {r r' : Refine} {j : Nat}
    (h : refineInner p ps t1 step r j = .ok r') (hr : Good A B p ps r) (h0 : A < t1 + (j : ℝ) * step)
    (h1 : t1 + (j : ℝ) * step < B) : Good A B p ps r' := by
  unfold refineInner at h
  simp only at h
  obtain ⟨n, hn, h⟩ := bind_eq_ok.mp h
  rw [hypot_eq] at h
  have htt : ∀ x ∈ r.tt ++ [t1 + (j : ℝ) * step], A ≤ x ∧ x ≤ B := by
    intro x hx
    rcases List.mem_append.mp hx with hx | hx
    · exact hr.2 x hx
    · simp at hx; subst hx; exact ⟨h0.le, h1.le⟩
  by_cases hlt : distance n p < r.closest
  · simp only [hlt, if_true] at h
    cases h
    exact ⟨.inr ⟨_, h0, h1, hn, rfl, hlt.trans_le hr.1.le⟩, htt⟩
  · simp only [hlt, if_false] at h
    cases h
    exact ⟨hr.1, htt⟩

private theorem pyGet_mem {α : Type} {l : List α} {i : Int} {a : α} (h : pyGet l i = .ok a) : a ∈ l := by
  unfold pyGet at h
  simp only at h
  split_ifs at h
  · split at h
    · cases h; exact List.mem_of_getElem? (by assumption)
    · cases h
  · split at h
    · cases h; exact List.mem_of_getElem? (by assumption)
    · cases h

/-- One round: either the search ends, or it goes on with what it found between `t1` and `t2`. -/
private theorem round_good {A B : ℝ} {p : Pt ℝ} {ps : Segment ℝ} (n : Nat) {r r' : Refine}
    (h : refineLoop p ps (n + 1) r = .ok r') (hr : Found A B p ps r.q r.closest)
    (htt : ∀ t, pyGet r.tt (if r.i = 0 then 0 else r.i - 1) = .ok t ∨
      pyGet r.tt (if r.i = (r.lut.length : Int) - 1 then r.i else r.i + 1) = .ok t → A ≤ t ∧ t ≤ B) :
    r' = r ∨ ∃ r'', refineLoop p ps n r'' = .ok r' ∧ Good A B p ps r'' := by
  unfold refineLoop at h
  simp only at h
  generalize (if r.i = 0 then 0 else r.i - 1) = i1 at h htt
  generalize (if r.i = (r.lut.length : Int) - 1 then r.i else r.i + 1) = i2 at h htt
  obtain ⟨t1, ht1, h⟩ := bind_eq_ok.mp h
  obtain ⟨t2, ht2, h⟩ := bind_eq_ok.mp h
  have b1 := htt _ (.inl ht1)
  have b2 := htt _ (.inr ht2)
  by_cases hs : (t2 - t1) / 5 < 1 / 1000
  · rw [if_pos hs] at h
    cases h
    exact .inl rfl
  rw [if_neg hs] at h
  obtain ⟨l1, hl1, h⟩ := bind_eq_ok.mp h
  obtain ⟨t1', ht1', h⟩ := bind_eq_ok.mp h
  obtain ⟨r1, hr1, h⟩ := bind_eq_ok.mp h
  obtain ⟨l2, hl2, h⟩ := bind_eq_ok.mp h
  obtain ⟨t2', ht2', h⟩ := bind_eq_ok.mp h
  rw [ht1] at ht1'
  cases ht1'
  rw [ht2] at ht2'
  cases ht2'
  have hs' : (1:ℝ) / 1000 ≤ (t2 - t1) / 5 := not_lt.mp hs
  have g0 : Good A B p ps { r with lut := [l1], tt := [t1] } := ⟨hr, by intro x hx; simp at hx; subst hx; exact b1⟩
  have g1 : Good A B p ps r1 := by
    simp only [List.foldlM_cons, List.foldlM_nil] at hr1
    obtain ⟨ra, ha, hr1⟩ := bind_eq_ok.mp hr1
    obtain ⟨rb, hb, hr1⟩ := bind_eq_ok.mp hr1
    obtain ⟨rc, hc, hr1⟩ := bind_eq_ok.mp hr1
    cases hr1
    have ga := inner_good ha g0 (by push_cast; linarith) (by push_cast; linarith)
    have gb := inner_good hb ga (by push_cast; linarith) (by push_cast; linarith)
    exact inner_good hc gb (by push_cast; linarith) (by push_cast; linarith)
  refine .inr ⟨_, h, g1.1, ?_⟩
  intro x hx
  rcases List.mem_append.mp hx with hx | hx
  · exact g1.2 x hx
  · simp at hx; subst hx; exact b2

private theorem loop_good {A B : ℝ} {p : Pt ℝ} {ps : Segment ℝ} (n : Nat) {r r' : Refine} (h : refineLoop p ps n r = .ok r')
    (hr : Good A B p ps r) : Found A B p ps r'.q r'.closest := by
  induction n generalizing r with
  | zero => cases h; exact hr.1
  | succ n ih =>
    rcases round_good n h hr.1 (fun t ht => ht.elim (fun h => hr.2 _ (pyGet_mem h)) fun h => hr.2 _ (pyGet_mem h)) with e | ⟨r'', h', g⟩
    · rw [e]; exact hr.1
    · exact ih h' g

theorem tt_range (n : Nat) (tt : List ℝ)
    (h : (List.range n).mapM (fun (t : Nat) => pdiv (t : ℝ) ((n : ℝ) - 1)) = .ok tt) : ∀ x ∈ tt, 0 ≤ x ∧ x ≤ 1 := by
  rw [mapM_eq_ok_iff] at h
  intro x hx
  have hf := h.flip
  have : ∃ t ∈ List.range n, pdiv (t : ℝ) ((n : ℝ) - 1) = .ok x := by
    clear h
    generalize List.range n = l at hf ⊢
    induction hf with
    | nil => simp at hx
    | cons hr _ ih =>
      rcases List.mem_cons.mp hx with rfl | hx
      · exact ⟨_, by simp, hr⟩
      · obtain ⟨t, ht, e⟩ := ih hx
        exact ⟨t, by simp [ht], e⟩
  obtain ⟨t, ht, e⟩ := this
  have htn : t < n := List.mem_range.mp ht
  unfold pdiv at e
  split_ifs at e with h0
  cases e
  have h1 : (t : ℝ) ≤ n - 1 := by
    have : (t : ℝ) + 1 ≤ n := by exact_mod_cast htn
    linarith
  have h2 : (0 : ℝ) ≤ t := by positivity
  have h3 : (0 : ℝ) ≤ (n : ℝ) - 1 := h2.trans h1
  refine ⟨by positivity, ?_⟩
  rw [div_le_one (lt_of_le_of_ne h3 (Ne.symm h0))]
  exact h1

private theorem refineBinary_found {p : Pt ℝ} {ps : Segment ℝ} {lut : List (Pt ℝ)} {i : Int} {q : Pt ℝ} {d : ℝ}
    (h : refineBinary p ps lut i = .ok (q, d)) : Found 0 1 p ps q d := by
  unfold refineBinary at h
  obtain ⟨tt, htt, h⟩ := bind_eq_ok.mp h
  obtain ⟨r, hr, h⟩ := bind_eq_ok.mp h
  cases h
  exact loop_good 25 hr ⟨.inl ⟨rfl, rfl⟩, tt_range _ tt htt⟩

/-- The refinement stays between the neighbours of the index it starts from. -/
theorem refineBinary_window {p : Pt ℝ} {ps : Segment ℝ} {lut : List (Pt ℝ)} {i : Int} {q : Pt ℝ} {d : ℝ}
    (h : refineBinary p ps lut i = .ok (q, d)) (A B : ℝ)
    (hw : ∀ tt : List ℝ, (List.range lut.length).mapM (fun (t : Nat) => pdiv (t : ℝ) ((lut.length : ℝ) - 1)) = .ok tt →
      ∀ t, pyGet tt (if i = 0 then 0 else i - 1) = .ok t ∨ pyGet tt (if i = (lut.length : Int) - 1 then i else i + 1) = .ok t →
        A ≤ t ∧ t ≤ B) : Found A B p ps q d := by
  unfold refineBinary at h
  obtain ⟨tt, htt, h⟩ := bind_eq_ok.mp h
  obtain ⟨r, hr, h⟩ := bind_eq_ok.mp h
  cases h
  rcases round_good (A := A) (B := B) 24 hr (.inl ⟨rfl, rfl⟩) (hw tt htt) with e | ⟨r'', h', g⟩
  · rw [e]; exact .inl ⟨rfl, rfl⟩
  · exact loop_good 24 h' g

theorem pick_mem {bs : List Bezier} {steps i i' : Int} {b : Bezier} {b2 : Option Bezier}
    (h : pick bs steps i = .ok (b, b2, i')) : b ∈ bs ∧ ∀ x, b2 = some x → x ∈ bs := by
  unfold pick at h
  simp only at h
  split_ifs at h with h1 h2 h3 h4
  · obtain ⟨c, hc, h⟩ := bind_eq_ok.mp h
    obtain ⟨c', hc', h⟩ := bind_eq_ok.mp h
    cases h
    exact ⟨pyGet_mem hc, by intro x hx; cases hx; exact pyGet_mem hc'⟩
  · obtain ⟨c, hc, h⟩ := bind_eq_ok.mp h
    cases h
    exact ⟨pyGet_mem hc, by simp⟩
  · obtain ⟨c, hc, h⟩ := bind_eq_ok.mp h
    obtain ⟨c', hc', h⟩ := bind_eq_ok.mp h
    obtain ⟨c'', hc'', hc'⟩ := bind_eq_ok.mp hc'
    cases hc'
    cases h
    exact ⟨pyGet_mem hc, by intro x hx; cases hx; exact pyGet_mem hc''⟩
  · obtain ⟨c, hc, h⟩ := bind_eq_ok.mp h
    obtain ⟨c', hc', h⟩ := bind_eq_ok.mp h
    cases hc'
    cases h
    exact ⟨pyGet_mem hc, by simp⟩

/-- C55: whatever the state of the contour, `findClosestPoint` returns the distance of a point on one of the curves (strictly
inside it), or the initial values `(MAX_SAFE_INTEGER, (0, 0))`. -/
theorem C55_result (p : Pt ℝ) (steps : Int) (c : BContour) (d : ℝ) (q : Pt ℝ)
    (h : (findClosestPoint p steps c).1 = .ok (d, q)) :
    (d = 9007199254740991 ∧ q = (0, 0)) ∨
    ∃ b ∈ c.iter, ∃ t, 0 < t ∧ t < 1 ∧ Bezier.get b.controlPoints t = .ok q ∧ d = distance q p ∧ d < 9007199254740991 := by
  have key : ∀ (bs : List Bezier) (lut : List (Pt ℝ)), (do
      let (curve, curve2, i) ← pick bs steps (findClosest p lut)
      closestOn p steps curve curve2 i : Py (ℝ × Pt ℝ)) = .ok (d, q) → (d = 9007199254740991 ∧ q = (0, 0)) ∨
    ∃ b ∈ bs, ∃ t, 0 < t ∧ t < 1 ∧ Bezier.get b.controlPoints t = .ok q ∧ d = distance q p ∧ d < 9007199254740991 := by
    intro bs lut h
    obtain ⟨⟨b, b2, i⟩, hp, h⟩ := bind_eq_ok.mp h
    obtain ⟨m1, m2⟩ := pick_mem hp
    simp only at h
    unfold closestOn at h
    obtain ⟨l1, _, h⟩ := bind_eq_ok.mp h
    obtain ⟨⟨q1, d1⟩, hq1, h⟩ := bind_eq_ok.mp h
    have f1 := refineBinary_found hq1
    have fin : ∀ (b : Bezier), b ∈ bs → Found 0 1 p b.controlPoints q d → (d = 9007199254740991 ∧ q = (0, 0)) ∨
      ∃ b ∈ bs, ∃ t, 0 < t ∧ t < 1 ∧ Bezier.get b.controlPoints t = .ok q ∧ d = distance q p ∧ d < 9007199254740991 := by
      intro b hb hf
      rcases hf with ⟨h1, h2⟩ | ⟨t, h1, h2, h3, h4, h5⟩
      · exact .inl ⟨h2, h1⟩
      · exact .inr ⟨b, hb, t, h1, h2, h3, h4, h5⟩
    cases b2 with
    | none => cases h; exact fin b m1 f1
    | some b2 =>
      simp only at h
      obtain ⟨l2, _, h⟩ := bind_eq_ok.mp h
      obtain ⟨⟨q2, d2⟩, hq2, h⟩ := bind_eq_ok.mp h
      have f2 := refineBinary_found hq2
      simp only at h
      split_ifs at h with hlt
      · cases h; exact fin b2 (m2 b2 rfl) f2
      · cases h; exact fin b m1 f1
  unfold findClosestPoint getLUT at h
  split_ifs at h with h1
  · exact key _ _ h
  · cases hl : lutLoop steps c.beziers 0 [] with
    | mk e lut =>
      rw [hl] at h
      cases e with
      | error e => cases h
      | ok u => exact key _ _ h

/-- C55: so the search never returns the end of a curve: for the end point of a line the distance found is positive, although
the last entry of the look-up table is the point itself. -/
theorem C55_not_closest_counterexample (steps : Int) (c : BContour) (d : ℝ) (q : Pt ℝ)
    (hc : BContour.new [[((0:ℝ), 0), (1, 0)]] = .ok c) (h : (findClosestPoint (1, 0) steps c).1 = .ok (d, q)) :
    Bezier.get [((0:ℝ), 0), (1, 0)] 1 = .ok (1, 0) ∧ 0 < d := by
  refine ⟨by norm_num [Bezier.get, order], ?_⟩
  rcases C55_result (1, 0) steps c d q h with ⟨h, _⟩ | ⟨b, hb, t, h0, h1, hq, hd, _⟩
  · rw [h]; norm_num
  · have e := (C52_history _ c hc []).1
    simp only [List.foldl_nil] at e
    have : b.controlPoints ∈ c.iter.map (·.controlPoints) := List.mem_map_of_mem hb
    rw [e] at this
    simp at this
    rw [this, get_ok _ (by simp), curve_two] at hq
    cases hq
    rw [hd]
    unfold distance
    apply Real.sqrt_pos_of_pos
    simp
    have : t - 1 ≠ 0 := by linarith
    positivity

/-! ### When the search succeeds -/

private theorem inner_ok {p : Pt ℝ} {ps : Segment ℝ} (hps : ps ≠ []) (hnear : ∀ t, 0 ≤ t → t ≤ 1 → distance (curve ps t) p < maxSafe)
    {t1 step : ℝ} {r : Refine} {j : Nat} (h0 : 0 ≤ t1 + (j : ℝ) * step) (h1 : t1 + (j : ℝ) * step ≤ 1) (hj : 1 ≤ j ∧ j ≤ 3)
    (hr : r.closest = maxSafe ∨ r.closest < maxSafe ∧ 1 ≤ r.i ∧ r.i ≤ 3) :
    ∃ r', refineInner p ps t1 step r j = .ok r' ∧ r'.closest < maxSafe ∧ 1 ≤ r'.i ∧ r'.i ≤ 3 ∧
      r'.lut.length = r.lut.length + 1 ∧ r'.tt.length = r.tt.length + 1 ∧ r'.closest ≤ r.closest ∧
      r'.closest ≤ distance (curve ps (t1 + (j : ℝ) * step)) p := by
  unfold refineInner
  simp only [get_ok ps hps, ok_bind, hypot_eq]
  have hn := hnear _ h0 h1
  by_cases hlt : distance (curve ps (t1 + (j : ℝ) * step)) p < r.closest
  · simp only [hlt, if_true]
    refine ⟨_, rfl, hn, ?_, ?_, by simp, by simp, hlt.le, le_rfl⟩ <;> simp <;> omega
  · simp only [hlt, if_false]
    rcases hr with hr | ⟨h3, h4⟩
    · rw [hr] at hlt; exact absurd hn hlt
    · exact ⟨_, rfl, h3, h4.1, h4.2, by simp, by simp, le_rfl, not_lt.mp hlt⟩

theorem loop_ok {p : Pt ℝ} {ps : Segment ℝ} (hps : ps ≠ []) (hnear : ∀ t, 0 ≤ t → t ≤ 1 → distance (curve ps t) p < maxSafe)
    (n : Nat) (r : Refine) (hl : r.lut.length = r.tt.length) (htt : ∀ x ∈ r.tt, 0 ≤ x ∧ x ≤ 1)
    (hi : 0 ≤ r.i ∧ r.i < r.tt.length)
    (hr : r.closest = maxSafe ∨ r.closest < maxSafe ∧ 1 ≤ r.i ∧ r.i ≤ 3) :
    ∃ r', refineLoop p ps n r = .ok r' ∧ r'.closest ≤ r.closest ∧
      (n ≠ 0 → ∀ t1 t2, pyGet r.tt (if r.i = 0 then 0 else r.i - 1) = .ok t1 →
        pyGet r.tt (if r.i = r.lut.length - 1 then r.i else r.i + 1) = .ok t2 → 1 / 1000 ≤ (t2 - t1) / 5 →
        r'.closest < maxSafe ∧ ∀ j : Nat, 1 ≤ j → j ≤ 3 → r'.closest ≤ distance (curve ps (t1 + (j : ℝ) * ((t2 - t1) / 5))) p) := by
  induction n generalizing r with
  | zero => exact ⟨r, rfl, le_rfl, by simp⟩
  | succ n ih =>
    obtain ⟨i1, e1⟩ : ∃ i1 : Nat, (if r.i = 0 then 0 else r.i - 1) = (i1 : Int) :=
      ⟨(if r.i = 0 then 0 else r.i - 1).toNat, by split_ifs <;> omega⟩
    obtain ⟨i2, e2⟩ : ∃ i2 : Nat, (if r.i = r.lut.length - 1 then r.i else r.i + 1) = (i2 : Int) :=
      ⟨(if r.i = r.lut.length - 1 then r.i else r.i + 1).toNat, by split_ifs <;> omega⟩
    have hi1 : i1 < r.tt.length := by split_ifs at e1 <;> omega
    have hi2 : i2 < r.tt.length := by split_ifs at e2 <;> omega
    unfold refineLoop
    simp only
    rw [e1, e2, pyGet_nat_lt _ _ hi1, pyGet_nat_lt _ _ hi2, pyGet_nat_lt r.lut i1 (by omega), pyGet_nat_lt r.lut i2 (by omega)]
    simp only [ok_bind]
    by_cases hs : (r.tt[i2] - r.tt[i1]) / 5 < 1 / 1000
    · rw [if_pos hs]
      refine ⟨r, rfl, le_rfl, fun _ t1 t2 h1 h2 h => ?_⟩
      cases h1
      cases h2
      exact absurd hs (not_lt.mpr h)
    · rw [if_neg hs]
      have hs' := not_lt.mp hs
      have b1 := htt _ (List.getElem_mem hi1)
      have b2 := htt _ (List.getElem_mem hi2)
      set t1 := r.tt[i1]
      set t2 := r.tt[i2]
      obtain ⟨ra, ha, a1, a2, a3, a4, a5, a6, a7⟩ := inner_ok (p := p) hps hnear (t1 := t1) (step := (t2 - t1) / 5)
        (r := { r with lut := [r.lut[i1]], tt := [t1] }) (j := 1) (by push_cast; linarith) (by push_cast; linarith) (by omega) hr
      obtain ⟨rb, hb, c1, c2, c3, c4, c5, c6, c7⟩ := inner_ok (p := p) hps hnear (t1 := t1) (step := (t2 - t1) / 5)
        (r := ra) (j := 2) (by push_cast; linarith) (by push_cast; linarith) (by omega) (.inr ⟨a1, a2, a3⟩)
      obtain ⟨rc, hc, d1, d2, d3, d4, d5, d6, d7⟩ := inner_ok (p := p) hps hnear (t1 := t1) (step := (t2 - t1) / 5)
        (r := rb) (j := 3) (by push_cast; linarith) (by push_cast; linarith) (by omega) (.inr ⟨c1, c2, c3⟩)
      have hfold : [1, 2, 3].foldlM (refineInner p ps t1 ((t2 - t1) / 5)) { r with lut := [r.lut[i1]], tt := [t1] } = .ok rc := by
        simp only [List.foldlM_cons, List.foldlM_nil, ha, hb, hc, ok_bind, pure_eq_ok]
      have hgood : ∀ x ∈ rc.tt, 0 ≤ x ∧ x ≤ 1 := by
        have key : ∀ {r r' : Refine} {j : Nat}, refineInner p ps t1 ((t2 - t1) / 5) r j = .ok r' →
            r'.tt = r.tt ++ [t1 + (j : ℝ) * ((t2 - t1) / 5)] := by
          intro r r' j h
          unfold refineInner at h
          simp only [get_ok ps hps, ok_bind] at h
          split_ifs at h <;> cases h <;> rfl
        rw [key hc, key hb, key ha]
        intro x hx
        simp at hx
        rcases hx with rfl | rfl | rfl | rfl
        · exact b1
        all_goals constructor <;> linarith
      rw [hfold, ok_bind]
      simp only [List.length_cons, List.length_nil] at a4 a5
      obtain ⟨r', e, h1, _⟩ := ih { rc with lut := rc.lut ++ [r.lut[i2]], tt := rc.tt ++ [t2] }
        (by simp; omega) (by
          intro x hx
          rcases List.mem_append.mp hx with hx | hx
          · exact hgood x hx
          · simp at hx; subst hx; exact b2) (by simp; omega) (.inr ⟨d1, d2, d3⟩)
      simp only at h1 a6
      refine ⟨r', e, by linarith, fun _ s1 s2 e1 e2 _ => ?_⟩
      cases e1
      cases e2
      refine ⟨h1.trans_lt d1, fun j j1 j3 => ?_⟩
      interval_cases j
      · exact h1.trans (d6.trans (c6.trans a7))
      · exact h1.trans (d6.trans c7)
      · exact h1.trans d7

theorem tt_ok (n : Nat) (hn : 2 ≤ n) :
    (List.range n).mapM (fun (t : Nat) => pdiv (t : ℝ) ((n : ℝ) - 1)) =
      .ok ((List.range n).map fun (t : Nat) => (t : ℝ) / ((n : ℝ) - 1)) := by
  apply mapM_ok
  intro t _
  apply pdiv_of_ne
  have : (2 : ℝ) ≤ n := by exact_mod_cast hn
  linarith

theorem tt_get (n k : Nat) (hk : k < n) :
    pyGet ((List.range n).map fun (t : Nat) => (t : ℝ) / ((n : ℝ) - 1)) (k : Int) = .ok ((k : ℝ) / ((n : ℝ) - 1)) := by
  rw [pyGet_nat_lt _ _ (by simpa using hk)]
  simp

theorem refineBinary_ok {p : Pt ℝ} {ps : Segment ℝ} (hps : ps ≠ [])
    (hnear : ∀ t, 0 ≤ t → t ≤ 1 → distance (curve ps t) p < maxSafe) (lut : List (Pt ℝ)) (hn : 2 ≤ lut.length) (i : Int)
    (hi : 0 ≤ i ∧ i < lut.length) :
    ∃ q d, refineBinary p ps lut i = .ok (q, d) ∧ (lut.length ≤ 201 → d < maxSafe ∧ ∀ j : Nat, 1 ≤ j → j ≤ 3 →
      ∀ i1 i2 : Nat, (i1 : Int) = (if i = 0 then 0 else i - 1) → (i2 : Int) = (if i = lut.length - 1 then i else i + 1) →
      d ≤ distance (curve ps ((i1 + (j : ℝ) * ((i2 - i1) / 5)) / ((lut.length : ℝ) - 1))) p) := by
  unfold refineBinary
  rw [tt_ok _ hn, ok_bind]
  obtain ⟨r, e, _, h⟩ := loop_ok (p := p) hps hnear 25
    { i := i, lut := lut, tt := (List.range lut.length).map fun (t : Nat) => (t : ℝ) / ((lut.length : ℝ) - 1),
      q := (0, 0), closest := maxSafe } (by simp) (tt_range _ _ (tt_ok _ hn)) (by simpa using hi) (.inl rfl)
  rw [e]
  refine ⟨r.q, r.closest, rfl, fun h201 => ?_⟩
  simp only at h
  obtain ⟨k, rfl⟩ : ∃ k : Nat, i = k := ⟨i.toNat, by omega⟩
  have hR : (0 : ℝ) < (lut.length : ℝ) - 1 := by
    have : (2 : ℝ) ≤ lut.length := by exact_mod_cast hn
    linarith
  have hR2 : (lut.length : ℝ) - 1 ≤ 200 := by
    have : (lut.length : ℝ) ≤ 201 := by exact_mod_cast h201
    linarith
  have key : ∀ i1 i2 : Nat, i1 < lut.length → i2 < lut.length → i1 + 1 ≤ i2 →
      (1:ℝ) / 1000 ≤ ((i2 : ℝ) / ((lut.length : ℝ) - 1) - (i1 : ℝ) / ((lut.length : ℝ) - 1)) / 5 := by
    intro i1 i2 _ _ h
    rw [← sub_div, div_div, div_le_div_iff₀ (by norm_num) (by positivity)]
    have : (i1 : ℝ) + 1 ≤ i2 := by exact_mod_cast h
    nlinarith
  have fin : ∀ i1 i2 : Nat, (i1 : Int) = (if (k : Int) = 0 then 0 else (k : Int) - 1) →
      (i2 : Int) = (if (k : Int) = lut.length - 1 then (k : Int) else (k : Int) + 1) →
      r.closest < maxSafe ∧ ∀ j : Nat, 1 ≤ j → j ≤ 3 →
        r.closest ≤ distance (curve ps ((i1 + (j : ℝ) * ((i2 - i1) / 5)) / ((lut.length : ℝ) - 1))) p := by
    intro i1 i2 e1 e2
    have b1 : i1 < lut.length := by split_ifs at e1 <;> omega
    have b2 : i2 < lut.length := by split_ifs at e2 <;> omega
    have b3 : i1 + 1 ≤ i2 := by split_ifs at e1 e2 <;> omega
    rw [← e1, ← e2] at h
    obtain ⟨g1, g2⟩ := h (by norm_num) _ _ (tt_get _ _ b1) (tt_get _ _ b2) (key i1 i2 b1 b2 b3)
    refine ⟨g1, fun j j1 j3 => ?_⟩
    convert g2 j j1 j3 using 3
    field_simp
  refine ⟨(fin (if (k : Int) = 0 then 0 else (k : Int) - 1).toNat (if (k : Int) = lut.length - 1 then (k : Int) else (k : Int) + 1).toNat
    (by split_ifs <;> omega) (by split_ifs <;> omega)).1, fun j j1 j3 i1 i2 e1 e2 => (fin i1 i2 e1 e2).2 j j1 j3⟩

theorem pick_ok (bs : List Bezier) (hbs : bs ≠ []) (n : Nat) (hn : 2 ≤ n) (k : Nat)
    (hk : k < bs.length * (n - 1) + 1) :
    ∃ b b2 i, pick bs n k = .ok (b, b2, i) ∧ 0 ≤ i ∧ i < n ∧
      ∃ m, ∃ hm : m < bs.length, b = bs[m] ∧ ((m = 0 ∧ i = k) ∨ (1 ≤ m ∧ (k : Int) = m * (n - 1 : Nat) + (i + 1) ∧ i + 1 < n)) := by
  have hlen : 0 < bs.length := List.length_pos_iff.mpr hbs
  unfold pick
  by_cases h1 : (k : Int) < n
  · simp only [h1, if_true]
    rw [show (0 : Int) = ((0 : Nat) : Int) from rfl, pyGet_nat_lt _ _ hlen, ok_bind]
    by_cases h2 : (k : Int) = n - 1 ∧ 2 ≤ (bs.length : Int)
    · rw [if_pos h2, show (1 : Int) = ((1 : Nat) : Int) from rfl, pyGet_nat_lt _ _ (by omega)]
      exact ⟨_, _, _, rfl, by omega, h1, 0, hlen, rfl, .inl ⟨rfl, rfl⟩⟩
    · rw [if_neg h2]
      exact ⟨_, _, _, rfl, by omega, h1, 0, hlen, rfl, .inl ⟨rfl, rfl⟩⟩
  · simp only [h1, if_false]
    rw [if_neg (by omega)]
    have hs : (n : Int) - 1 = ((n - 1 : Nat) : Int) := by omega
    have hi : (k : Int) - n = ((k - n : Nat) : Int) := by omega
    have hd : Int.fdiv ((k : Int) - n) ((n : Int) - 1) + 1 = (((k - n) / (n - 1) + 1 : Nat) : Int) := by
      rw [hs, hi, Int.fdiv_eq_ediv_of_nonneg _ (by omega)]
      norm_cast
    have hlt : (k - n) / (n - 1) + 1 < bs.length := by
      have : (k - n) / (n - 1) < bs.length - 1 := by
        rw [Nat.div_lt_iff_lt_mul (by omega), Nat.sub_mul]
        omega
      omega
    have hm : Int.fmod ((k : Int) - n) ((n : Int) - 1) = (((k - n) % (n - 1) : Nat) : Int) := by
      rw [hs, hi, Int.fmod_eq_emod_of_nonneg _ (by omega)]
      norm_cast
    have hmlt := Nat.mod_lt (k - n) (show 0 < n - 1 by omega)
    have hkeq : (k : Int) = (((k - n) / (n - 1) + 1 : Nat) : Int) * ((n - 1 : Nat) : Int) + ((((k - n) % (n - 1) : Nat) : Int) + 1) := by
      have := Nat.div_add_mod (k - n) (n - 1)
      have hk' : k = ((k - n) / (n - 1) + 1) * (n - 1) + ((k - n) % (n - 1) + 1) := by
        rw [Nat.add_mul, Nat.mul_comm ((k - n) / (n - 1))]
        omega
      exact_mod_cast hk'
    rw [hd, hm, pyGet_nat_lt _ _ hlt, ok_bind]
    by_cases h3 : (((k - n) / (n - 1) + 1 : Nat) : Int) < bs.length - 1
    · rw [if_pos h3, show (((k - n) / (n - 1) + 1 : Nat) : Int) + 1 = (((k - n) / (n - 1) + 2 : Nat) : Int) by omega,
        pyGet_nat_lt _ _ (by omega)]
      exact ⟨_, _, _, rfl, by omega, by omega, _, hlt, rfl, .inr ⟨Nat.le_add_left _ _, hkeq, by omega⟩⟩
    · rw [if_neg h3]
      exact ⟨_, _, _, rfl, by omega, by omega, _, hlt, rfl, .inr ⟨Nat.le_add_left _ _, hkeq, by omega⟩⟩

/-- `getLUT` on a new contour. -/
theorem new_lut (c : Contour ℝ) (bc : BContour) (h : BContour.new c = .ok bc) (n : Nat) (hn : 2 ≤ n) :
    ∃ tbl, getLUT n bc = (.ok tbl, { bc with lut := tbl }) ∧ IsLut c n tbl := by
  obtain ⟨tbl, e, hl⟩ := C54_same_steps c bc h [] n hn (by simp)
  have e' : (getLUT n bc).1 = .ok tbl := e
  refine ⟨tbl, ?_, hl⟩
  have h0 : bc.lut = [] := by
    unfold BContour.new at h
    obtain ⟨_, _, h⟩ := bind_eq_ok.mp h
    obtain ⟨_, _, h⟩ := bind_eq_ok.mp h
    obtain ⟨_, _, h⟩ := bind_eq_ok.mp h
    obtain ⟨_, _, h⟩ := bind_eq_ok.mp h
    obtain ⟨_, _, h⟩ := bind_eq_ok.mp h
    cases h
    rfl
  unfold getLUT at e' ⊢
  rw [h0] at e' ⊢
  have hne : ¬ ((([] : List (Pt ℝ)).length : Int) = n) := by simp; omega
  rw [if_neg hne] at e' ⊢
  cases hll : lutLoop n bc.beziers 0 [] with
  | mk a b =>
    rw [hll] at e'
    cases a with
    | error _ => cases e'
    | ok _ => cases e'; rfl

theorem sample_near {c : Contour ℝ} {n : Nat} {tbl : List (Pt ℝ)} (hc : c ≠ [])
    (h2 : ∀ s ∈ c, 2 ≤ s.length) (hl : IsLut c n tbl) {p : Pt ℝ}
    (hnear : ∀ s ∈ c, ∀ t, 0 ≤ t → t ≤ 1 → distance (curve s t) p < maxSafe) : ∃ q ∈ tbl, distance q p < maxSafe := by
  have hlen : 0 < c.length := List.length_pos_iff.mpr hc
  obtain ⟨q, hq, e⟩ := hl.2 0 hlen 0 (by omega) (.inl rfl)
  have hm : c[0] ∈ c := List.getElem_mem hlen
  have hne : c[0] ≠ [] := by intro e; have := h2 _ hm; rw [e] at this; simp at this
  rw [get_ok _ hne] at hq
  cases hq
  refine ⟨_, List.mem_of_getElem? e, hnear _ hm _ (by simp) (by simp)⟩

/-- C55: on a new contour with all its points within `MAX_SAFE_INTEGER` of `p`, and from 2 up to 201 steps, the search returns the
distance of a point on one of the curves. -/
theorem C55_found (c : Contour ℝ) (bc : BContour) (h : BContour.new c = .ok bc) (p : Pt ℝ)
    (hnear : ∀ s ∈ c, ∀ t, 0 ≤ t → t ≤ 1 → ∀ q, Bezier.get s t = .ok q → distance q p < 9007199254740991)
    (n : Nat) (hn : 2 ≤ n) (h201 : n ≤ 201) :
    ∃ d q, (findClosestPoint p n bc).1 = .ok (d, q) ∧ d = distance q p ∧
      ∃ s ∈ c, ∃ t, 0 ≤ t ∧ t ≤ 1 ∧ Bezier.get s t = .ok q := by
  obtain ⟨hc, h2⟩ := (C52_new c).mp ⟨bc, h⟩
  have hpts : bc.beziers.map (·.controlPoints) = c := (C52_history c bc h []).1
  have hne : ∀ s ∈ c, s ≠ [] := by intro s hs e; have := h2 s hs; rw [e] at this; simp at this
  have hnear' : ∀ s ∈ c, ∀ t, 0 ≤ t → t ≤ 1 → distance (curve s t) p < maxSafe :=
    fun s hs t h0 h1 => hnear s hs t h0 h1 _ (get_ok s (hne s hs) t)
  have hmem : ∀ b ∈ bc.beziers, b.controlPoints ∈ c := fun b hb => by rw [← hpts]; exact List.mem_map_of_mem hb
  obtain ⟨tbl, e, hl⟩ := new_lut c bc h n hn
  obtain ⟨k, hk, ek, _⟩ := C55_findClosest p tbl (sample_near hc h2 hl hnear')
  have hlen : bc.beziers.length = c.length := by rw [← hpts]; simp
  rw [hl.1, ← hlen] at hk
  have hbne : bc.beziers ≠ [] := by intro e; rw [e] at hpts; exact hc hpts.symm
  obtain ⟨b, b2, i, hp, hi0, hi1, _⟩ := pick_ok bc.beziers hbne n hn k hk
  obtain ⟨m1, m2⟩ := pick_mem hp
  have ref : ∀ b ∈ bc.beziers, ∀ i : Int, 0 ≤ i ∧ i < n → ∃ l q d, lutOf b.controlPoints n = .ok l ∧
      refineBinary p b.controlPoints l i = .ok (q, d) ∧ d < maxSafe := by
    intro b hb i hi
    obtain ⟨l, el, hll, _⟩ := C40_samples b.controlPoints (hne _ (hmem b hb)) n hn
    obtain ⟨q, d, e, hd⟩ := refineBinary_ok (hne _ (hmem b hb)) (hnear' _ (hmem b hb)) l (by omega) i (by omega)
    exact ⟨l, q, d, el, e, (hd (by omega)).1⟩
  have hres : ∃ d q, (findClosestPoint p n bc).1 = .ok (d, q) ∧ d < maxSafe := by
    unfold findClosestPoint
    rw [e]
    simp only
    rw [ek, hp, ok_bind]
    simp only
    unfold closestOn
    obtain ⟨l, q, d, e1, e2, e3⟩ := ref b m1 i ⟨hi0, hi1⟩
    rw [e1, ok_bind, e2, ok_bind]
    cases b2 with
    | none => exact ⟨d, q, rfl, e3⟩
    | some b2 =>
      obtain ⟨l', q', d', e1', e2', e3'⟩ := ref b2 (m2 b2 rfl) 0 ⟨le_rfl, by omega⟩
      simp only
      rw [e1', ok_bind, e2', ok_bind]
      simp only
      split_ifs with hlt
      · exact ⟨d', q', rfl, e3'⟩
      · exact ⟨d, q, rfl, e3⟩
  obtain ⟨d, q, hr, hd⟩ := hres
  refine ⟨d, q, hr, ?_⟩
  rcases C55_result p n bc d q hr with ⟨h, _⟩ | ⟨b, hb, t, h0, h1, hq, hd', _⟩
  · rw [h] at hd; exact absurd hd (lt_irrefl _)
  · exact ⟨hd', b.controlPoints, hmem b hb, t, h0.le, h1.le, hq⟩

private theorem refine_large {p : Pt ℝ} {ps : Segment ℝ} (lut : List (Pt ℝ)) (hn : 402 ≤ lut.length) (i : Int)
    (hi : -1 ≤ i ∧ i < lut.length) : refineBinary p ps lut i = .ok ((0, 0), maxSafe) := by
  have hR : (401 : ℝ) ≤ (lut.length : ℝ) - 1 := by
    have : (402 : ℝ) ≤ lut.length := by exact_mod_cast hn
    linarith
  have hpos : (0 : ℝ) < (lut.length : ℝ) - 1 := by linarith
  unfold refineBinary
  rw [tt_ok _ (by omega), ok_bind]
  have key : ∀ i1 i2 : Nat, i2 ≤ i1 + 2 →
      ((i2 : ℝ) / ((lut.length : ℝ) - 1) - (i1 : ℝ) / ((lut.length : ℝ) - 1)) / 5 < 1 / 1000 := by
    intro i1 i2 h
    rw [← sub_div, div_div, div_lt_div_iff₀ (by positivity) (by norm_num)]
    have : (i2 : ℝ) ≤ i1 + 2 := by exact_mod_cast h
    nlinarith
  have hloop : ∀ (i1 i2 : Nat), i1 < lut.length → i2 < lut.length → i2 ≤ i1 + 2 →
      pyGet ((List.range lut.length).map fun (t : Nat) => (t : ℝ) / ((lut.length : ℝ) - 1)) (if i = 0 then 0 else i - 1) =
        .ok ((i1 : ℝ) / ((lut.length : ℝ) - 1)) →
      pyGet ((List.range lut.length).map fun (t : Nat) => (t : ℝ) / ((lut.length : ℝ) - 1))
        (if i = lut.length - 1 then i else i + 1) = .ok ((i2 : ℝ) / ((lut.length : ℝ) - 1)) →
      refineLoop p ps 25
        { i := i, lut := lut, tt := (List.range lut.length).map fun (t : Nat) => (t : ℝ) / ((lut.length : ℝ) - 1),
          q := (0, 0), closest := maxSafe } = .ok
        { i := i, lut := lut, tt := (List.range lut.length).map fun (t : Nat) => (t : ℝ) / ((lut.length : ℝ) - 1),
          q := (0, 0), closest := maxSafe } := by
    intro i1 i2 _ _ h12 e1 e2
    rw [refineLoop]
    simp only
    rw [e1, ok_bind, e2, ok_bind, if_pos (key i1 i2 h12)]
    rfl
  by_cases hneg : i = -1
  · subst hneg
    have e1 : pyGet ((List.range lut.length).map fun (t : Nat) => (t : ℝ) / ((lut.length : ℝ) - 1)) (-1 - 1) =
        .ok (((lut.length - 2 : Nat) : ℝ) / ((lut.length : ℝ) - 1)) := by
      have h1 : ((-2 : Int) + (lut.length : Int)).toNat = lut.length - 2 := by omega
      have h2 : ¬ ((-2 : Int) + (lut.length : Int) < 0) := by omega
      rw [pyGet]
      simp only [List.length_map, List.length_range, show (-1 - 1 : Int) = -2 from rfl, show (-2 : Int) < 0 by decide, if_true,
        h1, h2, if_false]
      rw [List.getElem?_eq_getElem (by simp; omega)]
      simp
    rw [hloop (lut.length - 2) 0 (by omega) (by omega) (by omega) (by rw [if_neg (by decide), e1])
      (by rw [if_neg (by omega)]; exact tt_get lut.length 0 (by omega))]
    rfl
  · obtain ⟨k, rfl⟩ : ∃ k : Nat, i = k := ⟨i.toNat, by omega⟩
    by_cases h0 : k = 0
    · subst h0
      rw [hloop 0 1 (by omega) (by omega) (by omega) (by rw [if_pos (by rfl)]; exact tt_get lut.length 0 (by omega))
        (by rw [if_neg (by push_cast; omega)]; exact tt_get lut.length 1 (by omega))]
      rfl
    · have e1 : pyGet ((List.range lut.length).map fun (t : Nat) => (t : ℝ) / ((lut.length : ℝ) - 1))
          (if (k : Int) = 0 then 0 else (k : Int) - 1) = .ok (((k - 1 : Nat) : ℝ) / ((lut.length : ℝ) - 1)) := by
        rw [if_neg (by omega), show (k : Int) - 1 = ((k - 1 : Nat) : Int) by omega]
        exact tt_get lut.length (k - 1) (by omega)
      by_cases hl : (k : Int) = lut.length - 1
      · rw [hloop (k - 1) k (by omega) (by omega) (by omega) e1 (by rw [if_pos hl]; exact tt_get lut.length k (by omega))]
        rfl
      · rw [hloop (k - 1) (k + 1) (by omega) (by omega) (by omega) e1
          (by rw [if_neg hl, show (k : Int) + 1 = ((k + 1 : Nat) : Int) by omega]; exact tt_get lut.length (k + 1) (by omega))]
        rfl

/-- C55: with 402 or more steps the search on a new contour finds nothing, for every contour and every point. -/
theorem C55_many_steps_counterexample (c : Contour ℝ) (bc : BContour) (h : BContour.new c = .ok bc) (p : Pt ℝ) (n : Nat)
    (hn : 402 ≤ n) : (findClosestPoint p n bc).1 = .ok (9007199254740991, (0, 0)) := by
  obtain ⟨hc, h2⟩ := (C52_new c).mp ⟨bc, h⟩
  have hpts : bc.beziers.map (·.controlPoints) = c := (C52_history c bc h []).1
  have hne : ∀ s ∈ c, s ≠ [] := by intro s hs e; have := h2 s hs; rw [e] at this; simp at this
  have hmem : ∀ b ∈ bc.beziers, b.controlPoints ∈ c := fun b hb => by rw [← hpts]; exact List.mem_map_of_mem hb
  obtain ⟨tbl, e, hl⟩ := new_lut c bc h n (by omega)
  have hlen : bc.beziers.length = c.length := by rw [← hpts]; simp
  have hbne : bc.beziers ≠ [] := by intro e; rw [e] at hpts; exact hc hpts.symm
  have hpick : ∃ b b2 i, pick bc.beziers n (findClosest p tbl) = .ok (b, b2, i) ∧ -1 ≤ i ∧ i < n := by
    rcases findClosest_range p tbl with h | ⟨h0, h1⟩
    · rw [h]
      unfold pick
      have hl0 : 0 < bc.beziers.length := List.length_pos_iff.mpr hbne
      simp only [show (-1 : Int) < n by omega, if_true]
      rw [show (0 : Int) = ((0 : Nat) : Int) from rfl, pyGet_nat_lt _ _ hl0, ok_bind, if_neg (by omega)]
      exact ⟨_, _, _, rfl, by omega, by omega⟩
    · obtain ⟨k, ek⟩ : ∃ k : Nat, findClosest p tbl = k := ⟨(findClosest p tbl).toNat, by omega⟩
      rw [ek]
      obtain ⟨b, b2, i, hp, hi0, hi1, _⟩ := pick_ok bc.beziers hbne n (by omega) k (by rw [hlen, ← hl.1]; omega)
      exact ⟨b, b2, i, hp, by omega, hi1⟩
  obtain ⟨b, b2, i, hp, hi⟩ := hpick
  obtain ⟨m1, m2⟩ := pick_mem hp
  have ref : ∀ b ∈ bc.beziers, ∀ i : Int, -1 ≤ i ∧ i < n → ∃ l, lutOf b.controlPoints n = .ok l ∧
      refineBinary p b.controlPoints l i = .ok ((0, 0), maxSafe) := by
    intro b hb i hi
    obtain ⟨l, el, hll, _⟩ := C40_samples b.controlPoints (hne _ (hmem b hb)) n (by omega)
    exact ⟨l, el, refine_large l (by omega) i (by omega)⟩
  unfold findClosestPoint
  rw [e]
  simp only
  rw [hp, ok_bind]
  simp only
  unfold closestOn
  obtain ⟨l, e1, e2⟩ := ref b m1 i hi
  rw [e1, ok_bind, e2, ok_bind]
  cases b2 with
  | none => rfl
  | some b2 =>
    obtain ⟨l', e1', e2'⟩ := ref b2 (m2 b2 rfl) 0 ⟨by omega, by omega⟩
    simp only
    rw [e1', ok_bind, e2', ok_bind]
    simp only [lt_irrefl, if_false]
    rfl

end PathLib
