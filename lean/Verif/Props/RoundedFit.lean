import Verif.Lemmas.FloatFit
import Verif.Props.RoundedMatrix
import Verif.Props.LeastSquares
import Verif.Lemmas.TwelvePoints

/-!
# C97: curve fitting in floating point
-/

set_option linter.unusedSectionVars false
set_option linter.unusedSimpArgs false

namespace PathLib
open Spec
open PathLib.CurveFitting (basisMatrix initialTable initialTable_eq basisMatrix_eq basisEntry)

/-! ## Without rounding -/

theorem C97_exact_times (p : List (Pt ℝ)) (n : Option Int) (polygonal : Bool) :
    Rounded.CurveFitting.computeTimeValues Rounding.exact p n polygonal = CurveFitting.computeTimeValues p n polygonal := by
  unfold Rounded.CurveFitting.computeTimeValues CurveFitting.computeTimeValues
  cases n <;> cases polygonal <;> rfl

theorem C97_exact_multiply (A B : Mat ℝ) : Rounded.CurveFitting.multiply Rounding.exact A B = CurveFitting.multiply A B := rfl

theorem C97_exact_bestFit (P : List (Pt ℝ)) (M : Mat ℝ) (S : List ℝ) (n : Option ℕ) :
    Rounded.CurveFitting.bestFit Rounding.exact P M S n = CurveFitting.bestFit P M S n := by
  have h : Rounded.CurveFitting.multiplyOpt Rounding.exact = CurveFitting.multiplyOpt (K := ℝ) := by
    funext A B
    cases A <;> rfl
  have hF : Rounded.CurveFitting.formTMatrix Rounding.exact = CurveFitting.formTMatrix (K := ℝ) := by
    funext s n
    rcases n with _ | _ | n <;> rfl
  unfold Rounded.CurveFitting.bestFit CurveFitting.bestFit
  simp only [h, hF, C96_exact, C97_exact_multiply]
  rcases n with _ | _ | n <;> rfl

/-- C97: without rounding this is the function of `Model/CurveFitting.lean`. -/
theorem C97_exact (lut : List (List Int)) (points : List (Pt ℝ)) (polygonal : Bool) :
    Rounded.CurveFitting.fit Rounding.exact lut points polygonal = CurveFitting.fit lut points polygonal := by
  unfold Rounded.CurveFitting.fit CurveFitting.fit
  simp only [C97_exact_times, C97_exact_bestFit]
  rcases basisMatrix lut points.length with ⟨_ | _, _⟩ <;> rfl

/-! ## Time values -/

theorem rnd_eq_zero (x : ℝ) : float.rnd x = 0 ↔ x = 0 := by
  constructor
  · intro h
    have e := float.error x
    rw [h, zero_sub, abs_neg] at e
    have hu : float.u = 2 ^ (-53 : ℤ) := rfl
    have : float.u < 1 := by rw [hu]; norm_num
    by_contra hx
    have := mul_lt_mul_of_pos_right this (abs_pos.mpr hx)
    linarith
  · rintro rfl; exact float.rnd_zero

theorem rnd_nonneg {x : ℝ} (h : 0 ≤ x) : 0 ≤ float.rnd x := by
  have := (binary 52).mono 0 x h
  rwa [float.rnd_zero] at this

theorem dist_nonneg' (a b : Pt ℝ) : 0 ≤ Rounded.CurveFitting.dist float a b :=
  rnd_nonneg (Real.sqrt_nonneg _)

theorem dist_eq_zero' (a b : Pt ℝ) : Rounded.CurveFitting.dist float a b = 0 ↔ a = b := by
  unfold Rounded.CurveFitting.dist butils.hypot
  rw [rnd_eq_zero, Real.sqrt_eq_zero (add_nonneg (mul_self_nonneg _) (mul_self_nonneg _))]
  unfold Rounding.sub
  constructor
  · intro h
    have h1 := (add_eq_zero_iff_of_nonneg (mul_self_nonneg _) (mul_self_nonneg _)).mp h
    have h2 := (rnd_eq_zero _).mp (mul_self_eq_zero.mp h1.1)
    have h3 := (rnd_eq_zero _).mp (mul_self_eq_zero.mp h1.2)
    exact Prod.ext (sub_eq_zero.mp h2) (sub_eq_zero.mp h3)
  · rintro rfl
    simp [float.rnd_zero]


local notation "alongF" => Rounded.CurveFitting.along float

theorem along_succ_ge (p : List (Pt ℝ)) (i : ℕ) : alongF p i ≤ alongF p (i + 1) := by
  have hi : float.rnd (alongF p i) = alongF p i := by
    cases i with
    | zero => exact float.rnd_zero
    | succ i => exact (binary 52).idem _
  rw [Rounded.CurveFitting.along]
  unfold Rounding.add
  conv_lhs => rw [← hi]
  exact (binary 52).mono _ _ (le_add_of_nonneg_right (dist_nonneg' _ _))

theorem along_mono (p : List (Pt ℝ)) : Monotone (alongF p) := monotone_nat_of_le_succ (along_succ_ge p)

theorem along_eq_zero (p : List (Pt ℝ)) (n : ℕ) :
    alongF p n = 0 ↔ ∀ i < n, p.getD i 0 = p.getD (i + 1) 0 := by
  induction n with
  | zero => simp [Rounded.CurveFitting.along]
  | succ n ih =>
    have h0 : 0 ≤ alongF p n := by
      have := along_mono p (Nat.zero_le n)
      simpa [Rounded.CurveFitting.along] using this
    rw [Rounded.CurveFitting.along]
    unfold Rounding.add
    rw [rnd_eq_zero, add_eq_zero_iff_of_nonneg h0 (dist_nonneg' _ _), ih, dist_eq_zero']
    constructor
    · rintro ⟨h1, h2⟩ i hi
      rcases Nat.lt_succ_iff_lt_or_eq.mp hi with h | rfl
      · exact h1 i h
      · exact h2
    · intro h
      exact ⟨fun i hi => h i (by omega), h n (by omega)⟩

/-- C97: the time values along the polygon, for points of any `float` coordinates that are not all the same: they do not raise,
begin at 0, end at exactly 1, never decrease, and a point that repeats the one before gets the same time. -/
theorem C97_times (p : List (Pt ℝ)) (hp : ∃ i, i + 1 < p.length ∧ p.getD i 0 ≠ p.getD (i + 1) 0) :
    ∃ s, Rounded.CurveFitting.computeTimeValues float p none true = .ok s ∧ s.length = p.length ∧
      s.getD 0 0 = 0 ∧ s.getD (p.length - 1) 0 = 1 ∧
      (∀ i j, i ≤ j → j < p.length → 0 ≤ s.getD i 0 ∧ s.getD i 0 ≤ s.getD j 0 ∧ s.getD j 0 ≤ 1) ∧
      (∀ x ∈ s, float.rnd x = x) ∧
      ∀ i, i + 1 < p.length → p.getD i 0 = p.getD (i + 1) 0 → s.getD i 0 = s.getD (i + 1) 0 := by
  obtain ⟨k, hk, hne⟩ := hp
  have hL : alongF p (p.length - 1) ≠ 0 := fun h =>
    hne ((along_eq_zero p _).mp h k (by omega))
  have h0 : ∀ i, 0 ≤ alongF p i := fun i => by
    have := along_mono p (Nat.zero_le i)
    simpa [Rounded.CurveFitting.along] using this
  have hpos : 0 < alongF p (p.length - 1) := lt_of_le_of_ne (h0 _) (Ne.symm hL)
  refine ⟨_, Rounded.CurveFitting.times_eq _ p (by omega) hL, by simp, ?_⟩
  set s := (List.range p.length).map fun i =>
    float.div (alongF p i) (alongF p (p.length - 1)) with hs
  have hg : ∀ i, i < p.length → s.getD i 0 =
      float.rnd (alongF p i / alongF p (p.length - 1)) := by
    intro i hi
    rw [hs]
    simp [List.getD_eq_getElem?_getD, hi, Rounding.div]
  have hd : ∀ i j, i ≤ j → alongF p i / alongF p (p.length - 1) ≤
      alongF p j / alongF p (p.length - 1) := fun i j hij =>
    div_le_div_of_nonneg_right (along_mono p hij) hpos.le
  have hlast : s.getD (p.length - 1) 0 = 1 := by
    rw [hg _ (by omega), div_self hL]
    exact (binary 52).one
  refine ⟨?_, hlast, ?_, ?_, ?_⟩
  · rw [hg 0 (by omega)]
    simp [Rounded.CurveFitting.along, float.rnd_zero]
  · intro i j hij hj
    refine ⟨?_, ?_, ?_⟩
    · rw [hg i (by omega)]
      exact rnd_nonneg (div_nonneg (h0 i) hpos.le)
    · rw [hg i (by omega), hg j hj]
      exact (binary 52).mono _ _ (hd i j hij)
    · rw [hg j hj, ← hlast, hg (p.length - 1) (by omega)]
      exact (binary 52).mono _ _ (hd j _ (by omega))
  · intro x hx
    rw [hs] at hx
    obtain ⟨j, -, rfl⟩ := List.mem_map.mp hx
    exact (binary 52).idem _
  · intro i hi he
    · rw [hg i (by omega), hg (i + 1) hi]
      have : alongF p (i + 1) = alongF p i := by
        rw [Rounded.CurveFitting.along, (dist_eq_zero' _ _).mpr he]
        unfold Rounding.add
        rw [add_zero]
        cases i with
        | zero => exact float.rnd_zero
        | succ i => exact (binary 52).idem _
      rw [this]

/-- Three points, one of them repeated. -/
example : ∃ s, Rounded.CurveFitting.computeTimeValues float [(0, 0), (3, 4), (3, 4), (1, 1)] none true = .ok s ∧
    s.length = 4 ∧ s.getD 1 0 = s.getD 2 0 ∧ s.getD 3 0 = 1 := by
  obtain ⟨s, h, hl, -, h1, -, -, hr⟩ := C97_times [(0, 0), (3, 4), (3, 4), (1, 1)] ⟨0, by simp, by simp [Prod.ext_iff]⟩
  exact ⟨s, h, hl, hr 1 (by simp) (by simp), h1⟩

/-- C97: if all points are the same, `computeTimeValues` divides by zero. -/
theorem C97_times_same (p : List (Pt ℝ)) (h1 : 1 ≤ p.length) (hp : ∀ i, i + 1 < p.length → p.getD i 0 = p.getD (i + 1) 0) :
    Rounded.CurveFitting.computeTimeValues float p none true = .error .zeroDivisionError := by
  have h0 : alongF p (p.length - 1) = 0 := (along_eq_zero p _).mpr fun i hi => hp i (by omega)
  unfold Rounded.CurveFitting.computeTimeValues
  simp only [if_true, Int.toNat_natCast]
  rw [Rounded.CurveFitting.cumulative_eq _ p _ (by omega), ok_bind]
  have e : (p.length : Int) - 1 = ((p.length - 1 : ℕ) : Int) := by omega
  have hp1 : p.length - 1 + 1 = p.length := by omega
  rw [e, hp1, pyGet_nat_lt _ _ (by simp; omega)]
  simp only [ok_bind, List.getElem_map, List.getElem_range, h0]
  obtain ⟨m, hm⟩ : ∃ m, p.length = m + 1 := ⟨p.length - 1, by omega⟩
  rw [hm, List.range_succ_eq_map]
  simp [Rounded.pdiv]

/-! ## Two points -/

theorem fit_basis (R : Rounding) (p : List (Pt ℝ)) (b : Bool) : (Rounded.CurveFitting.fit R initialTable p b).1 = (do
    let s ← Rounded.CurveFitting.computeTimeValues R p none b
    let c ← Rounded.CurveFitting.bestFit R p (Flt.mat (tab p.length p.length fun i j => (basisEntry p.length i j : ℚ))) s
    return (p, tab p.length p.length (basisEntry p.length), s, c)) := by
  obtain ⟨N', -, h⟩ := basisMatrix_eq p.length 7 (by omega)
  unfold Rounded.CurveFitting.fit
  simp only [initialTable_eq, h]
  have e : (tab p.length p.length (basisEntry p.length)).map (fun r => r.map fun (v : Int) => (v : ℝ)) =
      Flt.mat (tab p.length p.length fun i j => (basisEntry p.length i j : ℚ)) := by
    simp [Flt.mat, tab, Function.comp_def]
  simp only [e]

/-- C97: `fit` of two different points with `float` coordinates gives exactly the straight line between them. -/
theorem C97_two (p q : Pt ℝ) (hpq : p ≠ q) (h1 : float.rnd p.1 = p.1) (h2 : float.rnd p.2 = p.2) (h3 : float.rnd q.1 = q.1)
    (h4 : float.rnd q.2 = q.2) :
    (Rounded.CurveFitting.fit float initialTable [p, q] true).1 =
      .ok ([p, q], [[1, 0], [-1, 1]], [0, 1], ([[p.1], [q.1]], [[p.2], [q.2]])) := by
  rw [fit_basis]
  have hd : Rounded.CurveFitting.dist float p q ≠ 0 := fun h => hpq ((dist_eq_zero' p q).mp h)
  have hL : alongF [p, q] 1 ≠ 0 := by
    simp only [Rounded.CurveFitting.along]
    intro h
    exact hd (by simpa [Rounding.add, rnd_eq_zero] using h)
  have ht : Rounded.CurveFitting.computeTimeValues float [p, q] none true = .ok (([0, 1] : List ℚ).map fun (x : ℚ) => (x : ℝ)) := by
    rw [Rounded.CurveFitting.times_eq float [p, q] (by simp) hL]
    simp only [List.length_cons, List.length_nil, List.range_succ, List.range_zero, List.map_append, List.map_cons, List.map_nil,
      List.nil_append, List.cons_append]
    have e0 : float.div (alongF [p, q] 0) (alongF [p, q] 1) = 0 := by
      simp [Rounded.CurveFitting.along, Rounding.div, float.rnd_zero]
    have e1 : float.div (alongF [p, q] 1) (alongF [p, q] 1) = 1 := by
      unfold Rounding.div
      rw [div_self hL]
      exact (binary 52).one
    simp only [zero_add, Nat.add_sub_cancel] at *
    rw [e0, e1]
    simp
  rw [ht, ok_bind]
  obtain ⟨-, e⟩ := Flt.fitMatrix_run 2 (by omega) [p, q] (tab 2 2 fun i j => (basisEntry 2 i j : ℚ)) [0, 1] rfl (tab_isMat 2 2 _) rfl
    [[1, 0], [0, 1]] (by decide +kernel)
  have e' : Rounded.CurveFitting.bestFit float [p, q] (Flt.mat (tab 2 2 fun i j => (basisEntry 2 i j : ℚ)))
      (([0, 1] : List ℚ).map fun (x : ℚ) => (x : ℝ)) = .ok ([[p.1], [q.1]], [[p.2], [q.2]]) := by
    refine e.trans ?_
    have hm : Flt.mat [[1, 0], [0, 1]] = tab 2 2 fun i j => if i = j then (1 : ℝ) else 0 := by
      simp [Flt.mat, tab, List.range_succ]
    have hmul : ∀ x y : ℝ, float.rnd x = x → float.rnd y = y →
        Rounded.CurveFitting.multiply float (Flt.mat [[1, 0], [0, 1]]) [[x], [y]] = .ok [[x], [y]] := by
      intro x y hx hy
      have hc : ([[x], [y]] : Mat ℝ) = tab 2 1 fun i _ => if i = 0 then x else y := by
        simp [tab, List.range_succ]
      conv_lhs => rw [hm, hc, Rounded.CurveFitting.multiply_tab float (by omega)]
      simp [tab, List.range_succ, Rounded.CurveFitting.dot, Rounding.add, Rounding.mul, hx, hy, float.rnd_zero]
    show (do
      let Cx ← Rounded.CurveFitting.multiply float (Flt.mat [[1, 0], [0, 1]]) [[p.1], [q.1]]
      let Cy ← Rounded.CurveFitting.multiply float (Flt.mat [[1, 0], [0, 1]]) [[p.2], [q.2]]
      return (Cx, Cy)) = _
    rw [hmul _ _ h1 h3, ok_bind, hmul _ _ h2 h4]
    rfl
  simp only [List.length_cons, List.length_nil, zero_add, Nat.reduceAdd]
  rw [e', ok_bind]
  simp [tab, List.range_succ, basisEntry, CurveFitting.signedChoose]

example : (Rounded.CurveFitting.fit float initialTable [(1, 2), (3, 5)] true).1 =
    .ok ([(1, 2), (3, 5)], [[1, 0], [-1, 1]], [0, 1], ([[1], [3]], [[2], [5]])) := by
  have h : ∀ n : ℤ, |n| ≤ 2 ^ 53 → float.rnd (n : ℝ) = n := rnd_int
  exact C97_two (1, 2) (3, 5) (by simp [Prod.ext_iff]) (by simpa using h 1 (by norm_num)) (by simpa using h 2 (by norm_num))
    (by simpa using h 3 (by norm_num)) (by simpa using h 5 (by norm_num))

/-! ## Where `fit` fails in floating point -/

/-- What `fit` returns, computed with rational numbers. -/
theorem fit_run (n : ℕ) (p : List (Pt ℚ)) (hn : 0 < n) (hp : p.length = n) (S : List ℚ) (hS : Flt.times p = S)
    (hL : Flt.along p (n - 1) ≠ 0) (X Y : Mat ℚ)
    (h : Flt.bestFit n p (tab n n fun i j => (basisEntry n i j : ℚ)) S = some (X, Y)) :
    (Rounded.CurveFitting.fit float initialTable (Flt.seg p) true).1 =
      .ok (Flt.seg p, tab n n (basisEntry n), S.map (fun (x : ℚ) => (x : ℝ)), (Flt.mat X, Flt.mat Y)) := by
  have hl : (Flt.seg p).length = n := by simpa [Flt.seg] using hp
  have hSl : S.length = n := by rw [← hS, ← hp]; simp [Flt.times]
  have ht := Flt.times_run p (by omega) (by rw [hp]; exact hL)
  have hb := Flt.bestFit_run n hn p _ S hp (tab_isMat n n _) hSl X Y h
  rw [fit_basis, hl]
  rw [hS] at ht
  show (do
    let s ← Rounded.CurveFitting.computeTimeValues Flt.F (Flt.seg p) none true
    let c ← Rounded.CurveFitting.bestFit Flt.F (Flt.seg p) (Flt.mat (tab n n fun i j => (basisEntry n i j : ℚ))) s
    return (Flt.seg p, tab n n (basisEntry n), s, c)) = _
  rw [ht, ok_bind, hb]
  rfl

/-- C97: a repeated point, which makes `fit` raise in exact arithmetic (C25), goes unnoticed in floating point: the curve for
`(0, 0), (2, 0), (4, 0), (4, 0)` ends at about `(72, 0)`. -/
theorem C97_repeated_counterexample :
    (∀ calls, (CurveFitting.fit (tableAfter calls) [(0, 0), (2, 0), (4, 0), (4, 0)] true).1 = .error .typeError) ∧
    ∃ m X Y, (Rounded.CurveFitting.fit float initialTable [(0, 0), (2, 0), (4, 0), (4, 0)] true).1 =
        .ok ([(0, 0), (2, 0), (4, 0), (4, 0)], m, [0, 1 / 2, 1, 1], (X, Y)) ∧
      X = [[45 / 1125899906842624], [5629499534213131 / 281474976710656], [5254199565265601 / 562949953421312],
        [2533274790395905 / 35184372088832]] ∧ Y = [[0], [0], [0], [0]] ∧ 72 < entry X 3 0 := by
  constructor
  · intro calls
    exact C25_repeated calls [(0, 0), (2, 0), (4, 0), (4, 0)] 2 0 (by simp) (by simp) (by simp) (by simp [Prod.ext_iff])
  · have h := fit_run 4 [(0, 0), (2, 0), (4, 0), (4, 0)] (by omega) rfl [0, 1 / 2, 1, 1] (by decide +kernel) (by decide +kernel)
      [[45 / 1125899906842624], [5629499534213131 / 281474976710656], [5254199565265601 / 562949953421312],
        [2533274790395905 / 35184372088832]] [[0], [0], [0], [0]] (by decide +kernel)
    refine ⟨tab 4 4 (basisEntry 4), _, _, ?_, rfl, rfl, ?_⟩
    · have e : Flt.seg [(0, 0), (2, 0), (4, 0), (4, 0)] = [(0, 0), (2, 0), (4, 0), (4, 0)] := by simp [Flt.seg, Flt.pt]
      rw [e] at h
      rw [h]
      simp [Flt.mat]
    · simp [entry]; norm_num

theorem entry_mat (X : Mat ℚ) (i j : ℕ) : entry (Flt.mat X) i j = ((entry X i j : ℚ) : ℝ) := by
  unfold entry Flt.mat
  simp only [List.getD_eq_getElem?_getD, List.getElem?_map]
  cases X[i]? with
  | none => simp
  | some r => cases h0 : r[j]? <;> simp [h0]

/-- C97: for many points the result in floating point has nothing to do with the points: for `(0, 0), (1, 0), …, (11, 0)` the
last control point, where the curve ends, has an x coordinate below -26. In exact arithmetic it is `(11, 0)` (C25). -/
theorem C97_many_counterexample :
    ∃ m S X Y, (Rounded.CurveFitting.fit float initialTable (Flt.seg twelve) true).1 = .ok (Flt.seg twelve, m, S, (X, Y)) ∧
      entry X 11 0 < -26 := by
  obtain ⟨X, Y, hb, h⟩ := Twelve.fit
  have hl : twelve.length = 12 := by decide +kernel
  have hL : Flt.along twelve (12 - 1) ≠ 0 := by decide +kernel
  refine ⟨_, _, _, _, fit_run 12 twelve (by omega) hl _ rfl hL X Y hb, ?_⟩
  rw [entry_mat]
  exact_mod_cast h

end PathLib
