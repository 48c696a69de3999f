import Verif.Lemmas.BernsteinUnique
import Verif.Props.BezierBounds
import Verif.Props.CurveFit
import Verif.Props.Reversed

set_option linter.unusedSimpArgs false

/-!
# Fitting transformed points: C110
-/

namespace PathLib
open Spec CurveFitting Finset Polynomial

/-- After the calls of `binomial` given, `fit` returns time values `S` and a curve with control points `C`. -/
def Spec.Fits (calls : List (Int × Int)) (P : List (Pt ℝ)) (polygonal : Bool) (S : List ℝ) (C : List (Pt ℝ)) : Prop :=
  ∃ m, (fit (tableAfter calls) P polygonal).1 = .ok (P, m, S, (C.map fun p => [p.1], C.map fun p => [p.2]))

/-- Consecutive points are different. -/
def Spec.Steps (P : List (Pt ℝ)) : Prop := ∀ i, i + 1 < P.length → P.getD i 0 ≠ P.getD (i + 1) 0

namespace Fitted

/-- A polynomial of degree at most `n` in Bernstein form is determined by its values at `n + 1` places. -/
theorem bernSum_determined (n : ℕ) (c d : ℕ → ℝ) (s : ℕ → ℝ) (hs : ∀ i ≤ n, ∀ j ≤ n, s i = s j → i = j) (h : ∀ i ≤ n, bernSum n c (s i) = bernSum n d (s i)) :
    ∀ t, bernSum n c t = bernSum n d t := by
  set p : ℝ[X] := ∑ i ∈ range (n + 1), C ((n.choose i : ℝ) * (c i - d i)) * (1 - X) ^ (n - i) * X ^ i with hp
  have hev : ∀ t, p.eval t = bernSum n c t - bernSum n d t := by
    intro t
    unfold bernSum bern
    rw [hp, Polynomial.eval_finsetSum, ← sum_sub_distrib]
    apply sum_congr rfl
    intro i _
    simp only [eval_mul, eval_C, eval_pow, eval_sub, eval_one, eval_X]
    ring
  have hdeg : p.natDegree < n + 1 := by
    refine Nat.lt_succ_of_le (Polynomial.natDegree_sum_le_of_forall_le _ _ fun i hi => ?_)
    have hi' : i ≤ n := Nat.lt_succ_iff.mp (mem_range.mp hi)
    have h1 : ((1 : ℝ[X]) - X).natDegree ≤ 1 := by
      refine (natDegree_sub_le _ _).trans ?_
      simp
    have h2 : ((1 - X : ℝ[X]) ^ (n - i)).natDegree ≤ n - i := by
      refine natDegree_pow_le.trans ?_
      calc (n - i) * (1 - X : ℝ[X]).natDegree ≤ (n - i) * 1 := Nat.mul_le_mul_left _ h1
        _ = n - i := mul_one _
    refine (natDegree_mul_le).trans ?_
    rw [natDegree_X_pow]
    have h3 := (natDegree_C_mul_le ((n.choose i : ℝ) * (c i - d i)) ((1 - X : ℝ[X]) ^ (n - i))).trans h2
    omega
  have hz : p = 0 := by
    refine Polynomial.eq_zero_of_natDegree_lt_card_of_eval_eq_zero (R := ℝ) p (ι := Fin (n + 1)) (f := fun i => s i) ?_ ?_ (by simpa using hdeg)
    · intro i j hij
      exact Fin.ext (hs i (Nat.lt_succ_iff.mp i.2) j (Nat.lt_succ_iff.mp j.2) hij)
    · intro i
      rw [hev, h i (Nat.lt_succ_iff.mp i.2), sub_self]
  intro t
  have := hev t
  rw [hz, eval_zero] at this
  linarith

/-- A curve with `n` control points is determined by its points at `n` different parameters. -/
theorem curve_determined (C D : List (Pt ℝ)) (S : List ℝ) (hl : C.length = D.length) (hS : S.length = C.length) (hn : S.Nodup)
    (h : ∀ i < C.length, curve C (S.getD i 0) = curve D (S.getD i 0)) : C = D := by
  rcases Nat.eq_zero_or_pos C.length with h0 | h0
  · rw [List.length_eq_zero_iff.mp h0, List.length_eq_zero_iff.mp (hl.symm.trans h0)]
  have key : ∀ f : Pt ℝ → ℝ, (∀ i < C.length, bernList (C.map f) (S.getD i 0) = bernList (D.map f) (S.getD i 0)) →
      ∀ t, bernList (C.map f) t = bernList (D.map f) t := by
    intro f hf t
    unfold bernList at hf ⊢
    simp only [List.length_map, ← hl] at hf ⊢
    refine bernSum_determined _ _ _ (fun i => S.getD i 0) ?_ (fun i hi => hf i (by omega)) t
    intro i hi j hj hij
    have hi' : i < S.length := by omega
    have hj' : j < S.length := by omega
    simp only [List.getD_eq_getElem?_getD, List.getElem?_eq_getElem hi', List.getElem?_eq_getElem hj', Option.getD_some] at hij
    exact (List.Nodup.getElem_inj_iff hn).mp hij
  refine curve_unique C D hl fun t => Prod.ext ?_ ?_
  · exact key Prod.fst (fun i hi => congrArg Prod.fst (h i hi)) t
  · exact key Prod.snd (fun i hi => congrArg Prod.snd (h i hi)) t

theorem columns_inj {C D : List (Pt ℝ)} (h1 : (C.map fun p => [p.1]) = D.map fun p => [p.1]) (h2 : (C.map fun p => [p.2]) = D.map fun p => [p.2]) : C = D := by
  have hl : C.length = D.length := by simpa using congrArg List.length h1
  refine List.ext_getElem hl fun i hi hj => ?_
  have e1 := List.getElem_of_eq h1 (by simpa using hi)
  have e2 := List.getElem_of_eq h2 (by simpa using hi)
  simp only [List.getElem_map, List.cons.injEq, and_true] at e1 e2
  exact Prod.ext e1 e2

/-- The time values that `fit` uses. -/
theorem times {calls : List (Int × Int)} {P C : List (Pt ℝ)} {polygonal : Bool} {S : List ℝ} (h : Fits calls P polygonal S C) :
    computeTimeValues P none polygonal = .ok S := by
  obtain ⟨m, h⟩ := h
  unfold fit at h
  rcases hb : basisMatrix (tableAfter calls) P.length with ⟨_ | m', lut⟩
  · simp only [hb] at h; cases h
  · simp only [hb, bind_eq_ok, pure_eq_ok, Except.ok.injEq, Prod.mk.injEq] at h
    obtain ⟨s, hs, c, _, _, _, rfl, _⟩ := h
    exact hs

/-- The curve through the points at the time values is the one that `fit` finds. -/
theorem found {calls : List (Int × Int)} {P D : List (Pt ℝ)} {polygonal : Bool} {S : List ℝ} (hn : 0 < P.length)
    (hS : computeTimeValues P none polygonal = .ok S) (hl : S.length = P.length) (hd : S.Nodup) (hD : D.length = P.length)
    (h : ∀ i < P.length, curve D (S.getD i 0) = P.getD i 0) : Fits calls P polygonal S D := by
  obtain ⟨m, C, e, hC, hi⟩ := fit_of_times calls P polygonal S hn hS hl hd
  have : C = D := curve_determined C D S (by rw [hC, hD]) (by rw [hl, hC]) hd (by
    intro i hi'
    rw [hC] at hi'
    rw [hi i hi', h i hi'])
  subst this
  exact ⟨m, e⟩

theorem unique {calls : List (Int × Int)} {P C D : List (Pt ℝ)} {polygonal : Bool} {S T : List ℝ} (h : Fits calls P polygonal S C) (h' : Fits calls P polygonal T D) :
    S = T ∧ C = D := by
  obtain ⟨m, h⟩ := h
  obtain ⟨m', h'⟩ := h'
  rw [h] at h'
  simp only [Except.ok.injEq, Prod.mk.injEq, true_and] at h'
  exact ⟨h'.2.1, columns_inj h'.2.2.1 h'.2.2.2⟩

/-- `fit` finds a curve through the points. -/
theorem through {calls : List (Int × Int)} {P C : List (Pt ℝ)} {polygonal : Bool} {S : List ℝ} (h : Fits calls P polygonal S C) (hn : 0 < P.length)
    (hl : S.length = P.length) (hd : S.Nodup) : C.length = P.length ∧ ∀ i < P.length, curve C (S.getD i 0) = P.getD i 0 := by
  obtain ⟨m, D, e, hD, hi⟩ := fit_of_times calls P polygonal S hn (times h) hl hd
  obtain ⟨-, rfl⟩ := unique h ⟨m, e⟩
  exact ⟨hD, hi⟩

/-- The time values exist and are different. -/
theorem good_times (P : List (Pt ℝ)) (polygonal : Bool) (h2 : 2 ≤ P.length) (hp : polygonal = true → Steps P) :
    ∃ S, computeTimeValues P none polygonal = .ok S ∧ S.length = P.length ∧ S.Nodup := by
  cases polygonal with
  | true =>
    obtain ⟨S, hS, hl, -, -, h⟩ := C24_polygonal P h2 (hp rfl)
    exact ⟨S, hS, hl, h.imp fun h => ne_of_lt h⟩
  | false =>
    refine ⟨_, C24_uniform P h2, by simp, ?_⟩
    have hpos : (0 : ℝ) < ((P.length - 1 : ℕ) : ℝ) := by
      rw [Nat.cast_pos]; omega
    apply List.Nodup.map _ List.nodup_range
    intro a b hab
    simp only at hab
    rw [div_left_inj' hpos.ne'] at hab
    exact_mod_cast hab

theorem getD_map (f : Pt ℝ → Pt ℝ) (P : List (Pt ℝ)) (i : ℕ) (hi : i < P.length) : (P.map f).getD i 0 = f (P.getD i 0) := by
  simp [List.getD_eq_getElem?_getD, List.getElem?_eq_getElem hi]

theorem getD_reverse (P : List (Pt ℝ)) (i : ℕ) (hi : i < P.length) : P.reverse.getD i 0 = P.getD (P.length - 1 - i) 0 := by
  simp only [List.getD_eq_getElem?_getD]
  rw [List.getElem?_reverse hi]

/-- The length of the polygon through similar points. -/
theorem pathLen_similar (a b c d m n k : ℝ) (hk : 0 < k) (h1 : a * a + b * b = k * k) (h2 : c * c + d * d = k * k) (h3 : a * c + b * d = 0) (P : List (Pt ℝ)) :
    ∀ i < P.length, pathLen (P.map (affineMap a b c d m n)) i = k * pathLen P i := by
  intro i
  induction i with
  | zero => intro _; simp [pathLen_zero]
  | succ i ih =>
    intro hi
    rw [pathLen_succ, pathLen_succ, ih (by omega), mul_add, getD_map _ _ _ hi, getD_map _ _ _ (by omega)]
    congr 1
    generalize P.getD i 0 = p
    generalize P.getD (i + 1) 0 = q
    have e : ((affineMap a b c d m n p).1 - (affineMap a b c d m n q).1) ^ 2 + ((affineMap a b c d m n p).2 - (affineMap a b c d m n q).2) ^ 2 =
        k * k * ((p.1 - q.1) ^ 2 + (p.2 - q.2) ^ 2) := by
      simp only [affineMap]
      linear_combination (p.1 - q.1) ^ 2 * h1 + (p.2 - q.2) ^ 2 * h2 + 2 * (p.1 - q.1) * (p.2 - q.2) * h3
    rw [e, Real.sqrt_mul (mul_self_nonneg k), Real.sqrt_mul_self hk.le]

theorem pathLen_pos (P : List (Pt ℝ)) (h2 : 2 ≤ P.length) (h : Steps P) : 0 < pathLen P (P.length - 1) := by
  have h1 := pathLen_lt_succ P 0 (h 0 (by omega))
  have h3 := pathLen_mono P (show 0 + 1 ≤ P.length - 1 by omega)
  rw [pathLen_zero] at h1
  linarith

/-- The length of the polygon through the points in reverse order. -/
theorem pathLen_reverse (P : List (Pt ℝ)) : ∀ i < P.length, pathLen P.reverse i = pathLen P (P.length - 1) - pathLen P (P.length - 1 - i) := by
  intro i
  induction i with
  | zero => intro _; simp [pathLen_zero]
  | succ i ih =>
    intro hi
    rw [pathLen_succ, ih (by omega), getD_reverse _ _ hi, getD_reverse _ _ (by omega)]
    obtain ⟨j, hj⟩ : ∃ j, P.length - 1 - i = j + 1 := ⟨P.length - 1 - (i + 1), by omega⟩
    rw [show P.length - 1 - (i + 1) = j by omega, hj, pathLen_succ P j]
    have : ∀ p q : Pt ℝ, (q.1 - p.1) ^ 2 + (q.2 - p.2) ^ 2 = (p.1 - q.1) ^ 2 + (p.2 - q.2) ^ 2 := by intros; ring
    rw [this]
    ring

theorem steps_reverse (P : List (Pt ℝ)) (h : Steps P) : Steps P.reverse := by
  intro i hi
  rw [List.length_reverse] at hi
  rw [getD_reverse _ _ hi, getD_reverse _ _ (by omega)]
  have := h (P.length - 1 - (i + 1)) (by omega)
  rw [show P.length - 1 - (i + 1) + 1 = P.length - 1 - i by omega] at this
  exact this.symm

theorem times_reverse (P : List (Pt ℝ)) (polygonal : Bool) (h2 : 2 ≤ P.length) (hp : polygonal = true → Steps P) (S : List ℝ)
    (hS : computeTimeValues P none polygonal = .ok S) : computeTimeValues P.reverse none polygonal = .ok (S.reverse.map fun s => 1 - s) := by
  cases polygonal with
  | true =>
    have hpos := pathLen_pos P h2 (hp rfl)
    have hpos' := pathLen_pos P.reverse (by simpa using h2) (steps_reverse P (hp rfl))
    rw [C24_polygonal_value P hpos.ne'] at hS
    rw [C24_polygonal_value _ hpos'.ne']
    cases hS
    congr 1
    refine List.ext_getElem (by simp) fun i hi hj => ?_
    simp only [List.length_map, List.length_range, List.length_reverse] at hi
    simp only [List.getElem_map, List.getElem_range, List.length_reverse, List.getElem_reverse, List.length_map, List.length_range]
    rw [pathLen_reverse P i hi, pathLen_reverse P (P.length - 1) (by omega), Nat.sub_self, pathLen_zero, sub_zero]
    field_simp
  | false =>
    rw [C24_uniform P h2] at hS
    rw [C24_uniform _ (by simpa using h2)]
    cases hS
    congr 1
    have hpos : ((P.length - 1 : ℕ) : ℝ) ≠ 0 := by
      rw [Nat.cast_ne_zero]; omega
    refine List.ext_getElem (by simp) fun i hi hj => ?_
    simp only [List.length_map, List.length_range, List.length_reverse] at hi
    simp only [List.getElem_map, List.getElem_range, List.length_reverse, List.getElem_reverse, List.length_map, List.length_range]
    rw [Nat.cast_sub (by omega : i ≤ P.length - 1)]
    field_simp
    ring

end Fitted

open Fitted

/-- C110: of all curves with as many control points as there are points, the fitted curve is the only one that passes through the points at the time
values. -/
theorem C110_only (calls : List (Int × Int)) (P : List (Pt ℝ)) (polygonal : Bool) (h2 : 2 ≤ P.length) (hp : polygonal = true → Steps P) :
    ∃ S C, Fits calls P polygonal S C ∧ C.length = P.length ∧ S.length = P.length ∧
      ∀ D : List (Pt ℝ), D.length = P.length → ((∀ i < P.length, curve D (S.getD i 0) = P.getD i 0) ↔ D = C) := by
  obtain ⟨S, hS, hl, hd⟩ := good_times P polygonal h2 hp
  obtain ⟨m, C, e, hC, hi⟩ := fit_of_times calls P polygonal S (by omega) hS hl hd
  refine ⟨S, C, ⟨m, e⟩, hC, hl, fun D hD => ⟨fun h => ?_, ?_⟩⟩
  · exact (unique (found (calls := calls) (by omega) hS hl hd hD h) ⟨m, e⟩).2
  · rintro rfl; exact hi

/-- C110: fitting a curve to the points in an affine image gives the affine image of the fitted curve, for the uniform parametrisation. -/
theorem C110_affine (calls : List (Int × Int)) (P C : List (Pt ℝ)) (S : List ℝ) (h2 : 2 ≤ P.length) (a b c d m n : ℝ) (h : Fits calls P false S C) :
    Fits calls (P.map (affineMap a b c d m n)) false S (C.map (affineMap a b c d m n)) := by
  obtain ⟨S', hS, hl, hd⟩ := good_times P false h2 (by simp)
  rw [times h] at hS
  cases hS
  obtain ⟨hC, hi⟩ := through h (by omega) hl hd
  have ht : computeTimeValues (P.map (affineMap a b c d m n)) none false = .ok S := by
    rw [← times h, C24_uniform _ h2, C24_uniform _ (by simpa using h2), List.length_map]
  refine found (by simp; omega) ht (by simpa using hl) hd (by simpa using hC) fun i hi' => ?_
  rw [List.length_map] at hi'
  rw [curve_affine _ _ _ _ _ _ _ (by rintro rfl; simp at hC; omega), hi i hi', getD_map _ _ _ hi']

/-- C110: the same for the polygonal parametrisation and a similarity, which multiplies all distances by `k`. -/
theorem C110_similar (calls : List (Int × Int)) (P C : List (Pt ℝ)) (S : List ℝ) (h2 : 2 ≤ P.length) (hp : Steps P) (a b c d m n k : ℝ) (hk : 0 < k)
    (h1 : a * a + b * b = k * k) (h3 : c * c + d * d = k * k) (h4 : a * c + b * d = 0) (h : Fits calls P true S C) :
    Fits calls (P.map (affineMap a b c d m n)) true S (C.map (affineMap a b c d m n)) := by
  obtain ⟨S', hS, hl, hd⟩ := good_times P true h2 (fun _ => hp)
  rw [times h] at hS
  cases hS
  obtain ⟨hC, hi⟩ := through h (by omega) hl hd
  have hpos := pathLen_pos P h2 hp
  have hlen := pathLen_similar a b c d m n k hk h1 h3 h4 P
  have ht : computeTimeValues (P.map (affineMap a b c d m n)) none true = .ok S := by
    rw [← times h, C24_polygonal_value _ hpos.ne', C24_polygonal_value _ (by
      rw [List.length_map, hlen _ (by omega)]; exact (mul_pos hk hpos).ne'), List.length_map]
    congr 1
    refine List.map_congr_left fun i hi => ?_
    rw [hlen i (List.mem_range.mp hi), hlen _ (by omega), mul_div_mul_left _ _ hk.ne']
  refine found (by simp; omega) ht (by simpa using hl) hd (by simpa using hC) fun i hi' => ?_
  rw [List.length_map] at hi'
  rw [curve_affine _ _ _ _ _ _ _ (by rintro rfl; simp at hC; omega), hi i hi', getD_map _ _ _ hi']

/-- C110: fitting a curve to the points in reverse order gives the reversed curve, for the reflected time values. -/
theorem C110_reversed (calls : List (Int × Int)) (P C : List (Pt ℝ)) (polygonal : Bool) (S : List ℝ) (h2 : 2 ≤ P.length) (hp : polygonal = true → Steps P)
    (h : Fits calls P polygonal S C) : Fits calls P.reverse polygonal (S.reverse.map fun s => 1 - s) C.reverse := by
  obtain ⟨S', hS, hl, hd⟩ := good_times P polygonal h2 hp
  rw [times h] at hS
  cases hS
  obtain ⟨hC, hi⟩ := through h (by omega) hl hd
  refine found (by simp; omega) (times_reverse P polygonal h2 hp S (times h)) (by simpa using hl) ?_ (by simpa using hC) fun i hi' => ?_
  · refine List.Nodup.map (fun a b hab => ?_) (List.nodup_reverse.mpr hd)
    linarith
  · rw [List.length_reverse] at hi'
    have hs : (S.reverse.map fun s => 1 - s).getD i 0 = 1 - S.getD (P.length - 1 - i) 0 := by
      simp only [List.getD_eq_getElem?_getD, List.getElem?_map]
      rw [List.getElem?_reverse (by omega), hl, List.getElem?_eq_getElem (by omega)]
      rfl
    rw [hs, Reversed.curve_reverse, sub_sub_cancel, hi _ (by omega), getD_reverse _ _ hi']

/-- C110: fitting a curve to as many evenly spaced points of a curve as it has control points gives the curve back. -/
theorem C110_samples (calls : List (Int × Int)) (ps : Segment ℝ) (h2 : 2 ≤ ps.length) :
    ∃ l S, Bezier.lutOf ps ps.length = .ok l ∧ Fits calls l false S ps := by
  have hne : ps ≠ [] := by rintro rfl; simp at h2
  obtain ⟨l, hl, hn, hi⟩ := C40_samples ps hne ps.length h2
  refine ⟨l, _, hl, found (by omega) (C24_uniform l (by omega)) (by simp) (good_times l false (by omega) (by simp) |>.elim fun S h => ?_) hn.symm fun i hi' => ?_⟩
  · have := h.1
    rw [C24_uniform l (by omega)] at this
    cases this
    exact h.2.2
  · have := hi i hi'
    rw [Bezier.get_ok _ hne, Except.ok.injEq] at this
    rw [List.getD_eq_getElem?_getD, List.getElem?_map, List.getElem?_range hi', List.getD_eq_getElem?_getD, List.getElem?_eq_getElem hi', Option.getD_some, ← this, hn]
    rfl

/-- A concrete case: the curve through (0, 0), (1, 0) and (1, 1), for both parametrisations. -/
theorem corner_fits (calls : List (Int × Int)) (polygonal : Bool) : Fits calls [(0, 0), (1, 0), (1, 1)] polygonal [0, 1 / 2, 1] [(0, 0), (3 / 2, -1 / 2), (1, 1)] := by
  have hs : Steps [((0 : ℝ), (0 : ℝ)), (1, 0), (1, 1)] := by
    intro i hi
    simp only [List.length_cons, List.length_nil] at hi
    obtain rfl | rfl : i = 0 ∨ i = 1 := by omega
    all_goals norm_num
  obtain ⟨S, hS, hl, hd⟩ := good_times [((0 : ℝ), (0 : ℝ)), (1, 0), (1, 1)] polygonal (by simp) (fun _ => hs)
  have e : S = [0, 1 / 2, 1] := by
    cases polygonal with
    | true =>
      rw [C24_polygonal_value _ (pathLen_pos _ (by simp) hs).ne'] at hS
      cases hS
      norm_num [pathLen, sum_range_succ, List.range_succ]
    | false =>
      rw [C24_uniform _ (by simp)] at hS
      cases hS
      norm_num [List.range_succ]
  subst e
  refine found (by simp) hS hl hd (by simp) fun i hi => ?_
  simp only [List.length_cons, List.length_nil] at hi
  obtain rfl | rfl | rfl : i = 0 ∨ i = 1 ∨ i = 2 := by omega
  all_goals (rw [curve_three]; norm_num)

/-- Stretching the points three times in one direction. -/
theorem stretched_fits (calls : List (Int × Int)) : Fits calls [(0, 0), (3, 0), (3, 1)] true [0, 3 / 4, 1] [(0, 0), (7 / 2, -3 / 2), (3, 1)] := by
  have hs : Steps [((0 : ℝ), (0 : ℝ)), (3, 0), (3, 1)] := by
    intro i hi
    simp only [List.length_cons, List.length_nil] at hi
    obtain rfl | rfl : i = 0 ∨ i = 1 := by omega
    all_goals norm_num
  obtain ⟨S, hS, hl, hd⟩ := good_times [((0 : ℝ), (0 : ℝ)), (3, 0), (3, 1)] true (by simp) (fun _ => hs)
  have e : S = [0, 3 / 4, 1] := by
    rw [C24_polygonal_value _ (pathLen_pos _ (by simp) hs).ne'] at hS
    cases hS
    have h9 : Real.sqrt 9 = 3 := by
      rw [show (9 : ℝ) = 3 * 3 by norm_num, Real.sqrt_mul_self (by norm_num)]
    norm_num [pathLen, sum_range_succ, List.range_succ, h9]
  subst e
  refine found (by simp) hS hl hd (by simp) fun i hi => ?_
  simp only [List.length_cons, List.length_nil] at hi
  obtain rfl | rfl | rfl : i = 0 ∨ i = 1 ∨ i = 2 := by omega
  all_goals (rw [curve_three]; norm_num)

/-- C110: for the polygonal parametrisation an affine map that does not keep the proportions of lengths changes the curve otherwise. -/
theorem C110_affine_counterexample (calls : List (Int × Int)) : ∃ (P C C' : List (Pt ℝ)) (S S' : List ℝ) (a b c d m n : ℝ),
    Fits calls P true S C ∧ Fits calls (P.map (affineMap a b c d m n)) true S' C' ∧ C' ≠ C.map (affineMap a b c d m n) := by
  refine ⟨_, _, [(0, 0), (7 / 2, -3 / 2), (3, 1)], _, [0, 3 / 4, 1], 3, 0, 0, 1, 0, 0, corner_fits calls true, ?_, ?_⟩
  · have := stretched_fits calls
    norm_num [affineMap] at this ⊢
    exact this
  · norm_num [affineMap]

/-- C110, concrete: the hypotheses hold for the points of the corner, and half a turn gives the curve through the turned points. -/
example (calls : List (Int × Int)) : Fits calls [(0, 0), (-1, 0), (-1, -1)] true [0, 1 / 2, 1] [(0, 0), (-3 / 2, 1 / 2), (-1, -1)] := by
  have := C110_similar calls _ _ _ (by simp) (by
    intro i hi
    simp only [List.length_cons, List.length_nil] at hi
    obtain rfl | rfl : i = 0 ∨ i = 1 := by omega
    all_goals norm_num) (-1) 0 0 (-1) 0 0 1 one_pos (by norm_num) (by norm_num) (by norm_num) (corner_fits calls true)
  norm_num [affineMap] at this ⊢
  exact this

end PathLib
