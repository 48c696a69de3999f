import Verif.Props.BezierCache
import Mathlib.Analysis.Complex.Norm
import Mathlib.Algebra.Order.BigOperators.Group.List

set_option linter.unusedSectionVars false
set_option linter.unusedSimpArgs false

/-!
# Curve length: C51

`length` is a 24-point Gauss-Legendre sum of the speed. The decimal arithmetic is exact in the model.
-/

namespace PathLib
open Spec Bezier

/-- The length of a vector. -/
noncomputable def Spec.vlen (v : Pt ℝ) : ℝ := Real.sqrt (v.1 * v.1 + v.2 * v.2)

/-- The distance between two points. -/
noncomputable def Spec.dist (p q : Pt ℝ) : ℝ := vlen (q.1 - p.1, q.2 - p.2)

/-- The length of the polygon through the points. -/
noncomputable def Spec.polygonLength : List (Pt ℝ) → ℝ
  | p :: q :: l => dist p q + polygonLength (q :: l)
  | _ => 0

/-- Nodes (in [-1, 1]) and weights. -/
def nodes : List (ℚ × ℚ) := butils.tValues.zip butils.cValues

/-- The weighted sum of `g` over the nodes moved to [0, 1]. -/
noncomputable def quad (g : ℝ → ℝ) : ℝ :=
  1 / 2 * (nodes.map fun n => (n.2 : ℝ) * g ((n.1 : ℝ) * (1 / 2) + 1 / 2)).sum

def quadQ (g : ℚ → ℚ) : ℚ :=
  1 / 2 * (nodes.map fun n => n.2 * g (n.1 * (1 / 2) + 1 / 2)).sum

theorem quad_cast (g : ℝ → ℝ) (f : ℚ → ℚ) (h : ∀ x : ℚ, g x = f x) : quad g = quadQ f := by
  unfold quad quadQ
  push_cast
  congr 1
  rw [List.map_map]
  congr 1
  apply List.map_congr_left
  intro n _
  have := h (n.1 * (1 / 2) + 1 / 2)
  push_cast at this
  simp only [Function.comp]
  push_cast
  rw [this]

theorem quad_add (f g : ℝ → ℝ) : quad (fun x => f x + g x) = quad f + quad g := by
  unfold quad
  rw [← mul_add]
  congr 1
  induction nodes with
  | nil => simp
  | cons n l ih => simp only [List.map_cons, List.sum_cons, ih]; ring

theorem quad_smul (c : ℝ) (f : ℝ → ℝ) : quad (fun x => c * f x) = c * quad f := by
  unfold quad
  have : ∀ l : List (ℚ × ℚ), (l.map fun n => (n.2 : ℝ) * (c * f ((n.1 : ℝ) * (1 / 2) + 1 / 2))).sum =
      c * (l.map fun n => (n.2 : ℝ) * f ((n.1 : ℝ) * (1 / 2) + 1 / 2)).sum := by
    intro l
    induction l with
    | nil => simp
    | cons n l ih => simp only [List.map_cons, List.sum_cons, ih]; ring
  rw [this]; ring

theorem nodes_range : ∀ n ∈ nodes, -1 < n.1 ∧ n.1 < 1 ∧ 0 < n.2 := by decide +kernel

private theorem nodes_symm : (nodes.map fun n => (-n.1, n.2)).Perm nodes := by decide +kernel

theorem quad_mono (f g : ℝ → ℝ) (h : ∀ x, 0 < x → x < 1 → f x ≤ g x) : quad f ≤ quad g := by
  unfold quad
  have : ∀ l : List (ℚ × ℚ), (∀ n ∈ l, -1 < n.1 ∧ n.1 < 1 ∧ 0 < n.2) →
      (l.map fun n => (n.2 : ℝ) * f ((n.1 : ℝ) * (1 / 2) + 1 / 2)).sum ≤
      (l.map fun n => (n.2 : ℝ) * g ((n.1 : ℝ) * (1 / 2) + 1 / 2)).sum := by
    intro l
    induction l with
    | nil => simp
    | cons n l ih =>
      intro hl
      simp only [List.map_cons, List.sum_cons]
      obtain ⟨h1, h2, h3⟩ := hl n (by simp)
      have h1' : (-1:ℝ) < n.1 := by exact_mod_cast h1
      have h2' : (n.1:ℝ) < 1 := by exact_mod_cast h2
      have h3' : (0:ℝ) < n.2 := by exact_mod_cast h3
      have := ih (fun m hm => hl m (by simp [hm]))
      have k := h ((n.1 : ℝ) * (1 / 2) + 1 / 2) (by linarith) (by linarith)
      have := mul_le_mul_of_nonneg_left k h3'.le
      linarith
  have := this nodes nodes_range
  linarith

theorem quad_reflect (g : ℝ → ℝ) : quad (fun x => g (1 - x)) = quad g := by
  unfold quad
  congr 1
  have h := (nodes_symm.map fun n : ℚ × ℚ => (n.2 : ℝ) * g ((n.1 : ℝ) * (1 / 2) + 1 / 2)).sum_eq
  rw [← h, List.map_map]
  congr 1
  apply List.map_congr_left
  intro n _
  simp only [Function.comp]
  push_cast
  ring_nf

private theorem quad_zero : quad (fun _ => 0) = 0 := by
  have := quad_smul 0 (fun _ => 0)
  simpa using this

private theorem quad_nonneg (f : ℝ → ℝ) (h : ∀ x, 0 ≤ f x) : 0 ≤ quad f := by
  rw [← quad_zero]; exact quad_mono _ _ (fun x _ _ => h x)

theorem zip_sum (ts cs : List ℚ) (h : ts.length = cs.length) (f : ℚ → ℚ → ℝ) :
    ((List.range ts.length).map fun (i : Nat) => f (ts.getD i 0) (cs.getD i 0)) =
      (ts.zip cs).map fun n => f n.1 n.2 := by
  apply List.ext_getElem
  · simp [h]
  · intro i h1 h2
    simp only [List.length_map, List.length_range] at h1
    simp [List.getD_eq_getElem?_getD, h1, h ▸ h1]

/-- `lengthOf` is the weighted sum of the speed. -/
private theorem lengthOf_eq (ps : Segment ℝ) (D : ℝ → Pt ℝ) (h : ∀ t, derivative ps t = .ok (D t)) :
    lengthOf ps = .ok (quad fun t => vlen (D t)) := by
  have hlen : butils.tValues.length = butils.cValues.length := by decide +kernel
  have key : ∀ (is : List Nat) (sum : ℝ), (∀ i ∈ is, i < butils.tValues.length) →
      is.foldlM (fun sum (i : Nat) => (do
      let tv ← pyGet butils.tValues (i : Int)
      let cv ← pyGet butils.cValues (i : Int)
      let t := (tv : ℝ) * (1 / 2) + (1 / 2)
      return (cv : ℝ) * (← arcfun ps t) + sum : Py ℝ)) sum = .ok (sum + (is.map fun (i : Nat) =>
        ((butils.cValues.getD i 0 : ℚ) : ℝ) * vlen (D (((butils.tValues.getD i 0 : ℚ) : ℝ) * (1 / 2) + 1 / 2))).sum) := by
    intro is
    induction is with
    | nil => intro sum _; simp
    | cons i is ih =>
      intro sum hi
      have hi' := hi i (by simp)
      rw [List.foldlM_cons, pyGet_nat_lt _ _ hi', pyGet_nat_lt _ _ (hlen ▸ hi')]
      have e : arcfun ps (((butils.tValues[i] : ℚ) : ℝ) * (1 / 2) + 1 / 2) =
          .ok (vlen (D (((butils.tValues[i] : ℚ) : ℝ) * (1 / 2) + 1 / 2))) := by
        simp only [arcfun, h, ok_bind, pure_eq_ok]; rfl
      simp only [ok_bind]
      rw [e, ok_bind, pure_eq_ok, ok_bind, ih _ (fun j hj => hi j (by simp [hj]))]
      simp only [List.map_cons, List.sum_cons, List.getD_eq_getElem?_getD,
        List.getElem?_eq_getElem hi', List.getElem?_eq_getElem (hlen ▸ hi' : i < butils.cValues.length), Option.getD_some]
      congr 1
      ring
  unfold lengthOf
  simp only
  rw [key _ _ (fun i hi => by simpa using hi), ok_bind, zero_add, pure_eq_ok]
  rw [zip_sum _ _ hlen (fun t c => (c : ℝ) * vlen (D ((t : ℝ) * (1 / 2) + 1 / 2)))]
  rfl

theorem lengthOf_curve (ps : Segment ℝ) (h : ps.length = 3 ∨ ps.length = 4) :
    lengthOf ps = .ok (quad fun t => vlen (curve (dcStep ps) t)) :=
  lengthOf_eq ps _ (derivative_ok ps h)

theorem vlen_nonneg (v : Pt ℝ) : 0 ≤ vlen v := Real.sqrt_nonneg _

theorem vlen_norm (v : Pt ℝ) : vlen v = ‖(⟨v.1, v.2⟩ : ℂ)‖ := by
  rw [Complex.norm_def, Complex.normSq_apply]; rfl

theorem vlen_add (u v : Pt ℝ) : vlen (u.1 + v.1, u.2 + v.2) ≤ vlen u + vlen v := by
  rw [vlen_norm, vlen_norm, vlen_norm]
  exact norm_add_le (⟨u.1, u.2⟩ : ℂ) ⟨v.1, v.2⟩

theorem vlen_smul (c : ℝ) (v : Pt ℝ) : vlen (c * v.1, c * v.2) = |c| * vlen v := by
  unfold vlen
  rw [show c * v.1 * (c * v.1) + c * v.2 * (c * v.2) = c ^ 2 * (v.1 * v.1 + v.2 * v.2) by ring,
    Real.sqrt_mul (sq_nonneg c), Real.sqrt_sq_eq_abs]

theorem vlen_sq (v : Pt ℝ) : vlen v * vlen v = v.1 * v.1 + v.2 * v.2 :=
  Real.mul_self_sqrt (by nlinarith [sq_nonneg v.1, sq_nonneg v.2])

theorem vlen_eq_zero {v : Pt ℝ} : vlen v = 0 ↔ v = (0, 0) := by
  unfold vlen
  rw [Real.sqrt_eq_zero (by nlinarith [mul_self_nonneg v.1, mul_self_nonneg v.2])]
  constructor
  · intro h
    have h1 : v.1 = 0 := by nlinarith [mul_self_nonneg v.1, mul_self_nonneg v.2]
    have h2 : v.2 = 0 := by nlinarith [mul_self_nonneg v.1, mul_self_nonneg v.2]
    exact Prod.ext h1 h2
  · rintro rfl; simp

theorem dot_le (u v : Pt ℝ) : u.1 * v.1 + u.2 * v.2 ≤ vlen u * vlen v := by
  unfold vlen
  rw [← Real.sqrt_mul (by nlinarith [mul_self_nonneg u.1, mul_self_nonneg u.2])]
  apply Real.le_sqrt_of_sq_le
  nlinarith [sq_nonneg (u.1 * v.2 - u.2 * v.1)]

/-- C51: the length of a quadratic or cubic is defined and not negative. -/
theorem C51_nonneg (ps : Segment ℝ) (h : ps.length = 3 ∨ ps.length = 4) :
    ∃ l, lengthOf ps = .ok l ∧ 0 ≤ l :=
  ⟨_, lengthOf_curve ps h, quad_nonneg _ (fun _ => vlen_nonneg _)⟩

/-- C51: a similarity (translation, rotation, mirror, scaling and their combinations) with factor `k` multiplies the
length by `|k|`. -/
theorem C51_similarity (ps : Segment ℝ) (h : ps.length = 3 ∨ ps.length = 4) (a b c d m n k : ℝ)
    (h1 : a ^ 2 + b ^ 2 = k ^ 2) (h2 : c ^ 2 + d ^ 2 = k ^ 2) (h3 : a * c + b * d = 0) :
    ∃ l, lengthOf ps = .ok l ∧ lengthOf (ps.map (affineMap a b c d m n)) = .ok (|k| * l) := by
  refine ⟨_, lengthOf_curve ps h, ?_⟩
  rw [lengthOf_curve _ (by simpa using h), ← quad_smul]
  congr 2
  funext t
  have e : dcStep (ps.map (affineMap a b c d m n)) = (dcStep ps).map (affineMap a b c d 0 0) := by
    unfold dcStep
    simp only [List.length_map]
    rw [← List.map_tail, List.zipWith_map, List.map_zipWith]
    congr 1
    funext p q
    simp only [affineMap, Prod.mk.injEq]
    constructor <;> ring
  have hne : dcStep ps ≠ [] := by
    intro e
    have := congrArg List.length e
    rw [dcStep_length] at this
    simp at this; omega
  rw [e, curve_affine _ _ _ _ _ _ _ hne]
  set v := curve (dcStep ps) t
  unfold vlen affineMap
  rw [← Real.sqrt_sq_eq_abs, ← Real.sqrt_mul (sq_nonneg k)]
  congr 1
  linear_combination v.1 ^ 2 * h1 + v.2 ^ 2 * h2 + 2 * v.1 * v.2 * h3

/-- C51: reversing a curve does not change its length. -/
theorem C51_reverse (ps : Segment ℝ) (h : ps.length = 3 ∨ ps.length = 4) :
    lengthOf ps.reverse = lengthOf ps := by
  rw [lengthOf_curve ps h, lengthOf_curve ps.reverse (by simpa using h), ← quad_reflect]
  congr 2
  funext t
  have e : curve (dcStep ps.reverse) (1 - t) = (-1 * (curve (dcStep ps) t).1, -1 * (curve (dcStep ps) t).2) := by
    rcases h with h | h
    · match ps, h with
      | [a, b, c], _ =>
        simp [dcStep, curve_two]
        constructor <;> ring
    · match ps, h with
      | [a, b, c, d], _ =>
        simp [dcStep, curve_three]
        constructor <;> ring
  rw [e, vlen_smul]
  simp

private theorem q_quad : |quadQ (fun x => 1 - x) - 1 / 2| ≤ 1 / 10 ^ 36 ∧ |quadQ (fun x => x) - 1 / 2| ≤ 1 / 10 ^ 36 := by
  decide +kernel

private theorem q_cubic : |quadQ (fun x => (1 - x) ^ 2) - 1 / 3| ≤ 1 / 10 ^ 36 ∧
    |quadQ (fun x => 2 * (1 - x) * x) - 1 / 3| ≤ 1 / 10 ^ 36 ∧
    |quadQ (fun x => x ^ 2) - 1 / 3| ≤ 1 / 10 ^ 36 := by
  decide +kernel

private theorem castBound {q : ℚ} {c : ℚ} (h : |q - c| ≤ 1 / 10 ^ 36) : |(q : ℝ) - c| ≤ 1 / 10 ^ 36 := by
  have h2 : ((|q - c| : ℚ) : ℝ) ≤ ((1 / 10 ^ 36 : ℚ) : ℝ) := by exact_mod_cast h
  push_cast at h2
  exact h2

theorem quad_sum {ι : Type} (s : Finset ι) (f : ι → ℝ → ℝ) :
    quad (fun x => ∑ i ∈ s, f i x) = ∑ i ∈ s, quad (f i) := by
  classical
  induction s using Finset.induction_on with
  | empty => simpa using quad_zero
  | insert i s hi ih =>
    simp only [Finset.sum_insert hi]
    rw [quad_add, ih]

/-- If the weights `B i` integrate to `1 / n` up to `ε`, the length of the curve with velocity `∑ B i x * v i` lies between
chord and polygon. -/
private theorem between_chord_polygon {k : ℕ} (B : Fin k → ℝ → ℝ) (v : Fin k → Pt ℝ) (n ε : ℝ)
    (hε : 0 ≤ ε) (hB : ∀ i x, 0 < x → x < 1 → 0 ≤ B i x) (hq : ∀ i, |quad (B i) - 1 / n| ≤ ε) :
    vlen (∑ i, (v i).1, ∑ i, (v i).2) / n - ε * ∑ i, vlen (v i) ≤
      quad (fun x => vlen (∑ i, B i x * (v i).1, ∑ i, B i x * (v i).2)) ∧
    quad (fun x => vlen (∑ i, B i x * (v i).1, ∑ i, B i x * (v i).2)) ≤
      (1 / n + ε) * ∑ i, vlen (v i) := by
  constructor
  · set E : Pt ℝ := (∑ i, (v i).1, ∑ i, (v i).2) with hE
    by_cases hz : vlen E = 0
    · rw [hz, zero_div]
      have h1 : 0 ≤ quad (fun x => vlen (∑ i, B i x * (v i).1, ∑ i, B i x * (v i).2)) :=
        quad_nonneg _ (fun _ => vlen_nonneg _)
      have h2 : 0 ≤ ∑ i, vlen (v i) := Finset.sum_nonneg fun i _ => vlen_nonneg _
      have := mul_nonneg hε h2
      linarith
    · have hp : 0 < vlen E := lt_of_le_of_ne (vlen_nonneg E) (Ne.symm hz)
      have h1 : quad (fun x => ∑ i, ((v i).1 * E.1 + (v i).2 * E.2) * B i x) ≤
          quad (fun x => vlen E * vlen (∑ i, B i x * (v i).1, ∑ i, B i x * (v i).2)) := by
        apply quad_mono
        intro x _ _
        have h := dot_le (∑ i, B i x * (v i).1, ∑ i, B i x * (v i).2) E
        simp only [Finset.sum_mul, ← Finset.sum_add_distrib] at h
        rw [mul_comm (vlen E)]
        refine le_trans (le_of_eq ?_) h
        apply Finset.sum_congr rfl
        intro i _; ring
      rw [quad_sum, quad_smul] at h1
      simp only [quad_smul] at h1
      have b : ∀ i, ((v i).1 * E.1 + (v i).2 * E.2) * (1 / n) - ε * (vlen (v i) * vlen E) ≤
          ((v i).1 * E.1 + (v i).2 * E.2) * quad (B i) := by
        intro i
        have d : |(v i).1 * E.1 + (v i).2 * E.2| ≤ vlen (v i) * vlen E := by
          rw [abs_le]
          have h1 := dot_le (v i) E
          have h2 := dot_le (-1 * (v i).1, -1 * (v i).2) E
          rw [vlen_smul] at h2
          norm_num at h2
          constructor <;> linarith
        have : |((v i).1 * E.1 + (v i).2 * E.2) * (quad (B i) - 1 / n)| ≤ vlen (v i) * vlen E * ε := by
          rw [abs_mul]
          exact mul_le_mul d (hq i) (abs_nonneg _) (mul_nonneg (vlen_nonneg _) (vlen_nonneg _))
        have := (abs_le.mp this).1
        linarith
      have hs := Finset.sum_le_sum fun i (_ : i ∈ Finset.univ) => b i
      rw [Finset.sum_sub_distrib] at hs
      have e1 : ∑ i, ((v i).1 * E.1 + (v i).2 * E.2) * (1 / n) = vlen E * vlen E / n := by
        rw [vlen_sq, ← Finset.sum_mul, Finset.sum_add_distrib, ← Finset.sum_mul, ← Finset.sum_mul]
        simp only [hE]; ring
      have e2 : ∑ i, ε * (vlen (v i) * vlen E) = ε * (∑ i, vlen (v i)) * vlen E := by
        rw [← Finset.mul_sum, ← Finset.sum_mul]; ring
      rw [e1, e2] at hs
      have fin := hs.trans h1
      refine le_of_mul_le_mul_left ?_ hp
      refine le_trans (le_of_eq ?_) fin
      ring
  · have h1 : quad (fun x => vlen (∑ i, B i x * (v i).1, ∑ i, B i x * (v i).2)) ≤
        quad (fun x => ∑ i, vlen (v i) * B i x) := by
      apply quad_mono
      intro x h0 h1
      have : ∀ s : Finset (Fin k), vlen (∑ i ∈ s, B i x * (v i).1, ∑ i ∈ s, B i x * (v i).2) ≤
          ∑ i ∈ s, vlen (v i) * B i x := by
        intro s
        induction s using Finset.induction_on with
        | empty => simp [vlen]
        | insert i s hi ih =>
          simp only [Finset.sum_insert hi]
          refine (vlen_add (B i x * (v i).1, B i x * (v i).2) (_, _)).trans ?_
          rw [vlen_smul, abs_of_nonneg (hB i x h0 h1), mul_comm]
          exact add_le_add_right ih _
      exact this Finset.univ
    rw [quad_sum] at h1
    simp only [quad_smul] at h1
    refine h1.trans ?_
    rw [Finset.mul_sum]
    apply Finset.sum_le_sum
    intro i _
    rw [mul_comm]
    exact mul_le_mul_of_nonneg_right (by have := (abs_le.mp (hq i)).2; linarith) (vlen_nonneg _)

private theorem dist_scale (n : ℝ) (hn : 0 ≤ n) (p q : Pt ℝ) :
    vlen (n * (q.1 - p.1), n * (q.2 - p.2)) = n * Spec.dist p q := by
  have := vlen_smul n (q.1 - p.1, q.2 - p.2)
  simp only at this
  rw [this, abs_of_nonneg hn]; rfl

/-- C51: the length lies between the chord and the length of the control polygon, up to a relative error of 1e-35 of the
latter. -/
theorem C51_chord_polygon (ps : Segment ℝ) (h : ps.length = 3 ∨ ps.length = 4) (hne : ps ≠ []) :
    ∃ l, lengthOf ps = .ok l ∧
      Spec.dist (ps.head hne) (ps.getLast hne) - 1e-35 * polygonLength ps ≤ l ∧
      l ≤ (1 + 1e-35) * polygonLength ps := by
  refine ⟨_, lengthOf_curve ps h, ?_⟩
  rcases h with h | h
  · match ps, h with
    | [a, b, c], _ =>
      have k := between_chord_polygon (k := 2) ![fun x => 1 - x, fun x => x]
        ![(2 * (b.1 - a.1), 2 * (b.2 - a.2)), (2 * (c.1 - b.1), 2 * (c.2 - b.2))] 2 (1 / 10 ^ 36) (by positivity)
        (by intro i x h0 h1; fin_cases i <;> simp <;> linarith)
        (by
          intro i
          fin_cases i
          · have := castBound q_quad.1
            simp only [Fin.zero_eta, Matrix.cons_val_zero]
            rw [quad_cast _ (fun x => 1 - x) (by intro x; push_cast; rfl)]
            push_cast at this; exact this
          · have := castBound q_quad.2
            simp only [Fin.mk_one, Matrix.cons_val_one]
            rw [quad_cast _ (fun x => x) (by intro x; rfl)]
            push_cast at this; exact this)
      simp only [Fin.sum_univ_two, Matrix.cons_val_zero, Matrix.cons_val_one] at k
      have e : (fun t => vlen (curve (dcStep [a, b, c]) t)) = fun x =>
          vlen ((1 - x) * (2 * (b.1 - a.1)) + x * (2 * (c.1 - b.1)),
            (1 - x) * (2 * (b.2 - a.2)) + x * (2 * (c.2 - b.2))) := by
        funext x
        simp [dcStep, curve_two]
      rw [e]
      have e2 : vlen (2 * (b.1 - a.1) + 2 * (c.1 - b.1), 2 * (b.2 - a.2) + 2 * (c.2 - b.2)) = 2 * Spec.dist a c := by
        rw [← dist_scale 2 (by norm_num)]
        congr 2 <;> ring
      rw [e2, dist_scale 2 (by norm_num), dist_scale 2 (by norm_num)] at k
      simp only [polygonLength, List.head_cons, List.getLast_cons_cons, List.getLast_singleton, add_zero]
      have p1 : 0 ≤ Spec.dist a b := vlen_nonneg _
      have p2 : 0 ≤ Spec.dist b c := vlen_nonneg _
      norm_num at k ⊢
      constructor
      · linarith [k.1]
      · linarith [k.2]
  · match ps, h with
    | [a, b, c, d], _ =>
      have k := between_chord_polygon (k := 3) ![fun x => (1 - x) ^ 2, fun x => 2 * (1 - x) * x, fun x => x ^ 2]
        ![(3 * (b.1 - a.1), 3 * (b.2 - a.2)), (3 * (c.1 - b.1), 3 * (c.2 - b.2)),
          (3 * (d.1 - c.1), 3 * (d.2 - c.2))] 3 (1 / 10 ^ 36) (by positivity)
        (by
          intro i x h0 h1
          fin_cases i
          · simp only [Fin.zero_eta, Matrix.cons_val_zero]; positivity
          · simp only [Fin.mk_one, Matrix.cons_val_one]
            have : 0 ≤ 1 - x := by linarith
            simp only [Matrix.cons_val_zero]; positivity
          · simp only [Fin.reduceFinMk, Matrix.cons_val]; positivity)
        (by
          intro i
          fin_cases i
          · have := castBound q_cubic.1
            simp only [Fin.zero_eta, Matrix.cons_val_zero]
            rw [quad_cast _ (fun x => (1 - x) ^ 2) (by intro x; push_cast; rfl)]
            push_cast at this; exact this
          · have := castBound q_cubic.2.1
            simp only [Fin.mk_one, Matrix.cons_val_one, Matrix.cons_val_zero]
            rw [quad_cast _ (fun x => 2 * (1 - x) * x) (by intro x; push_cast; rfl)]
            push_cast at this; exact this
          · have := castBound q_cubic.2.2
            simp only [Fin.reduceFinMk, Matrix.cons_val]
            rw [quad_cast _ (fun x => x ^ 2) (by intro x; push_cast; rfl)]
            push_cast at this; exact this)
      simp only [Fin.sum_univ_three, Matrix.cons_val_zero, Matrix.cons_val_one, Matrix.cons_val] at k
      have e : (fun t => vlen (curve (dcStep [a, b, c, d]) t)) = fun x =>
          vlen ((1 - x) ^ 2 * (3 * (b.1 - a.1)) + 2 * (1 - x) * x * (3 * (c.1 - b.1)) + x ^ 2 * (3 * (d.1 - c.1)),
            (1 - x) ^ 2 * (3 * (b.2 - a.2)) + 2 * (1 - x) * x * (3 * (c.2 - b.2)) + x ^ 2 * (3 * (d.2 - c.2))) := by
        funext x
        simp [dcStep, curve_three]
      rw [e]
      have e2 : vlen (3 * (b.1 - a.1) + 3 * (c.1 - b.1) + 3 * (d.1 - c.1),
          3 * (b.2 - a.2) + 3 * (c.2 - b.2) + 3 * (d.2 - c.2)) = 3 * Spec.dist a d := by
        rw [← dist_scale 3 (by norm_num)]
        congr 2 <;> ring
      rw [e2, dist_scale 3 (by norm_num), dist_scale 3 (by norm_num), dist_scale 3 (by norm_num)] at k
      simp only [polygonLength, List.head_cons, List.getLast_cons_cons, List.getLast_singleton, add_zero]
      have p1 : 0 ≤ Spec.dist a b := vlen_nonneg _
      have p2 : 0 ≤ Spec.dist b c := vlen_nonneg _
      have p3 : 0 ≤ Spec.dist c d := vlen_nonneg _
      norm_num at k ⊢
      constructor
      · linarith [k.1]
      · linarith [k.2]

/-- C51: a straight curve whose control points advance monotonically along the chord has the chord as its length, up to a
relative error of 1e-35. -/
theorem C51_straight (ps : Segment ℝ) (h : ps.length = 3 ∨ ps.length = 4) (hne : ps ≠ [])
    (hs : polygonLength ps = Spec.dist (ps.head hne) (ps.getLast hne)) :
    ∃ l, lengthOf ps = .ok l ∧
      |l - Spec.dist (ps.head hne) (ps.getLast hne)| ≤ 1e-35 * Spec.dist (ps.head hne) (ps.getLast hne) := by
  obtain ⟨l, e, h1, h2⟩ := C51_chord_polygon ps h hne
  rw [hs] at h1 h2
  refine ⟨l, e, abs_le.mpr ⟨by linarith, by linarith⟩⟩

private theorem three_roots (a b c x y z : ℝ) (hxy : x ≠ y) (hxz : x ≠ z) (hyz : y ≠ z)
    (h1 : a + b * x + c * x ^ 2 = 0) (h2 : a + b * y + c * y ^ 2 = 0) (h3 : a + b * z + c * z ^ 2 = 0) :
    a = 0 ∧ b = 0 ∧ c = 0 := by
  have e1 : b + c * (x + y) = 0 := mul_left_cancel₀ (sub_ne_zero.mpr hxy) (by linear_combination h1 - h2)
  have e2 : b + c * (x + z) = 0 := mul_left_cancel₀ (sub_ne_zero.mpr hxz) (by linear_combination h1 - h3)
  have hc : c = 0 := mul_left_cancel₀ (sub_ne_zero.mpr hyz) (by linear_combination e1 - e2)
  have hb : b = 0 := by rw [hc] at e1; linarith
  exact ⟨by rw [hb, hc] at h1; linarith, hb, hc⟩

private theorem quad_eq_zero (f : ℝ → ℝ) (h : ∀ x, 0 ≤ f x) (h0 : quad f = 0) :
    ∀ n ∈ nodes, f ((n.1 : ℝ) * (1 / 2) + 1 / 2) = 0 := by
  unfold quad at h0
  have h1 : (nodes.map fun n => (n.2 : ℝ) * f ((n.1 : ℝ) * (1 / 2) + 1 / 2)).sum = 0 := by linarith
  have : ∀ l : List (ℚ × ℚ), (∀ n ∈ l, 0 < n.2) →
      (l.map fun n => (n.2 : ℝ) * f ((n.1 : ℝ) * (1 / 2) + 1 / 2)).sum = 0 →
      0 ≤ (l.map fun n => (n.2 : ℝ) * f ((n.1 : ℝ) * (1 / 2) + 1 / 2)).sum →
      ∀ n ∈ l, f ((n.1 : ℝ) * (1 / 2) + 1 / 2) = 0 := by
    intro l
    induction l with
    | nil => simp
    | cons m l ih =>
      intro hp hz _ n hn
      simp only [List.map_cons, List.sum_cons] at hz
      have hpos : (0:ℝ) < m.2 := by exact_mod_cast hp m (by simp)
      have hl : 0 ≤ (l.map fun n => (n.2 : ℝ) * f ((n.1 : ℝ) * (1 / 2) + 1 / 2)).sum := by
        apply List.sum_nonneg
        intro y hy
        obtain ⟨k, hk, rfl⟩ := List.mem_map.mp hy
        have : (0:ℝ) < k.2 := by exact_mod_cast hp k (by simp [hk])
        exact mul_nonneg this.le (h _)
      have hm := mul_nonneg hpos.le (h ((m.1 : ℝ) * (1 / 2) + 1 / 2))
      rcases List.mem_cons.mp hn with rfl | hn
      · have : (n.2 : ℝ) * f ((n.1 : ℝ) * (1 / 2) + 1 / 2) = 0 := by linarith
        exact (mul_eq_zero.mp this).resolve_left hpos.ne'
      · exact ih (fun k hk => hp k (by simp [hk])) (by linarith) hl n hn
  exact this nodes (fun n hn => (nodes_range n hn).2.2) h1 h1.ge

private theorem three_nodes : ∃ n1 ∈ nodes, ∃ n2 ∈ nodes, ∃ n3 ∈ nodes,
    n1.1 ≠ n2.1 ∧ n1.1 ≠ n3.1 ∧ n2.1 ≠ n3.1 := by decide +kernel

/-- C51: the length is zero exactly when all control points coincide. -/
theorem C51_zero_iff (ps : Segment ℝ) (h : ps.length = 3 ∨ ps.length = 4) :
    lengthOf ps = .ok 0 ↔ ∀ p ∈ ps, ∀ q ∈ ps, p = q := by
  rw [lengthOf_curve ps h, Except.ok.injEq]
  constructor
  · intro hz
    have hall := quad_eq_zero _ (fun _ => vlen_nonneg _) hz
    obtain ⟨n1, m1, n2, m2, n3, m3, h12, h13, h23⟩ := three_nodes
    have z1 := vlen_eq_zero.mp (hall n1 m1)
    have z2 := vlen_eq_zero.mp (hall n2 m2)
    have z3 := vlen_eq_zero.mp (hall n3 m3)
    have ne : ∀ a b : ℚ, a ≠ b → ((a : ℝ) * (1 / 2) + 1 / 2) ≠ (b : ℝ) * (1 / 2) + 1 / 2 := by
      intro a b hab e
      apply hab
      have : (a : ℝ) = b := by linarith
      exact_mod_cast this
    have key := fun a b c => three_roots a b c _ _ _ (ne _ _ h12) (ne _ _ h13) (ne _ _ h23)
    generalize ((n1.1 : ℝ) * (1 / 2) + 1 / 2) = x at *
    generalize ((n2.1 : ℝ) * (1 / 2) + 1 / 2) = y at *
    generalize ((n3.1 : ℝ) * (1 / 2) + 1 / 2) = z at *
    rcases h with h | h
    · match ps, h with
      | [a, b, c], _ =>
        simp only [dcStep, List.tail_cons, List.zipWith_cons_cons, List.zipWith_nil_right, curve_two,
          List.length_cons, List.length_nil, Prod.mk.injEq] at z1 z2 z3
        norm_num at z1 z2 z3
        obtain ⟨k1, k2, _⟩ := key (2 * (b.1 - a.1)) (2 * (c.1 - b.1) - 2 * (b.1 - a.1)) 0
          (by linear_combination z1.1) (by linear_combination z2.1) (by linear_combination z3.1)
        obtain ⟨l1, l2, _⟩ := key (2 * (b.2 - a.2)) (2 * (c.2 - b.2) - 2 * (b.2 - a.2)) 0
          (by linear_combination z1.2) (by linear_combination z2.2) (by linear_combination z3.2)
        have e1 : a = b := Prod.ext (by linarith) (by linarith)
        have e2 : b = c := Prod.ext (by linarith) (by linarith)
        subst e1 e2
        simp
    · match ps, h with
      | [a, b, c, d], _ =>
        simp only [dcStep, List.tail_cons, List.zipWith_cons_cons, List.zipWith_nil_right, curve_three,
          List.length_cons, List.length_nil, Prod.mk.injEq] at z1 z2 z3
        norm_num at z1 z2 z3
        obtain ⟨k1, k2, k3⟩ := key (3 * (b.1 - a.1)) (2 * (3 * (c.1 - b.1)) - 2 * (3 * (b.1 - a.1)))
          (3 * (b.1 - a.1) - 2 * (3 * (c.1 - b.1)) + 3 * (d.1 - c.1))
          (by linear_combination z1.1) (by linear_combination z2.1) (by linear_combination z3.1)
        obtain ⟨l1, l2, l3⟩ := key (3 * (b.2 - a.2)) (2 * (3 * (c.2 - b.2)) - 2 * (3 * (b.2 - a.2)))
          (3 * (b.2 - a.2) - 2 * (3 * (c.2 - b.2)) + 3 * (d.2 - c.2))
          (by linear_combination z1.2) (by linear_combination z2.2) (by linear_combination z3.2)
        have e1 : a = b := Prod.ext (by linarith) (by linarith)
        have e2 : b = c := Prod.ext (by linarith) (by linarith)
        have e3 : c = d := Prod.ext (by linarith) (by linarith)
        subst e1 e2 e3
        simp
  · intro hall
    have : (fun t => vlen (curve (dcStep ps) t)) = fun _ => 0 := by
      funext t
      rw [vlen_eq_zero]
      rcases h with h | h
      · match ps, h with
        | [a, b, c], _ =>
          have e1 := hall a (by simp) b (by simp)
          have e2 := hall a (by simp) c (by simp)
          subst e1 e2
          simp [dcStep, curve_two]
      · match ps, h with
        | [a, b, c, d], _ =>
          have e1 := hall a (by simp) b (by simp)
          have e2 := hall a (by simp) c (by simp)
          have e3 := hall a (by simp) d (by simp)
          subst e1 e2 e3
          simp [dcStep, curve_three]
    rw [this, quad_zero]

/-- C51: the decimal precision is what it was before whenever `length` returns, whatever was called before. -/
theorem C51_precision (b : Bezier) (prec : Int) (calls : List Call)
    (h : ∃ l, (World.length (after b prec calls)).1 = .ok l) :
    (World.length (after b prec calls)).2.prec = (after b prec calls).prec := by
  have hc := (Coherent.after b prec calls).length
  obtain ⟨l, hl⟩ := h
  rcases hc.2.2 with h | ⟨_, e, he⟩
  · exact h
  · rw [hc.1, he] at hl; cases hl

/-- C51: for quadratics and cubics `length` always returns and leaves the precision alone. -/
theorem C51_precision_curve (b : Bezier) (prec : Int) (calls : List Call)
    (h : b.controlPoints.length = 3 ∨ b.controlPoints.length = 4) :
    (World.length (after b prec calls)).2.prec = (after b prec calls).prec := by
  apply C51_precision
  rw [(Coherent.after b prec calls).length.1]
  exact ⟨_, lengthOf_curve _ h⟩

/-- C51: for a line `length` raises `IndexError` and leaves the precision raised by two. -/
theorem C51_line_counterexample (b : Bezier) (prec : Int) (h : b.controlPoints.length = 2) :
    (World.length (after b prec [])).1 = .error .indexError ∧
    (World.length (after b prec [])).2.prec = prec + 2 := by
  have hd : ∀ t, derivative b.controlPoints t = .error .indexError := by
    intro t
    match hb : b.controlPoints, h with
    | [p, q], _ =>
      unfold derivative
      rw [dcPoints_cons _ (by simp)]
      simp [derivativeOf, order, dcStep, pyGet]
  have hw : ∀ t w, Coherent b w → (World.derivative t w).1 = .error .indexError := by
    intro t w hw
    rw [(hw.derivative t).1, hd]
  have hc := Coherent.fresh b prec
  have hr : List.range butils.tValues.length = 0 :: (List.range 23).map (· + 1) := by decide
  have hg : pyGet butils.tValues ((0 : Nat) : Int) = .ok (butils.tValues.getD 0 0) ∧
    pyGet butils.cValues ((0 : Nat) : Int) = .ok (butils.cValues.getD 0 0) := by
    constructor <;> rfl
  have key : World.lengthLoop (List.range butils.tValues.length) 0 { (after b prec []) with prec := prec + 2 } =
      (.error .indexError, (World.derivative (((butils.tValues.getD 0 0 : ℚ) : ℝ) * (1 / 2) + 1 / 2)
        { (after b prec []) with prec := prec + 2 }).2) := by
    rw [hr, World.lengthLoop]
    rw [hg.1, hg.2]
    simp only
    have := hw (((butils.tValues.getD 0 0 : ℚ) : ℝ) * (1 / 2) + 1 / 2) _ (hc.prec (prec + 2))
    change (World.derivative _ { (after b prec []) with prec := prec + 2 }).1 = _ at this
    generalize World.derivative (((butils.tValues.getD 0 0 : ℚ) : ℝ) * (1 / 2) + 1 / 2)
      { (after b prec []) with prec := prec + 2 } = r at this
    obtain ⟨r, w'⟩ := r
    simp only at this
    subst this
    rfl
  have e : World.length (after b prec []) = (.error .indexError, (World.derivative (((butils.tValues.getD 0 0 : ℚ) : ℝ) * (1 / 2) + 1 / 2)
        { (after b prec []) with prec := prec + 2 }).2) := by
    have hl : (after b prec []).obj.len = none := rfl
    have hp : (after b prec []).prec = prec := rfl
    unfold World.length
    rw [hl]
    simp only [hp]
    rw [key]
  rw [e]
  exact ⟨rfl, (((Coherent.fresh b prec).prec (prec + 2)).derivative
    (((butils.tValues.getD 0 0 : ℚ) : ℝ) * (1 / 2) + 1 / 2)).2.2⟩

example : ([((0:ℝ), 0), (1, 0), (2, 0)] : Segment ℝ) ≠ [] ∧
    polygonLength [((0:ℝ), 0), (1, 0), (2, 0)] = Spec.dist (0, 0) (2, 0) := by
  refine ⟨by simp, ?_⟩
  norm_num [polygonLength, Spec.dist, vlen, Real.sqrt_one]
  rw [show (4 : ℝ) = 2 ^ 2 by norm_num, Real.sqrt_sq (by norm_num)]

end PathLib
