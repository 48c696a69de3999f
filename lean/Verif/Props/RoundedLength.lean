import Verif.Model.Rounded
import Verif.Lemmas.Relative
import Verif.Lemmas.Rounding
import Verif.Props.BezierLength

/-!
# `length` in rounded arithmetic: C91
-/

set_option linter.unusedSectionVars false
set_option linter.unusedSimpArgs false

namespace PathLib

open Bezier Spec

/-! ## Decimal numbers -/

/-- Rounding to `p` significant decimal digits, ties to even. -/
noncomputable def Spec.roundDigits (p : ℕ) (x : ℝ) : ℝ :=
  (Transform.roundHalfEven (x / 10 ^ (Int.log 10 |x| + 1 - (p : ℤ))) : ℝ) * 10 ^ (Int.log 10 |x| + 1 - (p : ℤ))

theorem roundDigits_error (p : ℕ) (x : ℝ) : |roundDigits p x - x| ≤ 10 ^ (1 - (p : ℤ)) / 2 * |x| := by
  by_cases h : x = 0
  · subst h
    simp [roundDigits, Transform.roundHalfEven]
  have hx : 0 < |x| := abs_pos.mpr h
  have lo := Int.zpow_log_le_self (b := 10) (by norm_num) hx
  have up : (0:ℝ) < 10 ^ (Int.log 10 |x| + 1 - (p : ℤ)) := by positivity
  unfold roundDigits
  have r := abs_roundHalfEven_sub_le (x / 10 ^ (Int.log 10 |x| + 1 - (p : ℤ)))
  have e : (10:ℝ) ^ (Int.log 10 |x| + 1 - (p : ℤ)) = 10 ^ (1 - (p : ℤ)) * 10 ^ Int.log 10 |x| := by
    rw [← zpow_add₀ (by norm_num)]; congr 1; ring
  have k : |(Transform.roundHalfEven (x / 10 ^ (Int.log 10 |x| + 1 - (p : ℤ))) : ℝ) * 10 ^ (Int.log 10 |x| + 1 - (p : ℤ)) - x| =
      |(Transform.roundHalfEven (x / 10 ^ (Int.log 10 |x| + 1 - (p : ℤ))) : ℝ) - x / 10 ^ (Int.log 10 |x| + 1 - (p : ℤ))| *
        10 ^ (Int.log 10 |x| + 1 - (p : ℤ)) := by
    rw [← abs_of_pos up, ← abs_mul, abs_of_pos up, sub_mul, div_mul_cancel₀ _ up.ne']
  rw [k]
  have q : (0:ℝ) < 10 ^ (1 - (p : ℤ)) := by positivity
  calc _ ≤ 1 / 2 * 10 ^ (Int.log 10 |x| + 1 - (p : ℤ)) := mul_le_mul_of_nonneg_right r up.le
    _ = 10 ^ (1 - (p : ℤ)) / 2 * 10 ^ Int.log 10 |x| := by rw [e]; ring
    _ ≤ 10 ^ (1 - (p : ℤ)) / 2 * |x| := mul_le_mul_of_nonneg_left (by exact_mod_cast lo) (by positivity)

/-- The arithmetic of a decimal context with precision `p`. -/
noncomputable def Spec.decimal (p : ℕ) : Rounding where
  rnd := roundDigits p
  u := 10 ^ (1 - (p : ℤ)) / 2
  u_nonneg := by positivity
  error := roundDigits_error p

/-! ## Without rounding -/

/-- C91: without rounding `length` is that of the exact model. -/
theorem C91_exact (ps : Segment ℝ) (h : ps.length > 1) :
    Rounded.length Rounding.exact Rounding.exact Rounding.exact ps = Bezier.lengthOf ps := by
  have hf : Rounded.firstDerivative Rounding.exact ps = .ok (dcStep ps) := by
    unfold Rounded.firstDerivative; rw [if_pos h]; rfl
  have hd : ∀ t, Bezier.arcfun ps t = Rounded.arcfun Rounding.exact (order ps) (dcStep ps) t := by
    intro t
    unfold Bezier.arcfun Rounded.arcfun Bezier.derivative
    rw [dcPoints, if_pos h, pyGet_zero_cons]
    rfl
  unfold Rounded.length Bezier.lengthOf
  simp only [hf, hd, ok_bind]
  rfl

/-! ## The error -/

section error
variable {F D E : Rounding}

/-- The quadrature after rounding: `s` is the rounded speed at a node. -/
private theorem fold_rel (hu : D.u < 1) (n : Int) (p : Segment ℝ) (g s : ℝ → ℝ) (hg : ∀ t, 0 ≤ g t)
    (hs : ∀ t, Rounded.arcfun D n p (D.rnd t) = .ok (s t)) (hr : ∀ t, D.Rel 2 (g t) (s t)) (ps : Segment ℝ)
    (hp : Rounded.firstDerivative F ps = .ok p) (ho : order ps = n) :
    ∃ r, Rounded.length F D E ps = .ok (E.rnd r) ∧ D.Rel 27 (quad g) r := by
  have hlen : butils.tValues.length = butils.cValues.length := by decide +kernel
  have hc : ∀ c ∈ butils.cValues, (0:ℚ) ≤ c := by decide +kernel
  have key : ∀ (is : List Nat) (m : ℕ) (X sum : ℝ), 0 ≤ X → D.Rel (2 + m) X sum → (∀ i ∈ is, i < butils.tValues.length) →
      ∃ r, is.foldlM (fun sum (i : Nat) => (do
        let tv ← pyGet butils.tValues (i : Int)
        let cv ← pyGet butils.cValues (i : Int)
        let t := D.rnd ((tv : ℝ) * (1 / 2) + (1 / 2))
        let p ← Rounded.firstDerivative F ps
        return D.rnd ((cv : ℝ) * (← Rounded.arcfun D (order ps) p t) + sum) : Py ℝ)) sum = .ok r ∧
      D.Rel (2 + m + is.length) (X + (is.map fun (i : Nat) =>
        ((butils.cValues.getD i 0 : ℚ) : ℝ) * g (((butils.tValues.getD i 0 : ℚ) : ℝ) * (1 / 2) + 1 / 2)).sum) r := by
    intro is
    induction is with
    | nil => intro m X sum _ hX _; exact ⟨sum, rfl, by simpa using hX⟩
    | cons i is ih =>
      intro m X sum hX0 hX hi
      have hi' := hi i (by simp)
      have hic : i < butils.cValues.length := hlen ▸ hi'
      have c0 : (0:ℝ) ≤ ((butils.cValues[i] : ℚ) : ℝ) := by
        exact_mod_cast hc _ (List.getElem_mem hic)
      generalize ht : ((butils.tValues[i] : ℚ) : ℝ) * (1 / 2) + 1 / 2 = t
      have r1 : D.Rel (2 + m) (((butils.cValues[i] : ℚ) : ℝ) * g t) (((butils.cValues[i] : ℚ) : ℝ) * s t) := by
        obtain ⟨ρ, e, a, b⟩ := (hr t).mono hu (show 2 ≤ 2 + m by omega)
        exact ⟨ρ, by rw [e]; ring, a, b⟩
      have r2 := Rounding.Rel.add hu (mul_nonneg c0 (hg t)) hX0 r1 hX
      obtain ⟨r, hr, hR⟩ := ih (m + 1) _ _ (add_nonneg (mul_nonneg c0 (hg t)) hX0) r2 (fun j hj => hi j (by simp [hj]))
      refine ⟨r, ?_, ?_⟩
      · rw [List.foldlM_cons, pyGet_nat_lt _ _ hi', pyGet_nat_lt _ _ hic]
        simp only [ok_bind, hp, ho, ht, hs, pure_eq_ok] at hr ⊢
        subst ht
        exact hr
      · rw [List.length_cons, show 2 + m + (is.length + 1) = 2 + (m + 1) + is.length by omega]
        simp only [List.map_cons, List.sum_cons, List.getD_eq_getElem?_getD,
          List.getElem?_eq_getElem hi', List.getElem?_eq_getElem hic, Option.getD_some, ht] at hR ⊢
        subst ht
        have e : ∀ a S : ℝ, X + (a + S) = a + X + S := fun a S => by ring
        rw [e]
        exact hR
  obtain ⟨r, h1, h2⟩ := key (List.range butils.tValues.length) 0 0 0 le_rfl
    ((Rounding.Rel.refl 0).mono hu (by omega)) (fun i hi => by simpa using hi)
  refine ⟨D.mul (1 / 2) r, ?_, ?_⟩
  · unfold Rounded.length
    simp only
    rw [h1]; rfl
  · rw [zip_sum _ _ hlen (fun t c => (c : ℝ) * g ((t : ℝ) * (1 / 2) + 1 / 2)), zero_add] at h2
    have := (Rounding.Rel.refl (R := D) (1 / 2)).mul hu h2
    exact this.mono hu (by simp [show butils.tValues.length = 24 by decide +kernel])

/-- Rounding in the derivative: `x0`, `x1`, `x2` are coordinates of at most `B`. -/
private theorem quad_weights {B t x0 x1 : ℝ} (t0 : 0 ≤ t) (t1 : t ≤ 1) (h0 : |x0| ≤ B) (h1 : |x1| ≤ B) :
    |D.add (D.add (D.mul (D.sub 1 (D.rnd t)) x0) (D.mul (D.rnd t) x1)) (D.mul 0 0) - ((1 - t) * x0 + t * x1)| ≤
      ((1 + D.u) ^ 8 - 1) * (9 * B) := by
  have hB : 0 ≤ B := (abs_nonneg _).trans h0
  have a0 : D.Approx 0 B x0 x0 := (Rounding.Approx.refl x0).mono le_rfl h0
  have a1 : D.Approx 0 B x1 x1 := (Rounding.Approx.refl x1).mono le_rfl h1
  have at' : D.Approx 1 1 t (D.rnd t) :=
    ((Rounding.Approx.refl t).mono le_rfl (by rw [abs_of_nonneg t0]; exact t1)).round
  have aone : D.Approx 1 1 1 1 := (Rounding.Approx.refl (1:ℝ)).mono (by omega) (by simp)
  have am := aone.sub at'
  have z : D.Approx 3 0 0 (D.mul 0 0) := by
    have := (Rounding.Approx.refl (R := D) (0:ℝ)).mul (Rounding.Approx.refl (R := D) (0:ℝ))
    simp only [abs_zero, mul_zero] at this
    exact this.mono (by omega) le_rfl
  have s := ((am.mul a0).add ((at'.mul a1).mono (show 1 + 0 + 1 ≤ 2 + 0 + 1 by omega) le_rfl)).add (z.mono (by omega) le_rfl)
  have := (s.mono (show 2 + 0 + 1 + 1 + 1 ≤ 8 by omega) (show (1 + 1) * B + 1 * B + 0 ≤ 9 * B by linarith)).2
  rwa [add_zero] at this

private theorem cubic_weights {B t x0 x1 x2 : ℝ} (t0 : 0 ≤ t) (t1 : t ≤ 1) (h0 : |x0| ≤ B) (h1 : |x1| ≤ B) (h2 : |x2| ≤ B) :
    |D.add (D.add (D.mul (D.mul (D.sub 1 (D.rnd t)) (D.sub 1 (D.rnd t))) x0)
        (D.mul (D.mul (D.mul (D.sub 1 (D.rnd t)) (D.rnd t)) 2) x1)) (D.mul (D.mul (D.rnd t) (D.rnd t)) x2) -
      ((1 - t) ^ 2 * x0 + 2 * (1 - t) * t * x1 + t ^ 2 * x2)| ≤ ((1 + D.u) ^ 8 - 1) * (9 * B) := by
  have hB : 0 ≤ B := (abs_nonneg _).trans h0
  have a0 : D.Approx 0 B x0 x0 := (Rounding.Approx.refl x0).mono le_rfl h0
  have a1 : D.Approx 0 B x1 x1 := (Rounding.Approx.refl x1).mono le_rfl h1
  have a2 : D.Approx 0 B x2 x2 := (Rounding.Approx.refl x2).mono le_rfl h2
  have at' : D.Approx 1 1 t (D.rnd t) :=
    ((Rounding.Approx.refl t).mono le_rfl (by rw [abs_of_nonneg t0]; exact t1)).round
  have aone : D.Approx 1 1 1 1 := (Rounding.Approx.refl (1:ℝ)).mono (by omega) (by simp)
  have two : D.Approx 0 2 2 2 := (Rounding.Approx.refl (2:ℝ)).mono (by omega) (by simp)
  have am := aone.sub at'
  have s1 := (am.mul am).mul a0
  have s2 := ((am.mul at').mul two).mul a1
  have s3 := (at'.mul at').mul a2
  have s := (s1.add (s2.mono (show 2 + 1 + 1 + 0 + 1 + 0 + 1 ≤ 2 + 2 + 1 + 0 + 1 by omega) le_rfl)).add (s3.mono (by omega) le_rfl)
  have := (s.mono (show 2 + 2 + 1 + 0 + 1 + 1 + 1 ≤ 8 by omega)
    (show (1 + 1) * (1 + 1) * B + (1 + 1) * 1 * 2 * B + 1 * 1 * B ≤ 9 * B by linarith)).2
  rwa [show (1 - t) * (1 - t) * x0 + (1 - t) * t * 2 * x1 + t * t * x2 =
    (1 - t) ^ 2 * x0 + 2 * (1 - t) * t * x1 + t ^ 2 * x2 by ring] at this

/-- Coordinates of the derivative's control points, rounded. -/
private theorem scaled {B c x y : ℝ} (h : |c * (y - x)| ≤ B) :
    |F.mul c (F.sub y x) - c * (y - x)| ≤ ((1 + F.u) ^ 2 - 1) * B ∧ |F.mul c (F.sub y x)| ≤ (1 + F.u) ^ 2 * B := by
  have a : F.Approx 1 |y - x| (y - x) (F.sub y x) := (Rounding.Approx.refl (y - x)).round
  have m := (Rounding.Approx.refl (R := F) c).mul a
  have m := m.mono (show 0 + 1 + 1 ≤ 2 by omega) (show |c| * |y - x| ≤ B by rwa [← abs_mul])
  exact ⟨m.2, m.abs_le⟩

/-- A weighted mean of numbers that are off by at most `e` is off by at most `e`. -/
private theorem mean2 {e t x0 x1 y0 y1 : ℝ} (t0 : 0 ≤ t) (t1 : t ≤ 1) (h0 : |y0 - x0| ≤ e) (h1 : |y1 - x1| ≤ e) :
    |((1 - t) * y0 + t * y1) - ((1 - t) * x0 + t * x1)| ≤ e := by
  rw [abs_le] at *
  constructor <;> nlinarith

private theorem mean3 {e t x0 x1 x2 y0 y1 y2 : ℝ} (t0 : 0 ≤ t) (t1 : t ≤ 1) (h0 : |y0 - x0| ≤ e) (h1 : |y1 - x1| ≤ e)
    (h2 : |y2 - x2| ≤ e) :
    |((1 - t) ^ 2 * y0 + 2 * (1 - t) * t * y1 + t ^ 2 * y2) - ((1 - t) ^ 2 * x0 + 2 * (1 - t) * t * x1 + t ^ 2 * x2)| ≤ e := by
  have a := mean2 t0 t1 h0 h1
  have b := mean2 t0 t1 h1 h2
  have c := mean2 t0 t1 a b
  refine cast ?_ c
  congr 2
  ring

/-- The bound of the error in a coordinate of the derivative. -/
noncomputable def Spec.speedError (F D : Rounding) (B : ℝ) : ℝ :=
  ((1 + F.u) ^ 2 - 1) * B + ((1 + D.u) ^ 8 - 1) * (9 * ((1 + F.u) ^ 2 * B))

private theorem derivative_near (ps : Segment ℝ) (h : ps.length = 3 ∨ ps.length = 4) (B : ℝ)
    (hB : ps.IsChain fun p q => ((ps.length - 1 : ℕ) : ℝ) * |q.1 - p.1| ≤ B ∧ ((ps.length - 1 : ℕ) : ℝ) * |q.2 - p.2| ≤ B) (t : ℝ) :
    ∃ d : Pt ℝ, Rounded.derivativeOf D (order ps) (Rounded.dcStep F ps) (D.rnd t) = .ok d ∧
      (0 ≤ t → t ≤ 1 → |d.1 - (curve (dcStep ps) t).1| ≤ speedError F D B ∧ |d.2 - (curve (dcStep ps) t).2| ≤ speedError F D B) := by
  have tri : ∀ {x y z a b : ℝ}, |x - y| ≤ a → |y - z| ≤ b → |x - z| ≤ b + a := by
    intro x y z a b h1 h2
    have := abs_add_le (x - y) (y - z)
    rw [sub_add_sub_cancel] at this
    linarith
  have sc : ∀ (c x y : ℝ), 0 ≤ c → c * |y - x| ≤ B → |c * (y - x)| ≤ B := by
    intro c x y h0 h1
    rwa [abs_mul, abs_of_nonneg h0]
  rcases h with h | h
  · match ps, h with
    | [a, b, c], _ =>
      simp only [List.isChain_cons_cons, List.length_cons, List.length_nil, List.isChain_singleton, and_true] at hB
      obtain ⟨⟨x0, y0⟩, x1, y1⟩ := hB
      refine ⟨_, rfl, fun t0 t1 => ?_⟩
      have e : curve (dcStep [a, b, c]) t = ((1 - t) * (2 * (b.1 - a.1)) + t * (2 * (c.1 - b.1)),
          (1 - t) * (2 * (b.2 - a.2)) + t * (2 * (c.2 - b.2))) := by
        simp [dcStep, curve_two]
      rw [e]
      have k : ((3 - 1 : ℕ) : ℝ) = 2 := by norm_num
      simp only [zero_add, Nat.reduceAdd, k] at x0 x1 y0 y1
      obtain ⟨u0, v0⟩ := scaled (F := F) (sc 2 a.1 b.1 (by norm_num) x0)
      obtain ⟨u1, v1⟩ := scaled (F := F) (sc 2 b.1 c.1 (by norm_num) x1)
      obtain ⟨u2, v2⟩ := scaled (F := F) (sc 2 a.2 b.2 (by norm_num) y0)
      obtain ⟨u3, v3⟩ := scaled (F := F) (sc 2 b.2 c.2 (by norm_num) y1)
      constructor
      · refine tri ?_ (mean2 t0 t1 u0 u1)
        exact quad_weights t0 t1 v0 v1
      · refine tri ?_ (mean2 t0 t1 u2 u3)
        exact quad_weights t0 t1 v2 v3
  · match ps, h with
    | [a, b, c, d], _ =>
      simp only [List.isChain_cons_cons, List.length_cons, List.length_nil, List.isChain_singleton, and_true] at hB
      obtain ⟨⟨x0, y0⟩, ⟨x1, y1⟩, x2, y2⟩ := hB
      refine ⟨_, rfl, fun t0 t1 => ?_⟩
      have e : curve (dcStep [a, b, c, d]) t = ((1 - t) ^ 2 * (3 * (b.1 - a.1)) + 2 * (1 - t) * t * (3 * (c.1 - b.1)) +
          t ^ 2 * (3 * (d.1 - c.1)),
          (1 - t) ^ 2 * (3 * (b.2 - a.2)) + 2 * (1 - t) * t * (3 * (c.2 - b.2)) + t ^ 2 * (3 * (d.2 - c.2))) := by
        simp [dcStep, curve_three]
      rw [e]
      have k : ((4 - 1 : ℕ) : ℝ) = 3 := by norm_num
      simp only [zero_add, Nat.reduceAdd, k] at x0 x1 y0 y1 x2 y2
      obtain ⟨u0, v0⟩ := scaled (F := F) (sc 3 a.1 b.1 (by norm_num) x0)
      obtain ⟨u1, v1⟩ := scaled (F := F) (sc 3 b.1 c.1 (by norm_num) x1)
      obtain ⟨u2, v2⟩ := scaled (F := F) (sc 3 c.1 d.1 (by norm_num) x2)
      obtain ⟨u3, v3⟩ := scaled (F := F) (sc 3 a.2 b.2 (by norm_num) y0)
      obtain ⟨u4, v4⟩ := scaled (F := F) (sc 3 b.2 c.2 (by norm_num) y1)
      obtain ⟨u5, v5⟩ := scaled (F := F) (sc 3 c.2 d.2 (by norm_num) y2)
      constructor
      · refine tri ?_ (mean3 t0 t1 u0 u1 u2)
        exact cubic_weights t0 t1 v0 v1 v2
      · refine tri ?_ (mean3 t0 t1 u3 u4 u5)
        exact cubic_weights t0 t1 v3 v4 v5

private theorem vlen_near {a b : Pt ℝ} {e : ℝ} (h1 : |a.1 - b.1| ≤ e) (h2 : |a.2 - b.2| ≤ e) : |vlen a - vlen b| ≤ 142 / 100 * e := by
  have he : 0 ≤ e := (abs_nonneg _).trans h1
  have tri : ∀ p q : Pt ℝ, |p.1 - q.1| ≤ e → |p.2 - q.2| ≤ e → vlen p ≤ vlen q + 142 / 100 * e := by
    intro p q h1 h2
    have h := vlen_add q (p.1 - q.1, p.2 - q.2)
    rw [add_sub_cancel, add_sub_cancel] at h
    have k : vlen (p.1 - q.1, p.2 - q.2) ≤ 142 / 100 * e := by
      apply Real.sqrt_le_iff.mpr
      refine ⟨by positivity, ?_⟩
      have x2 := sq_le_sq' (abs_le.mp h1).1 (abs_le.mp h1).2
      have y2 := sq_le_sq' (abs_le.mp h2).1 (abs_le.mp h2).2
      nlinarith
    exact h.trans (by linarith)
  rw [abs_le]
  have t1 := tri a b h1 h2
  have t2 := tri b a (by rwa [abs_sub_comm]) (by rwa [abs_sub_comm])
  constructor <;> linarith

private theorem quad_one : quadQ (fun _ => 1) ≤ 1 + 1 / 10 ^ 36 := by decide +kernel

/-- C91: the error of `length` in rounded arithmetic. `B` bounds the coordinates of the derivative's control points. The last two
roundings, and those of the sum, are relative to the length; those of the derivative are relative to `B`. -/
theorem C91_error (hu : D.u < 1) (ps : Segment ℝ) (h : ps.length = 3 ∨ ps.length = 4) (B : ℝ)
    (hB : ps.IsChain fun p q => ((ps.length - 1 : ℕ) : ℝ) * |q.1 - p.1| ≤ B ∧ ((ps.length - 1 : ℕ) : ℝ) * |q.2 - p.2| ≤ B) :
    ∃ l l', Bezier.lengthOf ps = .ok l ∧ Rounded.length F D E ps = .ok l' ∧
      |l' - l| ≤ ((1 + E.u) * (1 + D.gap 27) - 1) * l + (1 + E.u) * (1 + D.gap 27) * (3 / 2 * speedError F D B) := by
  choose d hd hn using derivative_near (F := F) (D := D) ps h B hB
  have hlt : ps.length > 1 := by omega
  have hp : Rounded.firstDerivative F ps = .ok (Rounded.dcStep F ps) := by
    unfold Rounded.firstDerivative; rw [if_pos hlt]
  obtain ⟨r, hr, hR⟩ := fold_rel (F := F) (D := D) (E := E) hu (order ps) (Rounded.dcStep F ps) (fun t => vlen (d t))
    (fun t => Rounded.sqrt D (D.add (D.mul (d t).1 (d t).1) (D.mul (d t).2 (d t).2))) (fun t => vlen_nonneg _)
    (fun t => by unfold Rounded.arcfun; rw [hd]; rfl)
    (fun t => by
      have m1 := (Rounding.Rel.refl (R := D) (d t).1).mul hu (Rounding.Rel.refl (d t).1)
      have m2 := (Rounding.Rel.refl (R := D) (d t).2).mul hu (Rounding.Rel.refl (d t).2)
      have s := Rounding.Rel.add hu (mul_self_nonneg _) (mul_self_nonneg _) m1 m2
      exact Rounding.Rel.sqrt (k := 1) hu (add_nonneg (mul_self_nonneg _) (mul_self_nonneg _)) s)
    ps hp rfl
  refine ⟨_, _, lengthOf_curve ps h, hr, ?_⟩
  set e := speedError F D B
  have near : ∀ t, 0 < t → t < 1 → |vlen (d t) - vlen (curve (dcStep ps) t)| ≤ 142 / 100 * e := fun t t0 t1 =>
    vlen_near (hn t t0.le t1.le).1 (hn t t0.le t1.le).2
  have he : 0 ≤ e := (abs_nonneg _).trans (hn 0 le_rfl (by norm_num)).1
  have one : quad (fun _ => (1:ℝ)) ≤ 1 + 1 / 10 ^ 36 := by
    rw [quad_cast _ (fun _ => 1) (fun x => by simp)]
    have : ((quadQ (fun _ => 1) : ℚ) : ℝ) ≤ ((1 + 1 / 10 ^ 36 : ℚ) : ℝ) := by exact_mod_cast quad_one
    push_cast at this
    exact this
  have bound : 142 / 100 * e * quad (fun _ => (1:ℝ)) ≤ 3 / 2 * e := by
    have : 142 / 100 * e * quad (fun _ => (1:ℝ)) ≤ 142 / 100 * e * (1 + 1 / 10 ^ 36) :=
      mul_le_mul_of_nonneg_left one (by positivity)
    refine this.trans ?_
    rw [show 142 / 100 * e * (1 + 1 / 10 ^ 36) = 142 / 100 * (1 + 1 / 10 ^ 36) * e by ring]
    exact mul_le_mul_of_nonneg_right (by norm_num) he
  have up : quad (fun t => vlen (d t)) ≤ quad (fun t => vlen (curve (dcStep ps) t)) + 3 / 2 * e := by
    have := quad_mono (fun t => vlen (d t)) (fun t => vlen (curve (dcStep ps) t) + 142 / 100 * e * 1)
      (fun t t0 t1 => by have := abs_le.mp (near t t0 t1); linarith)
    rw [quad_add, quad_smul] at this
    linarith
  have lo : quad (fun t => vlen (curve (dcStep ps) t)) ≤ quad (fun t => vlen (d t)) + 3 / 2 * e := by
    have := quad_mono (fun t => vlen (curve (dcStep ps) t)) (fun t => vlen (d t) + 142 / 100 * e * 1)
      (fun t t0 t1 => by have := abs_le.mp (near t t0 t1); linarith)
    rw [quad_add, quad_smul] at this
    linarith
  have S0 : 0 ≤ quad (fun t => vlen (d t)) := by
    have z := quad_smul 0 (fun _ => 0)
    have := quad_mono (fun _ => 0 * 0) (fun t => vlen (d t)) (fun t _ _ => by simp [vlen_nonneg])
    rw [z] at this
    linarith
  generalize quad (fun t => vlen (d t)) = S at *
  generalize quad (fun t => vlen (curve (dcStep ps) t)) = L at *
  have e1 := hR.error hu
  rw [abs_of_nonneg S0] at e1
  have e2 := E.error r
  have g0 := Rounding.gap_nonneg hu 27
  generalize D.gap 27 = g at *
  have u0 := E.u_nonneg
  have rS : |r| ≤ (1 + g) * S := by
    have := abs_add_le (r - S) S
    rw [sub_add_cancel, abs_of_nonneg S0] at this
    linarith
  have t1 : |E.rnd r - L| ≤ |E.rnd r - r| + |r - S| + |S - L| := by
    have a := abs_add_le (E.rnd r - r) (r - S)
    have b := abs_add_le (E.rnd r - r + (r - S)) (S - L)
    rw [show E.rnd r - r + (r - S) + (S - L) = E.rnd r - L by ring] at b
    linarith
  have t2 : |S - L| ≤ 3 / 2 * e := abs_le.mpr ⟨by linarith, by linarith⟩
  have t3 : E.u * |r| ≤ E.u * ((1 + g) * S) := mul_le_mul_of_nonneg_left rS u0
  have G0 : 0 ≤ (1 + E.u) * (1 + g) - 1 := by nlinarith
  have t4 : ((1 + E.u) * (1 + g) - 1) * S ≤ ((1 + E.u) * (1 + g) - 1) * (L + 3 / 2 * e) := mul_le_mul_of_nonneg_left up G0
  nlinarith

end error

/-- C91: in Python with the default decimal context (28 digits, 30 during the computation) the rounding error of `length` is at most
1e-27 of the length plus 4e-16 times the largest coordinate of the derivative's control points. -/
theorem C91_python (ps : Segment ℝ) (h : ps.length = 3 ∨ ps.length = 4) (B : ℝ)
    (hB : ps.IsChain fun p q => ((ps.length - 1 : ℕ) : ℝ) * |q.1 - p.1| ≤ B ∧ ((ps.length - 1 : ℕ) : ℝ) * |q.2 - p.2| ≤ B) :
    ∃ l l', Bezier.lengthOf ps = .ok l ∧ Rounded.length (binary 52).toRounding (decimal 30) (decimal 28) ps = .ok l' ∧
      |l' - l| ≤ 1 / 10 ^ 27 * l + 4 / 10 ^ 16 * B := by
  have uF : (binary 52).u = 2 ^ (-53 : ℤ) := rfl
  have uD : (decimal 30).u = 10 ^ (1 - (30 : ℤ)) / 2 := rfl
  have uE : (decimal 28).u = 10 ^ (1 - (28 : ℤ)) / 2 := rfl
  obtain ⟨l, l', hl, hl', he⟩ := C91_error (F := (binary 52).toRounding) (D := decimal 30) (E := decimal 28)
    (by rw [uD]; norm_num) ps h B hB
  refine ⟨l, l', hl, hl', he.trans ?_⟩
  have l0 : 0 ≤ l := by
    obtain ⟨l2, h2, h3⟩ := C51_nonneg ps h
    rw [hl] at h2
    rwa [Except.ok.inj h2]
  have B0 : 0 ≤ B := by
    rcases h with h | h
    · match ps, h with
      | [a, b, c], _ =>
        simp only [List.isChain_cons_cons] at hB
        exact le_trans (by positivity) hB.1.1
    · match ps, h with
      | [a, b, c, d], _ =>
        simp only [List.isChain_cons_cons] at hB
        exact le_trans (by positivity) hB.1.1
  have g : (1 + (decimal 28).u) * (1 + (decimal 30).gap 27) ≤ 1 + 1 / 10 ^ 27 := by
    unfold Rounding.gap
    rw [uD, uE]
    norm_num
  have s : speedError (binary 52).toRounding (decimal 30) B ≤ 23 / 10 ^ 17 * B := by
    unfold speedError
    rw [uF, uD]
    rw [← mul_assoc, ← mul_assoc, ← add_mul]
    refine mul_le_mul_of_nonneg_right ?_ B0
    norm_num
  have s0 : 0 ≤ speedError (binary 52).toRounding (decimal 30) B := by
    unfold speedError
    rw [uF, uD]
    refine add_nonneg (mul_nonneg ?_ B0) (mul_nonneg ?_ (by positivity)) <;> norm_num
  have a := mul_le_mul_of_nonneg_right g l0
  have b := mul_le_mul_of_nonneg_right g (show 0 ≤ 3 / 2 * speedError (binary 52).toRounding (decimal 30) B by positivity)
  nlinarith

/-- An arch with derivative coordinates of at most 4: its computed length is off by at most 1e-27 of it plus 1.6e-15. -/
example : ∃ l l', Bezier.lengthOf [((0:ℝ), 0), (1, 2), (3, 0)] = .ok l ∧
    Rounded.length (binary 52).toRounding (decimal 30) (decimal 28) [((0:ℝ), 0), (1, 2), (3, 0)] = .ok l' ∧
    |l' - l| ≤ 1 / 10 ^ 27 * l + 4 / 10 ^ 16 * 4 :=
  C91_python _ (.inl rfl) 4 (by simp only [List.isChain_cons_cons, List.length]; norm_num)

end PathLib
