import Verif.Props.RoundedPen
import Verif.Props.RoundedIntersect
import Verif.Props.RoundedClosest
import Verif.Props.RoundedSimple

/-!
# Parameters with few bits lose nothing to rounding: C120
-/

set_option linter.unusedSectionVars false
set_option linter.unusedSimpArgs false

namespace PathLib
open Spec Bezier

namespace DyadicExact

theorem rnd_of (B : ℝ) {e : ℕ} {x : ℝ} (h : Dyadic e x) (hx : |x| ≤ B) (hB : B * 2 ^ e ≤ 2 ^ 53) : float.rnd x = x :=
  rnd_dyadic h ((mul_le_mul_of_nonneg_right hx (by positivity)).trans hB)

theorem neg {e : ℕ} {x : ℝ} (h : Dyadic e x) : Dyadic e (-x) := by
  obtain ⟨m, rfl⟩ := h
  exact ⟨-m, by push_cast; ring⟩

theorem sub {e : ℕ} {x y : ℝ} (h : Dyadic e x) (h' : Dyadic e y) : Dyadic e (x - y) := by
  rw [sub_eq_add_neg]; exact h.add (neg h')

theorem nat (k : ℕ) : Dyadic 0 (k : ℝ) := by exact_mod_cast Dyadic.int (k : ℤ)

theorem weighted4 {k e : ℕ} {B a b c d x y z w : ℝ} (hB : B * 2 ^ (k + e) ≤ 2 ^ 53)
    (a0 : 0 ≤ a) (b0 : 0 ≤ b) (c0 : 0 ≤ c) (d0 : 0 ≤ d) (hs : a + b + c + d ≤ 1)
    (ha : Dyadic k a) (hb : Dyadic k b) (hc : Dyadic k c) (hd : Dyadic k d)
    (hx : Dyadic e x ∧ |x| ≤ B) (hy : Dyadic e y ∧ |y| ≤ B) (hz : Dyadic e z ∧ |z| ≤ B) (hw : Dyadic e w ∧ |w| ≤ B) :
    float.add (float.add (float.add (float.mul a x) (float.mul b y)) (float.mul c z)) (float.mul d w) = a * x + b * y + c * z + d * w := by
  have B0 : 0 ≤ B := (abs_nonneg x).trans hx.2
  have t : ∀ {p u : ℝ}, 0 ≤ p → |u| ≤ B → |p * u| ≤ p * B := fun {p u} h h' => by
    rw [abs_mul, abs_of_nonneg h]; exact mul_le_mul_of_nonneg_left h' h
  have n1 := t a0 hx.2
  have n2 := t b0 hy.2
  have n3 := t c0 hz.2
  have n4 := t d0 hw.2
  have tot : a * B + b * B + c * B + d * B ≤ B := by nlinarith
  have p1 : 0 ≤ a * B := by positivity
  have p2 : 0 ≤ b * B := by positivity
  have p3 : 0 ≤ c * B := by positivity
  have p4 : 0 ≤ d * B := by positivity
  have s1 := (abs_add_le (a * x) (b * y)).trans (add_le_add n1 n2)
  have s2 := (abs_add_le (a * x + b * y) (c * z)).trans (add_le_add s1 n3)
  have s3 := (abs_add_le (a * x + b * y + c * z) (d * w)).trans (add_le_add s2 n4)
  have D1 := ha.mul hx.1
  have D2 := hb.mul hy.1
  have D3 := hc.mul hz.1
  have D4 := hd.mul hw.1
  unfold Rounding.add Rounding.mul
  rw [rnd_of B D1 (n1.trans (by linarith)) hB, rnd_of B D2 (n2.trans (by linarith)) hB, rnd_of B D3 (n3.trans (by linarith)) hB,
    rnd_of B D4 (n4.trans (by linarith)) hB, rnd_of B (D1.add D2) (s1.trans (by linarith)) hB,
    rnd_of B ((D1.add D2).add D3) (s2.trans (by linarith)) hB, rnd_of B (((D1.add D2).add D3).add D4) (s3.trans tot) hB]

theorem weighted3 {k e : ℕ} {B a b c x y z : ℝ} (hB : B * 2 ^ (k + e) ≤ 2 ^ 53)
    (a0 : 0 ≤ a) (b0 : 0 ≤ b) (c0 : 0 ≤ c) (hs : a + b + c ≤ 1)
    (ha : Dyadic k a) (hb : Dyadic k b) (hc : Dyadic k c)
    (hx : Dyadic e x ∧ |x| ≤ B) (hy : Dyadic e y ∧ |y| ≤ B) (hz : Dyadic e z ∧ |z| ≤ B) :
    float.add (float.add (float.mul a x) (float.mul b y)) (float.mul c z) = a * x + b * y + c * z := by
  have B0 : 0 ≤ B := (abs_nonneg x).trans hx.2
  have z0 : Dyadic k (0:ℝ) := ⟨0, by simp⟩
  have z1 : Dyadic e (0:ℝ) := ⟨0, by simp⟩
  have h := weighted4 hB a0 b0 c0 le_rfl (by linarith) ha hb hc z0 hx hy hz ⟨z1, by simpa using B0⟩
  have e0 : float.mul 0 0 = 0 := by unfold Rounding.mul; rw [mul_zero, rnd_dyadic (e := 0) ⟨0, by simp⟩ (by simp)]
  have e1 : ∀ x : ℝ, float.add (float.rnd x) 0 = float.rnd x := fun x => by
    unfold Rounding.add
    rw [add_zero]
    exact (binary 52).idem x
  rw [e0, mul_zero, add_zero] at h
  rw [← h]
  exact (e1 _).symm

/-- The powers of the parameter and their products are exact. -/
theorem unit_mul {k n : ℕ} {x y : ℝ} (hk : (2:ℝ) ^ (k + n) ≤ 2 ^ 53) (hx : Dyadic k x ∧ 0 ≤ x ∧ x ≤ 1) (hy : Dyadic n y ∧ 0 ≤ y ∧ y ≤ 1) :
    float.mul x y = x * y ∧ Dyadic (k + n) (x * y) ∧ 0 ≤ x * y ∧ x * y ≤ 1 := by
  have h0 : 0 ≤ x * y := mul_nonneg hx.2.1 hy.2.1
  have h1 : x * y ≤ 1 := mul_le_one₀ hx.2.2 hy.2.1 hy.2.2
  have D := hx.1.mul hy.1
  exact ⟨rnd_of 1 D (by rwa [abs_of_nonneg h0]) (by rwa [one_mul]), D, h0, h1⟩

theorem one_sub {n : ℕ} {t : ℝ} (hn : (2:ℝ) ^ n ≤ 2 ^ 53) (ht : Dyadic n t) (h0 : 0 ≤ t) (h1 : t ≤ 1) :
    float.sub 1 t = 1 - t ∧ Dyadic n (1 - t) ∧ 0 ≤ 1 - t ∧ 1 - t ≤ 1 := by
  have D : Dyadic n (1 - t) := sub ((by simpa using nat 1 : Dyadic 0 (1:ℝ)).mono (by omega)) ht
  have b : 0 ≤ 1 - t := by linarith
  exact ⟨rnd_of 1 D (by rw [abs_of_nonneg b]; linarith) (by rwa [one_mul]), D, b, by linarith⟩

theorem small {n : ℕ} {B : ℕ} {e m : ℕ} (hB1 : 1 ≤ B) (hB : (B : ℝ) * 2 ^ (e + m * n) ≤ 2 ^ 53) {j : ℕ} (hj : j ≤ m * n) : (2:ℝ) ^ j ≤ 2 ^ 53 := by
  have b : (1:ℝ) ≤ B := by exact_mod_cast hB1
  have p : (2:ℝ) ^ j ≤ 2 ^ (e + m * n) := pow_le_pow_right₀ (by norm_num) (by omega)
  have q : (0:ℝ) < 2 ^ (e + m * n) := by positivity
  nlinarith

end DyadicExact

open DyadicExact

/-- C120: let the coordinates of the control points of a line, quadratic or cubic be multiples of `2^-e`, at most `B` in absolute value, and `t` a multiple of `2^-n` in
[0, 1]. If `B * 2^(e + order * n)` is at most `2^53`, then `get(t)` in floating point arithmetic is the exact point of the curve. -/
theorem C120_get (e n B : ℕ) (hB1 : 1 ≤ B) (ps : Segment ℝ) (h2 : 2 ≤ ps.length) (h4 : ps.length ≤ 4)
    (hB : (B : ℝ) * 2 ^ (e + (ps.length - 1) * n) ≤ 2 ^ 53)
    (hp : ∀ p ∈ ps, (Dyadic e p.1 ∧ |p.1| ≤ B) ∧ Dyadic e p.2 ∧ |p.2| ≤ B) (t : ℝ) (ht : Dyadic n t) (h0 : 0 ≤ t) (h1 : t ≤ 1) :
    Rounded.get float ps t = Bezier.get ps t := by
  rw [← C82_exact]
  by_cases t0 : t = 0
  · subst t0; simp [Rounded.get]
  by_cases t1 : t = 1
  · subst t1; simp [Rounded.get]
  have sm : ∀ j, j ≤ (ps.length - 1) * n → (2:ℝ) ^ j ≤ 2 ^ 53 := fun j hj => small hB1 hB hj
  have ex : Rounding.exact.rnd = id := rfl
  obtain ⟨em, Dm, m0, m1⟩ := one_sub (sm n (Nat.le_mul_of_pos_left n (by omega))) ht h0 h1
  have T : Dyadic n t ∧ 0 ≤ t ∧ t ≤ 1 := ⟨ht, h0, h1⟩
  have M : Dyadic n (1 - t) ∧ 0 ≤ 1 - t ∧ 1 - t ≤ 1 := ⟨Dm, m0, m1⟩
  match ps, h2, h4 with
  | [p, q], _, _ =>
    simp only [List.length_cons, List.length_nil] at hB sm
    have P := hp p (by simp)
    have Q := hp q (by simp)
    have hB' : (B : ℝ) * 2 ^ (n + e) ≤ 2 ^ 53 := by convert hB using 3; omega
    have w : ∀ {x y : ℝ}, Dyadic e x ∧ |x| ≤ B → Dyadic e y ∧ |y| ≤ B →
        float.add (float.mul (1 - t) x) (float.mul t y) = (1 - t) * x + t * y := by
      intro x y hx hy
      have D1 := Dm.mul hx.1
      have D2 := ht.mul hy.1
      have n1 : |(1 - t) * x| ≤ (1 - t) * B := by rw [abs_mul, abs_of_nonneg m0]; exact mul_le_mul_of_nonneg_left hx.2 m0
      have n2 : |t * y| ≤ t * B := by rw [abs_mul, abs_of_nonneg h0]; exact mul_le_mul_of_nonneg_left hy.2 h0
      have b0 : (0:ℝ) ≤ B := by positivity
      unfold Rounding.add Rounding.mul
      rw [rnd_of B D1 (n1.trans (by nlinarith)) hB', rnd_of B D2 (n2.trans (by nlinarith)) hB',
        rnd_of B (D1.add D2) ((abs_add_le _ _).trans ((add_le_add n1 n2).trans (by linarith))) hB']
    have o : order [p, q] = 1 := rfl
    simp only [Rounded.get, if_neg t0, if_neg t1, o, em, pyGet_zero_cons, pyGet_one_cons, ok_bind, w P.1 Q.1, w P.2 Q.2]
    rfl
  | [p, q, r], _, _ =>
    simp only [List.length_cons, List.length_nil] at hB sm
    have P := hp p (by simp)
    have Q := hp q (by simp)
    have R := hp r (by simp)
    have hB' : (B : ℝ) * 2 ^ (n + n + e) ≤ 2 ^ 53 := by convert hB using 3; omega
    obtain ⟨e1, D1, x1, y1⟩ := unit_mul (sm _ (by omega)) M M
    obtain ⟨e2, D2, x2, y2⟩ := unit_mul (sm _ (by omega)) T T
    obtain ⟨e3, D3, x3, y3⟩ := unit_mul (sm _ (by omega)) M T
    have D4 : Dyadic (n + n) ((1 - t) * t * 2) := by simpa using D3.mul (nat 2)
    have y4 : (1 - t) * t * 2 ≤ 1 := by nlinarith [sq_nonneg (1 - 2 * t)]
    have e4 : float.mul ((1 - t) * t) 2 = (1 - t) * t * 2 :=
      rnd_of 1 D4 (by rw [abs_of_nonneg (by positivity)]; exact y4) (by rw [one_mul]; exact sm _ (by omega))
    have z0 : Dyadic (n + n) (0:ℝ) := ⟨0, by simp⟩
    have z1 : Dyadic e (0:ℝ) ∧ |(0:ℝ)| ≤ B := ⟨⟨0, by simp⟩, by simp⟩
    have w := fun {x y z : ℝ} (hx : Dyadic e x ∧ |x| ≤ B) (hy : Dyadic e y ∧ |y| ≤ B) (hz : Dyadic e z ∧ |z| ≤ B) =>
      weighted4 hB' x1 (by positivity : (0:ℝ) ≤ (1 - t) * t * 2) x2 le_rfl (by nlinarith) D1 D4 D2 z0 hx hy hz z1
    have o : order [p, q, r] = 2 := rfl
    have o1 : ¬ (2:ℤ) = 0 := by decide
    have o2 : ¬ (2:ℤ) = 1 := by decide
    have o3 : (2:ℤ) < 4 := by decide
    simp only [Rounded.get, if_neg t0, if_neg t1, o, em, pyGet_zero_cons, pyGet_one_cons, pyGet_two_cons, pyGet_three_cons, ok_bind, pure_eq_ok, e1, e2, e3, e4, if_neg o1,
      if_neg o2, if_pos o3, if_true, w P.1 Q.1 R.1, w P.2 Q.2 R.2]
    rfl
  | [p, q, r, s], _, _ =>
    simp only [List.length_cons, List.length_nil] at hB sm
    have P := hp p (by simp)
    have Q := hp q (by simp)
    have R := hp r (by simp)
    have S := hp s (by simp)
    have hB' : (B : ℝ) * 2 ^ (n + n + n + e) ≤ 2 ^ 53 := by convert hB using 3; omega
    obtain ⟨e1, D1, x1, y1⟩ := unit_mul (sm _ (by omega)) M M
    obtain ⟨e2, D2, x2, y2⟩ := unit_mul (sm _ (by omega)) T T
    obtain ⟨e3, D3, x3, y3⟩ := unit_mul (sm _ (by omega)) ⟨D1, x1, y1⟩ M
    obtain ⟨e4, D4, x4, y4⟩ := unit_mul (sm _ (by omega)) ⟨D1, x1, y1⟩ T
    obtain ⟨e5, D5, x5, y5⟩ := unit_mul (sm _ (by omega)) M ⟨D2, x2, y2⟩
    obtain ⟨e6, D6, x6, y6⟩ := unit_mul (sm _ (by omega)) T ⟨D2, x2, y2⟩
    rw [← add_assoc] at D5 D6
    have D7 : Dyadic (n + n + n) ((1 - t) * (1 - t) * t * 3) := by simpa using D4.mul (nat 3)
    have D8 : Dyadic (n + n + n) ((1 - t) * (t * t) * 3) := by simpa using D5.mul (nat 3)
    have total : (1 - t) * (1 - t) * (1 - t) + (1 - t) * (1 - t) * t * 3 + (1 - t) * (t * t) * 3 + t * (t * t) = 1 := by ring
    have y7 : (1 - t) * (1 - t) * t * 3 ≤ 1 := by nlinarith
    have y8 : (1 - t) * (t * t) * 3 ≤ 1 := by nlinarith
    have x7 : 0 ≤ (1 - t) * (1 - t) * t * 3 := by positivity
    have x8 : 0 ≤ (1 - t) * (t * t) * 3 := by positivity
    have e7 : float.mul ((1 - t) * (1 - t) * t) 3 = (1 - t) * (1 - t) * t * 3 :=
      rnd_of 1 D7 (by rw [abs_of_nonneg x7]; exact y7) (by rw [one_mul]; exact sm _ (by omega))
    have e8 : float.mul ((1 - t) * (t * t)) 3 = (1 - t) * (t * t) * 3 :=
      rnd_of 1 D8 (by rw [abs_of_nonneg x8]; exact y8) (by rw [one_mul]; exact sm _ (by omega))
    have w := fun {x y z u : ℝ} (hx : Dyadic e x ∧ |x| ≤ B) (hy : Dyadic e y ∧ |y| ≤ B) (hz : Dyadic e z ∧ |z| ≤ B) (hu : Dyadic e u ∧ |u| ≤ B) =>
      weighted4 hB' x3 x7 x8 x6 total.le D3 D7 D8 D6 hx hy hz hu
    have o : order [p, q, r, s] = 3 := rfl
    have o1 : ¬ (3:ℤ) = 0 := by decide
    have o2 : ¬ (3:ℤ) = 1 := by decide
    have o3 : (3:ℤ) < 4 := by decide
    have o4 : ¬ (3:ℤ) = 2 := by decide
    simp only [Rounded.get, if_neg t0, if_neg t1, o, em, pyGet_zero_cons, pyGet_one_cons, pyGet_two_cons, pyGet_three_cons, ok_bind, pure_eq_ok, e1, e2, e3, e4, e5, e6, e7, e8,
      if_neg o1, if_neg o2, if_pos o3, if_neg o4, w P.1 Q.1 R.1 S.1, w P.2 Q.2 R.2 S.2]
    rfl

namespace DyadicExact

/-- Both coordinates are multiples of `2^-e`, at most `B` in absolute value. -/
abbrev Fits (e B : ℕ) (p : Pt ℝ) : Prop := (Dyadic e p.1 ∧ |p.1| ≤ B) ∧ Dyadic e p.2 ∧ |p.2| ≤ B

theorem lerp_coord {e n B : ℕ} (hB : 2 * (B : ℝ) * 2 ^ (e + n) ≤ 2 ^ 53) {t : ℝ} (ht : Dyadic n t) (h0 : 0 ≤ t) (h1 : t ≤ 1) {x y : ℝ}
    (hx : Dyadic e x ∧ |x| ≤ B) (hy : Dyadic e y ∧ |y| ≤ B) :
    float.add x (float.mul t (float.sub y x)) = x + t * (y - x) ∧ float.add x (float.mul (float.sub y x) t) = x + (y - x) * t ∧
      Dyadic (e + n) (x + t * (y - x)) ∧ |x + t * (y - x)| ≤ B := by
  have D1 := sub hy.1 hx.1
  have D2 : Dyadic (e + n) ((y - x) * t) := D1.mul ht
  have D3 := (hx.1.mono (Nat.le_add_right e n)).add D2
  have n1 : |y - x| ≤ 2 * B := (abs_sub y x).trans (by linarith [hx.2, hy.2])
  have n2 : |(y - x) * t| ≤ 2 * B := by
    rw [abs_mul, abs_of_nonneg h0]
    have := abs_nonneg (y - x)
    nlinarith
  have n3 : |x + t * (y - x)| ≤ B := by
    have := abs_le.mp hx.2
    have := abs_le.mp hy.2
    rw [abs_le]
    constructor <;> nlinarith
  have b0 : (0:ℝ) ≤ B := by positivity
  have hB' : 2 * (B : ℝ) * 2 ^ e ≤ 2 ^ 53 :=
    (mul_le_mul_of_nonneg_left (pow_le_pow_right₀ (by norm_num) (Nat.le_add_right e n)) (by positivity)).trans hB
  have s1 : float.sub y x = y - x := rnd_of _ D1 n1 hB'
  have s2 : float.mul (y - x) t = (y - x) * t := rnd_of _ D2 n2 hB
  have s3 : float.add x ((y - x) * t) = x + (y - x) * t := rnd_of _ D3 (by rw [mul_comm]; exact n3.trans (by linarith)) hB
  have s2' : float.mul t (y - x) = (y - x) * t := by rw [← s2]; unfold Rounding.mul; rw [mul_comm]
  refine ⟨by rw [s1, s2', s3]; ring, by rw [s1, s2, s3], ?_, n3⟩
  rw [mul_comm t]; exact D3

theorem hullStep_eq {e n B : ℕ} (hB : 2 * (B : ℝ) * 2 ^ (e + n) ≤ 2 ^ 53) {t : ℝ} (ht : Dyadic n t) (h0 : 0 ≤ t) (h1 : t ≤ 1) (ps : Segment ℝ)
    (hp : ∀ p ∈ ps, Fits e B p) :
    Rounded.hullStep float t ps = Rounded.hullStep Rounding.exact t ps ∧ Rounded.casteljauStep float t ps = Rounded.casteljauStep Rounding.exact t ps ∧
      (∀ p ∈ Rounded.hullStep Rounding.exact t ps, Fits (e + n) B p) ∧ ∀ p ∈ Rounded.casteljauStep Rounding.exact t ps, Fits (e + n) B p := by
  unfold Rounded.hullStep Rounded.casteljauStep
  induction ps with
  | nil => simp
  | cons a l ih =>
    cases l with
    | nil => simp
    | cons b l =>
      obtain ⟨i1, i2, i3, i4⟩ := ih fun p h => hp p (List.mem_cons_of_mem _ h)
      have A := hp a (by simp)
      have C := hp b (by simp)
      obtain ⟨x1, x2, x3, x4⟩ := lerp_coord hB ht h0 h1 A.1 C.1
      obtain ⟨y1, y2, y3, y4⟩ := lerp_coord hB ht h0 h1 A.2 C.2
      simp only [List.tail_cons, List.zipWith_cons_cons] at i1 i2 i3 i4 ⊢
      refine ⟨?_, ?_, ?_, ?_⟩
      · rw [i1]; congr 1; unfold Rounded.lerp; rw [x1, y1]; rfl
      · rw [i2]; congr 1; rw [x2, y2]; rfl
      · rintro p (_ | ⟨_, h⟩)
        · exact ⟨⟨x3, x4⟩, y3, y4⟩
        · exact i3 p h
      · rintro p (_ | ⟨_, h⟩)
        · have e1 : ∀ x y : ℝ, x + t * (y - x) = x + (y - x) * t := fun x y => by ring
          rw [e1] at x3 x4 y3 y4
          exact ⟨⟨x3, x4⟩, y3, y4⟩
        · exact i4 p h

theorem hullLoop_small (R : Rounding) (t : ℝ) (ps : Segment ℝ) (h : ps.length ≤ 1) : Rounded.hullLoop R t ps = [] ∧ Rounded.casteljau R t ps = pyGet ps 0 := by
  rw [Rounded.hullLoop, if_neg (by omega), Rounded.casteljau, if_neg (by omega)]
  exact ⟨rfl, rfl⟩

theorem hullLoop_big (R : Rounding) (t : ℝ) (ps : Segment ℝ) (h : 1 < ps.length) :
    Rounded.hullLoop R t ps = Rounded.hullStep R t ps ++ Rounded.hullLoop R t (Rounded.hullStep R t ps) ∧
    Rounded.casteljau R t ps = Rounded.casteljau R t (Rounded.casteljauStep R t ps) := by
  constructor
  · rw [Rounded.hullLoop, if_pos (by omega)]
  · rw [Rounded.casteljau, if_pos (by omega)]

theorem hullLoop_eq {n B : ℕ} {t : ℝ} (ht : Dyadic n t) (h0 : 0 ≤ t) (h1 : t ≤ 1) (m : ℕ) : ∀ (e : ℕ) (ps : Segment ℝ), ps.length = m + 1 →
    2 * (B : ℝ) * 2 ^ (e + m * n) ≤ 2 ^ 53 → (∀ p ∈ ps, Fits e B p) →
    Rounded.hullLoop float t ps = Rounded.hullLoop Rounding.exact t ps ∧ (∀ p ∈ Rounded.hullLoop Rounding.exact t ps, Fits (e + m * n) B p) ∧
    Rounded.casteljau float t ps = Rounded.casteljau Rounding.exact t ps := by
  induction m with
  | zero =>
    intro e ps hl _ _
    have k := fun R => hullLoop_small R t ps (by omega)
    rw [(k _).1, (k _).1, (k _).2, (k _).2]
    simp
  | succ m ih =>
    intro e ps hl hB hp
    have s : e + n + m * n = e + (m + 1) * n := by ring
    have hB' : 2 * (B : ℝ) * 2 ^ (e + n) ≤ 2 ^ 53 := by
      refine le_trans (mul_le_mul_of_nonneg_left (pow_le_pow_right₀ (by norm_num) ?_) (by positivity)) hB
      rw [← s]; omega
    obtain ⟨i1, i2, i3, i4⟩ := hullStep_eq hB' ht h0 h1 ps hp
    obtain ⟨j1, j2, _⟩ := ih (e + n) (Rounded.hullStep Rounding.exact t ps) (by rw [Rounded.hullStep_length, hl]; rfl) (by rw [s]; exact hB) i3
    obtain ⟨_, _, j3⟩ := ih (e + n) (Rounded.casteljauStep Rounding.exact t ps) (by rw [Rounded.casteljauStep_length, hl]; rfl) (by rw [s]; exact hB) i4
    have k := fun R => hullLoop_big R t ps (by omega)
    refine ⟨?_, ?_, ?_⟩
    · rw [(k float).1, (k Rounding.exact).1, i1, j1]
    · rw [(k Rounding.exact).1]
      intro p hp'
      rcases List.mem_append.mp hp' with h | h
      · obtain ⟨⟨a, b⟩, c, d⟩ := i3 p h
        exact ⟨⟨a.mono (by rw [← s]; omega), b⟩, c.mono (by rw [← s]; omega), d⟩
      · have := j2 p h
        rw [s] at this
        exact this
    · rw [(k float).2, (k Rounding.exact).2, i2, j3]

end DyadicExact

/-- C120: `derivative(t)` of a quadratic or cubic is exact if `2 * order * B * 2^(e + (order - 1) * n)` is at most `2^53`. -/
theorem C120_derivative (e n B : ℕ) (hB1 : 1 ≤ B) (ps : Segment ℝ) (h : ps.length = 3 ∨ ps.length = 4)
    (hB : ((2 * (ps.length - 1) * B : ℕ) : ℝ) * 2 ^ (e + (ps.length - 2) * n) ≤ 2 ^ 53)
    (hp : ∀ p ∈ ps, (Dyadic e p.1 ∧ |p.1| ≤ B) ∧ Dyadic e p.2 ∧ |p.2| ≤ B) (t : ℝ) (ht : Dyadic n t) (h0 : 0 ≤ t) (h1 : t ≤ 1) :
    Rounded.derivative float ps t = Bezier.derivative ps t := by
  rw [← (C89_exact ps t).1]
  set C := 2 * (ps.length - 1) * B with hC
  have C1 : 1 ≤ C := by rw [hC]; have : 1 ≤ ps.length - 1 := by omega
                        nlinarith
  have sm : ∀ j, j ≤ (ps.length - 2) * n → (2:ℝ) ^ j ≤ 2 ^ 53 := fun j hj => small C1 hB hj
  obtain ⟨em, Dm, m0, m1⟩ := one_sub (sm n (Nat.le_mul_of_pos_left n (by omega))) ht h0 h1
  have T : Dyadic n t ∧ 0 ≤ t ∧ t ≤ 1 := ⟨ht, h0, h1⟩
  have M : Dyadic n (1 - t) ∧ 0 ≤ 1 - t ∧ 1 - t ≤ 1 := ⟨Dm, m0, m1⟩
  have hBe : ((C : ℕ) : ℝ) * 2 ^ e ≤ 2 ^ 53 :=
    le_trans (mul_le_mul_of_nonneg_left (pow_le_pow_right₀ (by norm_num) (Nat.le_add_right _ _)) (by positivity)) hB
  -- the control points of the derivative
  have diff : ∀ {x y : ℝ}, Dyadic e x ∧ |x| ≤ B → Dyadic e y ∧ |y| ≤ B →
      float.mul ((ps.length - 1 : ℕ) : ℝ) (float.sub y x) = ((ps.length - 1 : ℕ) : ℝ) * (y - x) ∧
        Dyadic e (((ps.length - 1 : ℕ) : ℝ) * (y - x)) ∧ |((ps.length - 1 : ℕ) : ℝ) * (y - x)| ≤ C := by
    intro x y hx hy
    have D1 := sub hy.1 hx.1
    have D2 : Dyadic e (((ps.length - 1 : ℕ) : ℝ) * (y - x)) := by simpa using (nat (ps.length - 1)).mul D1
    have n1 : |y - x| ≤ 2 * B := (abs_sub y x).trans (by linarith [hx.2, hy.2])
    have n2 : |((ps.length - 1 : ℕ) : ℝ) * (y - x)| ≤ C := by
      rw [abs_mul, abs_of_nonneg (by positivity), hC]
      push_cast
      have : (0:ℝ) ≤ ((ps.length - 1 : ℕ) : ℝ) := by positivity
      nlinarith
    have n3 : |y - x| ≤ C := by
      refine n1.trans ?_
      have : 2 * B ≤ C := by rw [hC]; exact Nat.mul_le_mul_right _ (by omega)
      exact_mod_cast this
    have s1 : float.sub y x = y - x := rnd_of _ D1 n3 hBe
    rw [s1]
    exact ⟨rnd_of _ D2 n2 hBe, D2, n2⟩
  rcases h with h | h
  · match ps, h with
    | [p, q, r], _ =>
      have P := hp p (by simp)
      have Q := hp q (by simp)
      have R := hp r (by simp)
      simp only [List.length_cons, List.length_nil, Nat.reduceAdd, Nat.reduceSub] at diff hB
      have hB' : (C : ℝ) * 2 ^ (n + e) ≤ 2 ^ 53 := by convert hB using 3; omega
      obtain ⟨a1, a2⟩ := diff P.1 Q.1
      obtain ⟨b1, b2⟩ := diff P.2 Q.2
      obtain ⟨c1, c2⟩ := diff Q.1 R.1
      obtain ⟨d1, d2⟩ := diff Q.2 R.2
      have z0 : Dyadic n (0:ℝ) := ⟨0, by simp⟩
      have z1 : Dyadic e (0:ℝ) ∧ |(0:ℝ)| ≤ C := ⟨⟨0, by simp⟩, by simp⟩
      have w := fun {x y : ℝ} (hx : Dyadic e x ∧ |x| ≤ C) (hy : Dyadic e y ∧ |y| ≤ C) =>
        weighted3 hB' m0 h0 le_rfl (by linarith) Dm ht z0 hx hy z1
      have o : order [p, q, r] = 2 := rfl
      simp only [Rounded.derivative, Rounded.firstDerivative, Rounded.dcStep, List.length_cons, List.length_nil, Nat.reduceAdd, Nat.reduceSub, Nat.reduceLT, gt_iff_lt, if_true,
        ok_bind, o, Rounded.derivativeOf, List.tail_cons, List.zipWith_cons_cons, List.zipWith_nil_right, a1, b1, c1, d1, em, pyGet_zero_cons, pyGet_one_cons, pyGet_two_cons,
        pure_eq_ok, w a2 c2, w b2 d2]
      rfl
  · match ps, h with
    | [p, q, r, s], _ =>
      have P := hp p (by simp)
      have Q := hp q (by simp)
      have R := hp r (by simp)
      have S := hp s (by simp)
      simp only [List.length_cons, List.length_nil, Nat.reduceAdd, Nat.reduceSub] at diff hB sm
      have hB' : (C : ℝ) * 2 ^ (n + n + e) ≤ 2 ^ 53 := by convert hB using 3; omega
      obtain ⟨a1, a2⟩ := diff P.1 Q.1
      obtain ⟨b1, b2⟩ := diff P.2 Q.2
      obtain ⟨c1, c2⟩ := diff Q.1 R.1
      obtain ⟨d1, d2⟩ := diff Q.2 R.2
      obtain ⟨f1, f2⟩ := diff R.1 S.1
      obtain ⟨g1, g2⟩ := diff R.2 S.2
      obtain ⟨e1, D1, x1, y1⟩ := unit_mul (sm _ (by omega)) M M
      obtain ⟨e2, D2, x2, y2⟩ := unit_mul (sm _ (by omega)) T T
      obtain ⟨e3, D3, x3, y3⟩ := unit_mul (sm _ (by omega)) M T
      have D4 : Dyadic (n + n) ((1 - t) * t * 2) := by simpa using D3.mul (nat 2)
      have y4 : (1 - t) * t * 2 ≤ 1 := by nlinarith [sq_nonneg (1 - 2 * t)]
      have e4 : float.mul ((1 - t) * t) 2 = (1 - t) * t * 2 :=
        rnd_of 1 D4 (by rw [abs_of_nonneg (by positivity)]; exact y4) (by rw [one_mul]; exact sm _ (by omega))
      have w := fun {x y z : ℝ} (hx : Dyadic e x ∧ |x| ≤ C) (hy : Dyadic e y ∧ |y| ≤ C) (hz : Dyadic e z ∧ |z| ≤ C) =>
        weighted3 hB' x1 (by positivity : (0:ℝ) ≤ (1 - t) * t * 2) x2 (by ring_nf; exact le_rfl) D1 D4 D2 hx hy hz
      have o : order [p, q, r, s] = 3 := rfl
      have o1 : ¬ (3:ℤ) = 2 := by decide
      simp only [Rounded.derivative, Rounded.firstDerivative, Rounded.dcStep, List.length_cons, List.length_nil, Nat.reduceAdd, Nat.reduceSub, Nat.reduceLT, gt_iff_lt, if_true,
        ok_bind, o, if_neg o1, Rounded.derivativeOf, List.tail_cons, List.zipWith_cons_cons, List.zipWith_nil_right, a1, b1, c1, d1, f1, g1, em, e1, e2, e3, e4,
        pyGet_zero_cons, pyGet_one_cons, pyGet_two_cons, pure_eq_ok, w a2 c2 f2, w b2 d2 g2]
      rfl

/-- C120: `hull(t)` of a curve of any order is exact under nearly the same condition (one bit less), and so is `get(t)` for orders above 3. The points
of the hull are multiples of `2^-(e + order * n)`, at most `B`. -/
theorem C120_hull (e n B : ℕ) (ps : Segment ℝ) (hB : 2 * (B : ℝ) * 2 ^ (e + (ps.length - 1) * n) ≤ 2 ^ 53)
    (hp : ∀ p ∈ ps, (Dyadic e p.1 ∧ |p.1| ≤ B) ∧ Dyadic e p.2 ∧ |p.2| ≤ B) (t : ℝ) (ht : Dyadic n t) (h0 : 0 ≤ t) (h1 : t ≤ 1) :
    Rounded.hull float ps t = Bezier.hull ps t ∧
    (∀ p ∈ Bezier.hull ps t, (Dyadic (e + (ps.length - 1) * n) p.1 ∧ |p.1| ≤ B) ∧ Dyadic (e + (ps.length - 1) * n) p.2 ∧ |p.2| ≤ B) ∧
    (5 ≤ ps.length → Rounded.get float ps t = Bezier.get ps t) := by
  rw [← (C83_exact ps t).1, ← C82_exact]
  cases ps with
  | nil =>
    refine ⟨?_, ?_, ?_⟩
    · unfold Rounded.hull; rw [(hullLoop_small float t [] (by simp)).1, (hullLoop_small Rounding.exact t [] (by simp)).1]
    · unfold Rounded.hull; rw [(hullLoop_small Rounding.exact t [] (by simp)).1]; simp
    · simp
  | cons a l =>
    obtain ⟨i1, i2, i3⟩ := hullLoop_eq ht h0 h1 l.length e (a :: l) rfl hB hp
    refine ⟨?_, ?_, ?_⟩
    · unfold Rounded.hull; rw [i1]
    · intro p hp'
      rcases List.mem_append.mp hp' with h | h
      · obtain ⟨⟨a, b⟩, c, d⟩ := hp p h
        exact ⟨⟨a.mono (by omega), b⟩, c.mono (by omega), d⟩
      · exact i2 p h
    · intro h5
      have o : ∀ k : ℤ, k < 4 → ¬ order (a :: l) = k := by
        intro k hk; unfold order; omega
      have o4 : ¬ order (a :: l) < 4 := by unfold order; omega
      simp only [Rounded.get, if_neg (o 0 (by decide)), if_neg (o 1 (by decide)), if_neg o4, i3]

/-- C120: `split(t)` of a quadratic or cubic is exact under the same condition. -/
theorem C120_split (e n B : ℕ) (ps : Segment ℝ) (hB : 2 * (B : ℝ) * 2 ^ (e + (ps.length - 1) * n) ≤ 2 ^ 53)
    (hp : ∀ p ∈ ps, (Dyadic e p.1 ∧ |p.1| ≤ B) ∧ Dyadic e p.2 ∧ |p.2| ≤ B) (t : ℝ) (ht : Dyadic n t) (h0 : 0 ≤ t) (h1 : t ≤ 1) :
    Rounded.splitPoints float ps t = Rounded.splitPoints Rounding.exact ps t ∧
    ∀ b l r q, b.controlPoints = ps → split b t none = .ok (.parts l r q) → Rounded.splitPoints float ps t = .ok (l.controlPoints, r.controlPoints) := by
  have h : Rounded.splitPoints float ps t = Rounded.splitPoints Rounding.exact ps t := by
    unfold Rounded.splitPoints
    rw [(C120_hull e n B ps hB hp t ht h0 h1).1, (C83_exact ps t).1]
  refine ⟨h, fun b l r q hb hs => ?_⟩
  rw [h]
  refine (C83_exact ps t).2 b l r q hb ?_
  unfold split at hs
  obtain ⟨x, hx, hs⟩ := bind_eq_ok.mp hs
  cases hs
  exact hx

/-- C120: the table of `2^n + 1` points is exact. -/
theorem C120_table (e n B : ℕ) (hB1 : 1 ≤ B) (ps : Segment ℝ) (h2 : 2 ≤ ps.length) (h4 : ps.length ≤ 4)
    (hB : (B : ℝ) * 2 ^ (e + (ps.length - 1) * n) ≤ 2 ^ 53)
    (hp : ∀ p ∈ ps, (Dyadic e p.1 ∧ |p.1| ≤ B) ∧ Dyadic e p.2 ∧ |p.2| ≤ B) :
    Rounded.lutOf float ps (2 ^ n + 1) = Bezier.lutOf ps (2 ^ n + 1) := by
  unfold Rounded.lutOf Bezier.lutOf
  simp only
  have c : (((2:ℤ) ^ n + 1 - 1 : ℤ) : ℝ) = 2 ^ n := by push_cast; ring
  have hN : ((2:ℤ) ^ n + 1 - 1 + 1).toNat = 2 ^ n + 1 := by
    have : ((2:ℤ) ^ n + 1 - 1 + 1) = ((2 ^ n + 1 : ℕ) : ℤ) := by push_cast; ring
    rw [this, Int.toNat_natCast]
  rw [c, hN]
  have ne : (2:ℝ) ^ n ≠ 0 := by positivity
  have hne : ps ≠ [] := by rintro rfl; simp at h2
  have key : ∀ i ∈ List.range (2 ^ n + 1), (do Rounded.get float ps (← Rounded.pdiv float (i : ℝ) (2 ^ n)) : Py (Pt ℝ)) = .ok (curve ps ((i : ℝ) / 2 ^ n)) := by
    intro i hi
    have hi' : i ≤ 2 ^ n := by simpa [Nat.lt_succ_iff] using hi
    have D : Dyadic n ((i : ℝ) / 2 ^ n) := ⟨i, by push_cast; rfl⟩
    have i0 : 0 ≤ (i : ℝ) / 2 ^ n := by positivity
    have i1 : (i : ℝ) / 2 ^ n ≤ 1 := by
      rw [div_le_one (by positivity)]; exact_mod_cast hi'
    have r : Rounded.pdiv float (i : ℝ) (2 ^ n) = .ok ((i : ℝ) / 2 ^ n) := by
      unfold Rounded.pdiv Rounding.div
      rw [if_neg ne, rnd_of 1 D (by rwa [abs_of_nonneg i0]) (by rw [one_mul]; exact small hB1 hB (Nat.le_mul_of_pos_left n (by omega)))]
    rw [r, ok_bind, C120_get e n B hB1 ps h2 h4 hB hp _ D i0 i1, get_ok _ hne]
  rw [mapM_ok (g := fun (i : ℕ) => curve ps ((i : ℝ) / 2 ^ n)) (h := key),
    mapM_ok (g := fun (i : ℕ) => curve ps ((i : ℝ) / 2 ^ n)) (h := fun i _ => by rw [pdiv_of_ne _ ne, ok_bind, get_ok _ hne])]

/-- Repeated halving: at each step the curve is split at 1/2 and the right (`true`) or left part kept. -/
noncomputable def Spec.halve (R : Rounding) : List Bool → Rounded.Part → Py Rounded.Part
  | [], c => .ok c
  | b :: w, c => do
    let (left, right) ← Rounded.split1 R c (1 / 2)
    halve R w (if b then right else left)

/-- The parameter where the part reached by `w` starts. -/
noncomputable def Spec.leftEnd : List Bool → ℝ
  | [] => 0
  | b :: w => (if b then 1 / 2 else 0) + leftEnd w / 2

namespace DyadicExact

private theorem mem_of_pyGet {α : Type} {l : List α} {i : Int} {a : α} (h : pyGet l i = .ok a) : a ∈ l := by
  unfold pyGet at h
  simp only at h
  split_ifs at h
  · split at h
    · cases h; exact List.mem_of_getElem? (by assumption)
    · cases h
  · split at h
    · cases h; exact List.mem_of_getElem? (by assumption)
    · cases h

theorem split_mem (R : Rounding) (ps l r : Segment ℝ) (t : ℝ) (h : Rounded.splitPoints R ps t = .ok (l, r)) :
    (∀ p ∈ l, p ∈ Rounded.hull R ps t) ∧ ∀ p ∈ r, p ∈ Rounded.hull R ps t := by
  unfold Rounded.splitPoints at h
  simp only at h
  split_ifs at h
  all_goals
    simp only [bind_eq_ok, pure_eq_ok, Except.ok.injEq, Prod.mk.injEq] at h
  · obtain ⟨a, ha, b, hb, c, hc, d, hd, e, he, f, hf, rfl, rfl⟩ := h
    have := mem_of_pyGet ha
    have := mem_of_pyGet hb
    have := mem_of_pyGet hc
    have := mem_of_pyGet hd
    have := mem_of_pyGet he
    have := mem_of_pyGet hf
    constructor <;> (intro p hp; simp only [List.mem_cons, List.not_mem_nil, or_false] at hp; rcases hp with rfl | rfl | rfl <;> assumption)
  · obtain ⟨a, ha, b, hb, c, hc, d, hd, e, he, f, hf, g, hg, k, hk, rfl, rfl⟩ := h
    have := mem_of_pyGet ha
    have := mem_of_pyGet hb
    have := mem_of_pyGet hc
    have := mem_of_pyGet hd
    have := mem_of_pyGet he
    have := mem_of_pyGet hf
    have := mem_of_pyGet hg
    have := mem_of_pyGet hk
    constructor <;> (intro p hp; simp only [List.mem_cons, List.not_mem_nil, or_false] at hp; rcases hp with rfl | rfl | rfl | rfl <;> assumption)

/-- The parameters of the parts, exact or rounded. -/
theorem map_unit {k : ℕ} (hk : (2:ℝ) ^ (k + 1) ≤ 2 ^ 53) {v a b : ℝ} (hv : Dyadic 1 v) (v0 : 0 ≤ v) (v1 : v ≤ 1) (ha : Dyadic k a) (hb : Dyadic k b)
    (a0 : 0 ≤ a) (ab : a ≤ b) (b1 : b ≤ 1) :
    Rounded.map float v 0 1 a b = .ok (a + (b - a) * v) ∧ Rounded.map Rounding.exact v 0 1 a b = .ok (a + (b - a) * v) ∧
      Dyadic (k + 1) (a + (b - a) * v) ∧ 0 ≤ a + (b - a) * v ∧ a + (b - a) * v ≤ 1 := by
  have hk' : (2:ℝ) ^ k ≤ 2 ^ 53 := (pow_le_pow_right₀ (by norm_num) (Nat.le_succ k)).trans hk
  have D1 := sub hb ha
  have D2 := D1.mul hv
  have D3 := (ha.mono (Nat.le_succ k)).add D2
  have d0 : 0 ≤ b - a := by linarith
  have d1 : b - a ≤ 1 := by linarith
  have p0 : 0 ≤ (b - a) * v := mul_nonneg d0 v0
  have p1 : (b - a) * v ≤ b - a := mul_le_of_le_one_right d0 v1
  have D4 : Dyadic 0 (1:ℝ) := by simpa using nat 1
  have s1 : float.sub 1 0 = 1 := by unfold Rounding.sub; rw [sub_zero]; exact rnd_of 1 D4 (by simp) (by norm_num)
  have s2 : float.sub b a = b - a := rnd_of 1 D1 (by rwa [abs_of_nonneg d0]) (by rwa [one_mul])
  have s3 : float.sub v 0 = v := by unfold Rounding.sub; rw [sub_zero]; exact rnd_of 1 hv (by rwa [abs_of_nonneg v0]) (by norm_num)
  have s4 : float.div v 1 = v := by unfold Rounding.div; rw [div_one]; exact rnd_of 1 hv (by rwa [abs_of_nonneg v0]) (by norm_num)
  have s5 : float.mul (b - a) v = (b - a) * v := rnd_of 1 D2 (by rw [abs_of_nonneg p0]; linarith) (by rwa [one_mul])
  have s6 : float.add a ((b - a) * v) = a + (b - a) * v := rnd_of 1 D3 (by rw [abs_of_nonneg (by linarith)]; linarith) (by rwa [one_mul])
  refine ⟨?_, ?_, D3, by linarith, by linarith⟩
  · unfold Rounded.map Rounded.pdiv
    simp only [s1, s2, s3, if_neg one_ne_zero, s4, ok_bind, s5, s6]
    rfl
  · unfold Rounded.map Rounded.pdiv
    simp [Rounding.exact, Rounding.sub, Rounding.div, Rounding.mul, Rounding.add]

theorem halving {B : ℕ} (w : List Bool) : ∀ (c : Rounded.Part) (e k : ℕ), c.points.length = 3 ∨ c.points.length = 4 →
    2 * (B : ℝ) * 2 ^ (e + (c.points.length - 1) * w.length) ≤ 2 ^ 53 → (2:ℝ) ^ (k + w.length) ≤ 2 ^ 53 →
    (∀ p ∈ c.points, Fits e B p) → Dyadic k c.t1 → Dyadic k c.t2 → 0 ≤ c.t1 → c.t1 ≤ c.t2 → c.t2 ≤ 1 →
    ∃ p, halve float w c = .ok p ∧ halve Rounding.exact w c = .ok p ∧
      p.t1 = c.t1 + (c.t2 - c.t1) * leftEnd w ∧ p.t2 = p.t1 + (c.t2 - c.t1) / 2 ^ w.length ∧ p.points.length = c.points.length ∧
      ∀ s, curve p.points s = curve c.points (leftEnd w + s / 2 ^ w.length) := by
  induction w with
  | nil =>
    intro c e k _ _ _ _ _ _ _ _ _
    refine ⟨c, rfl, rfl, ?_, ?_, rfl, ?_⟩
    · simp [leftEnd]
    · simp
    · intro s; simp [leftEnd]
  | cons b w ih =>
    intro c e k hl hB hk hp d1 d2 a0 ab b1
    have s : e + (c.points.length - 1) * 1 + (c.points.length - 1) * w.length = e + (c.points.length - 1) * (b :: w).length := by
      rw [List.length_cons]; ring
    have hB' : 2 * (B : ℝ) * 2 ^ (e + (c.points.length - 1) * 1) ≤ 2 ^ 53 := by
      refine le_trans (mul_le_mul_of_nonneg_left (pow_le_pow_right₀ (by norm_num) ?_) (by positivity)) hB
      rw [← s]; omega
    have hk' : (2:ℝ) ^ (k + 1) ≤ 2 ^ 53 := by
      refine le_trans (pow_le_pow_right₀ (by norm_num) ?_) hk
      rw [List.length_cons]; omega
    have hh : Dyadic 1 (1 / 2 : ℝ) := ⟨1, by norm_num⟩
    have h0 : Dyadic 1 (0 : ℝ) := ⟨0, by norm_num⟩
    have h1 : Dyadic 1 (1 : ℝ) := ⟨2, by norm_num⟩
    obtain ⟨m1, n1, _, _, _⟩ := map_unit hk' h0 le_rfl zero_le_one d1 d2 a0 ab b1
    obtain ⟨m2, n2, D2, x2, y2⟩ := map_unit hk' hh (by norm_num) (by norm_num) d1 d2 a0 ab b1
    obtain ⟨m3, n3, _, _, _⟩ := map_unit hk' h1 zero_le_one le_rfl d1 d2 a0 ab b1
    let bz : Bezier := ⟨c.points, 0, 1, .up, false, false⟩
    have hq : QuadOrCubic bz := hl
    have hne : c.points ≠ [] := by intro h; rw [h] at hl; simp at hl
    obtain ⟨l, r, es, ll, lr, gl, gr, _⟩ := C32_split bz hq (1 / 2)
    obtain ⟨k1, k2⟩ := C120_split e 1 B c.points hB' hp (1 / 2) hh (by norm_num) (by norm_num)
    have sf := k2 bz l r _ rfl es
    have se := sf
    rw [k1] at se
    obtain ⟨fl, fr⟩ := split_mem _ _ _ _ _ sf
    obtain ⟨q1, q2, _⟩ := C120_hull e 1 B c.points hB' hp (1 / 2) hh (by norm_num) (by norm_num)
    rw [q1] at fl fr
    have lne : l.controlPoints ≠ [] := by intro h; rw [h] at ll; exact hne (List.length_eq_zero_iff.mp ll.symm)
    have rne : r.controlPoints ≠ [] := by intro h; rw [h] at lr; exact hne (List.length_eq_zero_iff.mp lr.symm)
    have cl : ∀ s, curve l.controlPoints s = curve c.points (1 / 2 * s) := fun s => by
      have := gl s; rw [get_ok _ lne, get_ok _ hne] at this; exact Except.ok.inj this
    have cr : ∀ s, curve r.controlPoints s = curve c.points (1 / 2 + s * (1 - 1 / 2)) := fun s => by
      have := gr s; rw [get_ok _ rne, get_ok _ hne] at this; exact Except.ok.inj this
    have ef : ∀ R : Rounding, Rounded.splitPoints R c.points (1 / 2) = .ok (l.controlPoints, r.controlPoints) →
        Rounded.map R 0 0 1 c.t1 c.t2 = .ok (c.t1 + (c.t2 - c.t1) * 0) → Rounded.map R (1 / 2) 0 1 c.t1 c.t2 = .ok (c.t1 + (c.t2 - c.t1) * (1 / 2)) →
        Rounded.map R 1 0 1 c.t1 c.t2 = .ok (c.t1 + (c.t2 - c.t1) * 1) →
        Rounded.split1 R c (1 / 2) = .ok (⟨l.controlPoints, c.t1 + (c.t2 - c.t1) * 0, c.t1 + (c.t2 - c.t1) * (1 / 2)⟩,
          ⟨r.controlPoints, c.t1 + (c.t2 - c.t1) * (1 / 2), c.t1 + (c.t2 - c.t1) * 1⟩) := by
      intro R p1 p2 p3 p4
      unfold Rounded.split1
      simp only [p1, p2, p3, p4, ok_bind]
      rfl
    have ff := ef float sf m1 m2 m3
    have fe := ef Rounding.exact se n1 n2 n3
    have lenEq : ∀ x y : ℕ, x = c.points.length → e + (c.points.length - 1) * 1 + (x - 1) * w.length = e + (c.points.length - 1) * (b :: w).length := by
      rintro x _ rfl; exact s
    have hkw : (2:ℝ) ^ (k + 1 + w.length) ≤ 2 ^ 53 := by
      rw [List.length_cons] at hk; convert hk using 2; omega
    cases b with
    | false =>
      obtain ⟨p, i1, i2, i3, i4, i5, i6⟩ := ih ⟨l.controlPoints, c.t1 + (c.t2 - c.t1) * 0, c.t1 + (c.t2 - c.t1) * (1 / 2)⟩
        (e + (c.points.length - 1) * 1) (k + 1) (by rw [show (Rounded.Part.mk l.controlPoints _ _).points = l.controlPoints from rfl, ll]; exact hl)
        (by rw [lenEq _ 0 ll]; exact hB) hkw (fun p h => q2 p (fl p h)) (by simpa using d1.mono (Nat.le_succ k)) D2 (by simpa using a0) (by simp only; linarith) y2
      refine ⟨p, ?_, ?_, ?_, ?_, i5.trans ll, ?_⟩
      · unfold halve; simp only [ff, ok_bind]; exact i1
      · unfold halve; simp only [fe, ok_bind]; exact i2
      · rw [i3]; simp only [leftEnd]; simp; ring
      · rw [i4]; simp only [List.length_cons, pow_succ]; field_simp; ring
      · intro s
        rw [i6]; simp only [cl, leftEnd, List.length_cons, pow_succ]
        congr 1
        simp
        field_simp
    | true =>
      obtain ⟨p, i1, i2, i3, i4, i5, i6⟩ := ih ⟨r.controlPoints, c.t1 + (c.t2 - c.t1) * (1 / 2), c.t1 + (c.t2 - c.t1) * 1⟩
        (e + (c.points.length - 1) * 1) (k + 1) (by rw [show (Rounded.Part.mk r.controlPoints _ _).points = r.controlPoints from rfl, lr]; exact hl)
        (by rw [lenEq _ 0 lr]; exact hB) hkw (fun p h => q2 p (fr p h)) D2 (by simpa using d2.mono (Nat.le_succ k)) x2 (by simp only; linarith) (by simpa using b1)
      refine ⟨p, ?_, ?_, ?_, ?_, i5.trans lr, ?_⟩
      · unfold halve; simp only [ff, ok_bind]; exact i1
      · unfold halve; simp only [fe, ok_bind]; exact i2
      · rw [i3]; simp only [leftEnd]; simp; ring
      · rw [i4]; simp only [List.length_cons, pow_succ]; field_simp; ring
      · intro s
        rw [i6]; simp only [cr, leftEnd, List.length_cons, pow_succ]
        congr 1
        simp
        field_simp
        ring

end DyadicExact

/-- C120: halving a quadratic or cubic again and again, as `pairiteration` does, is exact for as many steps as the bits allow: the part reached has
the parameters and the points of exact arithmetic. -/
theorem C120_halving (e B : ℕ) (hB1 : 1 ≤ B) (ps : Segment ℝ) (h : ps.length = 3 ∨ ps.length = 4) (w : List Bool)
    (hB : 2 * (B : ℝ) * 2 ^ (e + (ps.length - 1) * w.length) ≤ 2 ^ 53)
    (hp : ∀ p ∈ ps, (Dyadic e p.1 ∧ |p.1| ≤ B) ∧ Dyadic e p.2 ∧ |p.2| ≤ B) :
    ∃ p, halve float w ⟨ps, 0, 1⟩ = .ok p ∧ halve Rounding.exact w ⟨ps, 0, 1⟩ = .ok p ∧
      p.t1 = leftEnd w ∧ p.t2 = leftEnd w + 1 / 2 ^ w.length ∧
      ∀ s, Bezier.get p.points s = Bezier.get ps (p.t1 + s * (p.t2 - p.t1)) := by
  have hne : ps ≠ [] := by rintro rfl; simp at h
  have hw : (2:ℝ) ^ (0 + w.length) ≤ 2 ^ 53 := by
    refine small (B := B) (e := e) (m := ps.length - 1) (n := w.length) hB1 (le_trans ?_ hB) (by rw [Nat.zero_add]; exact Nat.le_mul_of_pos_left _ (by omega))
    have : (0:ℝ) ≤ B * 2 ^ (e + (ps.length - 1) * w.length) := by positivity
    linarith
  obtain ⟨p, i1, i2, i3, i4, i5, i6⟩ := halving (B := B) w ⟨ps, 0, 1⟩ e 0 h hB hw hp ⟨0, by simp⟩ ⟨1, by simp⟩ le_rfl zero_le_one le_rfl
  simp only [sub_zero, one_mul, zero_add] at i3 i4
  refine ⟨p, i1, i2, i3, by rw [i4, i3], fun s => ?_⟩
  have pne : p.points ≠ [] := by intro h'; rw [h'] at i5; exact hne (List.length_eq_zero_iff.mp i5.symm)
  rw [get_ok _ pne, get_ok _ hne, i6, i4, i3]
  congr 2
  ring

/-- C120: for integer coordinates between -32768 and 32768: a cubic can be halved twelve times, a quadratic eighteen times, without any rounding error; likewise
`get` is exact for all multiples of 1/4096 on a cubic, of 1/524288 on a quadratic and of 2^-38 on a line. -/
theorem C120_font (ps : Segment ℝ) (hg : ∀ p ∈ ps, OnGrid p) :
    (∀ w : List Bool, ps.length = 4 ∧ w.length ≤ 12 ∨ ps.length = 3 ∧ w.length ≤ 18 →
      ∃ p, halve float w ⟨ps, 0, 1⟩ = .ok p ∧ p.t1 = leftEnd w ∧ p.t2 = leftEnd w + 1 / 2 ^ w.length ∧
        ∀ s, Bezier.get p.points s = Bezier.get ps (p.t1 + s * (p.t2 - p.t1))) ∧
    (∀ n t, ps.length = 4 ∧ n ≤ 12 ∨ ps.length = 3 ∧ n ≤ 19 ∨ ps.length = 2 ∧ n ≤ 38 → Dyadic n t → 0 ≤ t → t ≤ 1 →
      Rounded.get float ps t = Bezier.get ps t) := by
  have hp : ∀ p ∈ ps, (Dyadic 0 p.1 ∧ |p.1| ≤ (32768 : ℕ)) ∧ Dyadic 0 p.2 ∧ |p.2| ≤ (32768 : ℕ) := fun p h => OnGrid.near (hg p h)
  have pw : ∀ j : ℕ, j ≤ 38 → ((32768 : ℕ) : ℝ) * 2 ^ (0 + j) ≤ 2 ^ 53 := by
    intro j hj
    have : (2:ℝ) ^ (0 + j) ≤ 2 ^ 38 := pow_le_pow_right₀ (by norm_num) (by omega)
    norm_num at this ⊢
    linarith
  have pw' : ∀ j : ℕ, j ≤ 37 → 2 * ((32768 : ℕ) : ℝ) * 2 ^ (0 + j) ≤ 2 ^ 53 := by
    intro j hj
    have : (2:ℝ) ^ (0 + j) ≤ 2 ^ 37 := pow_le_pow_right₀ (by norm_num) (by omega)
    norm_num at this ⊢
    linarith
  constructor
  · intro w h
    obtain ⟨p, i1, _, i3, i4, i5⟩ := C120_halving 0 32768 (by norm_num) ps (by omega) w (pw' _ (by rcases h with ⟨h, h'⟩ | ⟨h, h'⟩ <;> rw [h] <;> omega)) hp
    exact ⟨p, i1, i3, i4, i5⟩
  · intro n t h ht h0 h1
    exact C120_get 0 n 32768 (by norm_num) ps (by omega) (by omega) (pw _ (by rcases h with ⟨h, h'⟩ | ⟨h, h'⟩ | ⟨h, h'⟩ <;> rw [h] <;> omega)) hp t ht h0 h1

private theorem not_float (q : ℚ) (h : roundQ 53 q ≠ q) (y : ℝ) : float.rnd y ≠ (q : ℝ) := by
  intro e
  have h1 : float.rnd (float.rnd y) = float.rnd y := (binary 52).idem y
  rw [e] at h1
  have h2 : roundBits 53 (q : ℝ) = q := h1
  rw [roundQ_cast] at h2
  exact h (by exact_mod_cast h2)

private theorem first_rounded {ps : Segment ℝ} {t : ℝ} {p : Pt ℝ} (h : Rounded.get float ps t = .ok p) (t0 : t ≠ 0) (t1 : t ≠ 1) (h2 : 2 ≤ ps.length)
    (h4 : ps.length ≤ 4) : ∃ y, p.1 = float.rnd y := by
  match ps, h2, h4 with
  | [a, b], _, _ =>
    have o : order [a, b] = 1 := rfl
    simp [Rounded.get, t0, t1, o, pyGet_zero_cons, pyGet_one_cons, ok_bind, pure_eq_ok] at h
    exact ⟨_, congrArg Prod.fst h.symm⟩
  | [a, b, c], _, _ =>
    have o : order [a, b, c] = 2 := rfl
    simp [Rounded.get, t0, t1, o, pyGet_zero_cons, pyGet_one_cons, pyGet_two_cons, pyGet_three_cons, ok_bind, pure_eq_ok] at h
    exact ⟨_, congrArg Prod.fst h.symm⟩
  | [a, b, c, d], _, _ =>
    have o : order [a, b, c, d] = 3 := rfl
    simp [Rounded.get, t0, t1, o, pyGet_zero_cons, pyGet_one_cons, pyGet_two_cons, pyGet_three_cons, ok_bind, pure_eq_ok] at h
    exact ⟨_, congrArg Prod.fst h.symm⟩

/-- C120: the numbers of bits in `C120_font` are the largest: with one more, there are lines, quadratics and cubics on the grid whose point is no floating point number. -/
theorem C120_sharp :
    Rounded.get float [(0, 0), (32767, 0)] (1 - 1 / 2 ^ 39) ≠ Bezier.get [(0, 0), (32767, 0)] (1 - 1 / 2 ^ 39) ∧
    Rounded.get float [(0, 0), (0, 0), (32767, 0)] (1 - 1 / 2 ^ 20) ≠ Bezier.get [(0, 0), (0, 0), (32767, 0)] (1 - 1 / 2 ^ 20) ∧
    Rounded.get float [(0, 0), (0, 0), (0, 0), (32767, 0)] (1 - 1 / 2 ^ 13) ≠ Bezier.get [(0, 0), (0, 0), (0, 0), (32767, 0)] (1 - 1 / 2 ^ 13) := by
  refine ⟨fun h => ?_, fun h => ?_, fun h => ?_⟩
  · rw [get_ok _ (by simp)] at h
    obtain ⟨y, hy⟩ := first_rounded h (by norm_num) (by norm_num) (by simp) (by simp)
    refine not_float ((1 - 1 / 2 ^ 39) * 32767) (by decide +kernel) y ?_
    rw [← hy, curve_two]; push_cast; norm_num
  · rw [get_ok _ (by simp)] at h
    obtain ⟨y, hy⟩ := first_rounded h (by norm_num) (by norm_num) (by simp) (by simp)
    refine not_float ((1 - 1 / 2 ^ 20) ^ 2 * 32767) (by decide +kernel) y ?_
    rw [← hy, curve_three]; push_cast; norm_num
  · rw [get_ok _ (by simp)] at h
    obtain ⟨y, hy⟩ := first_rounded h (by norm_num) (by norm_num) (by simp) (by simp)
    refine not_float ((1 - 1 / 2 ^ 13) ^ 3 * 32767) (by decide +kernel) y ?_
    rw [← hy, curve_four]; push_cast; norm_num

/-- The hypotheses are met: a cubic on the grid, the parameter 1357/4096, and the part reached by going right, left, right. -/
example : Rounded.get float [(0, 0), (100, 700), (-300, 32767), (-32768, 5)] (1357 / 4096) =
    Bezier.get [(0, 0), (100, 700), (-300, 32767), (-32768, 5)] (1357 / 4096) ∧ leftEnd [true, false, true] = 5 / 8 := by
  refine ⟨(C120_font _ ?_).2 12 _ (.inl ⟨rfl, le_rfl⟩) ⟨1357, by norm_num⟩ (by norm_num) (by norm_num), ?_⟩
  · simp only [List.mem_cons, List.not_mem_nil, or_false]
    rintro p (rfl | rfl | rfl | rfl)
    · exact ⟨0, 0, by norm_num, by norm_num, by norm_num⟩
    · exact ⟨100, 700, by norm_num, by norm_num, by norm_num⟩
    · exact ⟨-300, 32767, by norm_num, by norm_num, by norm_num⟩
    · exact ⟨-32768, 5, by norm_num, by norm_num, by norm_num⟩
  · simp [leftEnd]; norm_num

end PathLib
