import Verif.Props.BContourClosest
import Mathlib.Analysis.Calculus.MeanValue
import Mathlib.Analysis.Convex.Hull
import Mathlib.Analysis.Convex.Basic

/-!
# How fast curves move, and how good the closest point search is: C80, C81
-/

set_option linter.unusedSectionVars false
set_option linter.unusedSimpArgs false

namespace PathLib

open Bezier Spec BContour

/-! ## C80 -/

private theorem distance_norm (p q : Pt ℝ) : distance p q = ‖(⟨p.1 - q.1, p.2 - q.2⟩ : ℂ)‖ := by
  rw [Complex.norm_def, Complex.normSq_apply]
  unfold distance
  congr 1; simp only; ring

theorem distance_triangle (p q r : Pt ℝ) : distance p r ≤ distance p q + distance q r := by
  rw [distance_norm, distance_norm, distance_norm]
  refine le_trans (le_of_eq ?_) (norm_add_le _ _)
  congr 1
  apply Complex.ext <;> simp

private theorem distance_comm (p q : Pt ℝ) : distance p q = distance q p := by
  unfold distance; congr 1; ring

private theorem cauchy (u v : Pt ℝ) : u.1 * v.1 + u.2 * v.2 ≤ distance u (0, 0) * distance v (0, 0) := by
  unfold distance
  rw [← Real.sqrt_mul (by positivity)]
  apply Real.le_sqrt_of_sq_le
  simp only [sub_zero]
  nlinarith [sq_nonneg (u.1 * v.2 - u.2 * v.1)]

private theorem distance_scale {c : ℝ} (hc : 0 ≤ c) (a b : Pt ℝ) :
    distance (c * (b.1 - a.1), c * (b.2 - a.2)) (0, 0) = c * distance a b := by
  unfold distance
  have h : ((c * (b.1 - a.1) - 0) ^ 2 + (c * (b.2 - a.2) - 0) ^ 2) = c ^ 2 * ((a.1 - b.1) ^ 2 + (a.2 - b.2) ^ 2) := by ring
  simp only
  rw [h, Real.sqrt_mul (by positivity), Real.sqrt_sq hc]

/-- The speed of a Bézier curve is at most its order times the longest distance of consecutive control points. -/
def Spec.SpeedAtMost (ps : Segment ℝ) (L : ℝ) : Prop :=
  ∀ i (h : i + 1 < ps.length), ((ps.length : ℝ) - 1) * distance ps[i] ps[i + 1] ≤ L

private theorem step_le {ps : Segment ℝ} {L : ℝ} (h : SpeedAtMost ps L) (v : Pt ℝ) (hv : v ∈ dcStep ps) :
    distance v (0, 0) ≤ L := by
  obtain ⟨i, hi, rfl⟩ := List.getElem_of_mem hv
  have hi' : i + 1 < ps.length := by rw [dcStep_length] at hi; omega
  refine le_trans (le_of_eq ?_) (h i hi')
  have hc : ((ps.length - 1 : Nat) : ℝ) = (ps.length : ℝ) - 1 := by rw [Nat.cast_sub (by omega)]; simp
  have h0 : (0 : ℝ) ≤ (ps.length : ℝ) - 1 := by rw [← hc]; positivity
  have e : (dcStep ps)[i] = (((ps.length : ℝ) - 1) * (ps[i + 1].1 - ps[i].1), ((ps.length : ℝ) - 1) * (ps[i + 1].2 - ps[i].2)) := by
    rw [← hc]; simp [dcStep]
  rw [e]
  exact distance_scale h0 _ _

private theorem lip_aux {ps : Segment ℝ} {L : ℝ} (h2 : 2 ≤ ps.length) (h : SpeedAtMost ps L) {s t : ℝ} (h0 : 0 ≤ s)
    (hst : s < t) (h1 : t ≤ 1) : distance (curve ps t) (curve ps s) ≤ L * (t - s) := by
  set u : Pt ℝ := ((curve ps t).1 - (curve ps s).1, (curve ps t).2 - (curve ps s).2) with hu
  have hd : ∀ x, HasDerivAt (fun x => u.1 * (curve ps x).1 + u.2 * (curve ps x).2)
      (u.1 * (curve (dcStep ps) x).1 + u.2 * (curve (dcStep ps) x).2) x := fun x =>
    ((hasDerivAt_curve_step ps h2 x).1.const_mul _).add ((hasDerivAt_curve_step ps h2 x).2.const_mul _)
  obtain ⟨x, hx, hs⟩ := exists_hasDerivAt_eq_slope _ _ hst
    (fun x _ => (hd x).continuousAt.continuousWithinAt) (fun x _ => hd x)
  have hne : dcStep ps ≠ [] := by intro e; have := dcStep_length ps; rw [e] at this; simp at this; omega
  obtain ⟨q, hq, hm⟩ := C35_convex_hull (dcStep ps) hne x (by linarith [hx.1]) (by linarith [hx.2])
  rw [get_ok _ hne] at hq
  cases hq
  have hcv : Convex ℝ {q : ℝ × ℝ | u.1 * q.1 + u.2 * q.2 ≤ distance u (0, 0) * L} := by
    intro a ha b hb x y hx hy hxy
    simp only [Set.mem_ofPred_eq, Prod.fst_add, Prod.smul_fst, Prod.snd_add, Prod.smul_snd, smul_eq_mul] at *
    have := mul_le_mul_of_nonneg_left ha hx
    have := mul_le_mul_of_nonneg_left hb hy
    have e : distance u (0, 0) * L = x * (distance u (0, 0) * L) + y * (distance u (0, 0) * L) := by
      rw [← add_mul, hxy, one_mul]
    linarith
  have hsub := convexHull_min (t := {q : ℝ × ℝ | u.1 * q.1 + u.2 * q.2 ≤ distance u (0, 0) * L}) (s := {q : ℝ × ℝ | q ∈ dcStep ps})
    (fun v hv => (cauchy u v).trans (mul_le_mul_of_nonneg_left (step_le h v hv) (by unfold distance; positivity))) hcv hm
  simp only [Set.mem_ofPred_eq] at hsub
  rw [hs, div_le_iff₀ (by linarith)] at hsub
  have hn : distance (curve ps t) (curve ps s) = distance u (0, 0) := by unfold distance; simp [hu]
  have hsq : distance u (0, 0) ^ 2 = u.1 ^ 2 + u.2 ^ 2 := by
    unfold distance; rw [Real.sq_sqrt (by positivity)]; simp
  have hpos : 0 ≤ distance u (0, 0) := by unfold distance; positivity
  rw [hn]
  have e : u.1 * (curve ps t).1 + u.2 * (curve ps t).2 - (u.1 * (curve ps s).1 + u.2 * (curve ps s).2) = u.1 ^ 2 + u.2 ^ 2 := by
    simp only [hu]; ring
  rw [e, ← hsq] at hsub
  rcases hpos.eq_or_lt with e0 | hp
  · rw [← e0]
    have hL : 0 ≤ L := (by
      have : 0 < (dcStep ps).length := List.length_pos_iff.mpr hne
      exact le_trans (by unfold distance; positivity) (step_le h _ (List.getElem_mem this)))
    exact mul_nonneg hL (by linarith)
  · have : distance u (0, 0) * distance u (0, 0) ≤ distance u (0, 0) * (L * (t - s)) := by nlinarith
    exact le_of_mul_le_mul_left this hp

theorem curve_lipschitz {ps : Segment ℝ} {L : ℝ} (h2 : 2 ≤ ps.length) (h : SpeedAtMost ps L) {s t : ℝ} (hs0 : 0 ≤ s) (hs1 : s ≤ 1)
    (ht0 : 0 ≤ t) (ht1 : t ≤ 1) : distance (curve ps s) (curve ps t) ≤ L * |s - t| := by
  rcases lt_trichotomy s t with hlt | rfl | hlt
  · rw [distance_comm, abs_of_neg (by linarith), neg_sub]
    exact lip_aux h2 h hs0 hlt ht1
  · simp [distance]
  · rw [abs_of_pos (by linarith)]
    exact lip_aux h2 h ht0 hlt hs1

/-- C80: between two parameters in `[0, 1]` a curve moves at most as far as its fastest speed allows. -/
theorem C80_speed (ps : Segment ℝ) (L : ℝ) (h2 : 2 ≤ ps.length) (h : SpeedAtMost ps L) (s t : ℝ) (hs0 : 0 ≤ s) (hs1 : s ≤ 1)
    (ht0 : 0 ≤ t) (ht1 : t ≤ 1) :
    ∃ p q, Bezier.get ps s = .ok p ∧ Bezier.get ps t = .ok q ∧ distance p q ≤ L * |s - t| := by
  have hne : ps ≠ [] := by intro e; rw [e] at h2; simp at h2
  exact ⟨_, _, get_ok ps hne s, get_ok ps hne t, curve_lipschitz h2 h hs0 hs1 ht0 ht1⟩

/-- The parabola over `[0, 2]` has speed at most 3. -/
theorem parabola_speed : SpeedAtMost [((0:ℝ), 0), (1, 1), (2, 0)] 3 := by
  intro i h
  have hs : Real.sqrt 2 ≤ 3 / 2 := by rw [Real.sqrt_le_iff]; norm_num
  have h' : i < 2 := by simp at h; omega
  interval_cases i
  · norm_num [distance]; linarith
  · norm_num [distance]; linarith

example : ∃ p q, Bezier.get [((0:ℝ), 0), (1, 1), (2, 0)] (1 / 2) = .ok p ∧ Bezier.get [((0:ℝ), 0), (1, 1), (2, 0)] (3 / 4) = .ok q ∧
    distance p q ≤ 3 / 4 := by
  obtain ⟨p, q, h1, h2, h3⟩ := C80_speed _ 3 (by simp) parabola_speed (1 / 2) (3 / 4) (by norm_num) (by norm_num) (by norm_num)
    (by norm_num)
  refine ⟨p, q, h1, h2, h3.trans (le_of_eq ?_)⟩
  rw [abs_of_neg (by norm_num)]
  norm_num

/-- A line attains the bound. -/
example : SpeedAtMost [((0:ℝ), 0), (3, 4)] 5 ∧ distance (curve [((0:ℝ), 0), (3, 4)] 0) (curve [((0:ℝ), 0), (3, 4)] 1) = 5 * |(0:ℝ) - 1| := by
  have h5 : Real.sqrt 25 = 5 := by rw [show (25:ℝ) = 5 ^ 2 by norm_num]; exact Real.sqrt_sq (by norm_num)
  constructor
  · intro i h
    have h' : i < 1 := by simpa using h
    interval_cases i
    norm_num [distance, h5]
  · rw [curve_two, curve_two]
    norm_num [distance, h5]

/-! ## C81 -/

/-- One of the three points which the first round of the refinement looks at is near the sample it starts from. -/
private theorem refine_near {p : Pt ℝ} {ps : Segment ℝ} (hps : ps ≠ [])
    (hnear : ∀ t, 0 ≤ t → t ≤ 1 → distance (curve ps t) p < maxSafe) (lut : List (Pt ℝ)) (hn : 2 ≤ lut.length)
    (h201 : lut.length ≤ 201) (i : Int) (J : Nat) (hi : 0 ≤ i ∧ i < lut.length)
    (hJ : i = J ∨ (i + 1 = J ∧ J < lut.length)) :
    ∃ q d, refineBinary p ps lut i = .ok (q, d) ∧ ∃ x, 0 ≤ x ∧ x ≤ 1 ∧ d ≤ distance (curve ps x) p ∧
      |x - (J : ℝ) / ((lut.length : ℝ) - 1)| ≤ 4 / 5 / ((lut.length : ℝ) - 1) := by
  obtain ⟨q, d, e, h⟩ := refineBinary_ok hps hnear lut hn i hi
  refine ⟨q, d, e, ?_⟩
  have h' := (h h201).2
  have hR : (0 : ℝ) < (lut.length : ℝ) - 1 := by
    have : (2 : ℝ) ≤ lut.length := by exact_mod_cast hn
    linarith
  have key : ∀ a : ℝ, 0 ≤ a → a ≤ (lut.length : ℝ) - 1 → d ≤ distance (curve ps (a / ((lut.length : ℝ) - 1))) p →
      |a - J| ≤ 4 / 5 → ∃ x, 0 ≤ x ∧ x ≤ 1 ∧ d ≤ distance (curve ps x) p ∧
      |x - (J : ℝ) / ((lut.length : ℝ) - 1)| ≤ 4 / 5 / ((lut.length : ℝ) - 1) := by
    intro a h0 h1 hd ha
    refine ⟨_, by positivity, (div_le_one hR).mpr h1, hd, ?_⟩
    rw [← sub_div, abs_div, abs_of_pos hR]
    exact div_le_div_of_nonneg_right ha hR.le
  obtain ⟨k, rfl⟩ : ∃ k : Nat, i = k := ⟨i.toNat, by omega⟩
  have hk : (k : ℝ) + 1 ≤ lut.length := by exact_mod_cast (by omega : k + 1 ≤ lut.length)
  have hk0 : (0 : ℝ) ≤ k := by positivity
  by_cases h0 : k = 0
  · subst h0
    rcases hJ with hJ | ⟨hJ, _⟩
    · have := h' 1 (by omega) (by omega) 0 1 (by simp) (by rw [if_neg (by push_cast; omega)]; norm_num)
      refine key _ ?_ ?_ this ?_
      · norm_num
      · norm_num; linarith [show (2 : ℝ) ≤ lut.length by exact_mod_cast hn]
      · rw [show J = 0 by omega]; norm_num
    · have := h' 3 (by omega) (by omega) 0 1 (by simp) (by rw [if_neg (by push_cast; omega)]; norm_num)
      refine key _ ?_ ?_ this ?_
      · norm_num
      · norm_num; linarith [show (2 : ℝ) ≤ lut.length by exact_mod_cast hn]
      · rw [show J = 1 by omega]; norm_num
  · have hk1 : (1 : ℝ) ≤ k := by exact_mod_cast (by omega : 1 ≤ k)
    have hc : ((k - 1 : Nat) : ℝ) = k - 1 := by rw [Nat.cast_sub (by omega)]; simp
    have e1 : ((k - 1 : Nat) : Int) = (if (k : Int) = 0 then 0 else (k : Int) - 1) := by rw [if_neg (by omega)]; omega
    by_cases hl : (k : Int) = lut.length - 1
    · have e2 : (k : Int) = (if (k : Int) = lut.length - 1 then (k : Int) else (k : Int) + 1) := by rw [if_pos hl]
      have := h' 3 (by omega) (by omega) (k - 1) k e1 e2
      rw [hc] at this
      refine key _ ?_ ?_ this ?_
      · push_cast; linarith
      · push_cast; linarith
      · rw [show J = k by omega, abs_le]; push_cast; constructor <;> linarith
    · have e2 : ((k + 1 : Nat) : Int) = (if (k : Int) = lut.length - 1 then (k : Int) else (k : Int) + 1) := by
        rw [if_neg hl]; push_cast; rfl
      have hk2 : (k : ℝ) + 2 ≤ lut.length := by exact_mod_cast (by omega : k + 2 ≤ lut.length)
      rcases hJ with hJ | ⟨hJ, _⟩
      · have := h' 2 (by omega) (by omega) (k - 1) (k + 1) e1 e2
        rw [hc] at this
        refine key _ ?_ ?_ this ?_
        · push_cast; linarith
        · push_cast; linarith
        · rw [show J = k by omega, abs_le]; push_cast; constructor <;> linarith
      · have := h' 3 (by omega) (by omega) (k - 1) (k + 1) e1 e2
        rw [hc] at this
        refine key _ ?_ ?_ this ?_
        · push_cast; linarith
        · push_cast; linarith
        · rw [show J = k + 1 by omega, abs_le]; push_cast; constructor <;> linarith

private theorem near_core (c : Contour ℝ) (bc : BContour) (h : BContour.new c = .ok bc) (p : Pt ℝ)
    (hnear : ∀ s ∈ c, ∀ t, 0 ≤ t → t ≤ 1 → ∀ q, Bezier.get s t = .ok q → distance q p < 9007199254740991)
    (n : Nat) (hn : 2 ≤ n) (h201 : n ≤ 201) (L : ℝ) (hL : ∀ s ∈ c, SpeedAtMost s L) :
    ∃ tbl d q, IsLut c n tbl ∧ (findClosestPoint p n bc).1 = .ok (d, q) ∧
      ∀ q' ∈ tbl, d ≤ distance q' p + 4 / 5 * (L / ((n : ℝ) - 1)) := by
  obtain ⟨hc, h2⟩ := (C52_new c).mp ⟨bc, h⟩
  have hpts : bc.beziers.map (·.controlPoints) = c := (C52_history c bc h []).1
  have hne : ∀ s ∈ c, s ≠ [] := by intro s hs e; have := h2 s hs; rw [e] at this; simp at this
  have hnear' : ∀ s ∈ c, ∀ t, 0 ≤ t → t ≤ 1 → distance (curve s t) p < maxSafe :=
    fun s hs t h0 h1 => hnear s hs t h0 h1 _ (get_ok s (hne s hs) t)
  have hmem : ∀ b ∈ bc.beziers, b.controlPoints ∈ c := fun b hb => by rw [← hpts]; exact List.mem_map_of_mem hb
  obtain ⟨tbl, e, hl⟩ := new_lut c bc h n hn
  obtain ⟨k, hk, ek, hmin, _⟩ := C55_findClosest p tbl (sample_near hc h2 hl hnear')
  have hlen : bc.beziers.length = c.length := by rw [← hpts]; simp
  have hk' := hk
  rw [hl.1, ← hlen] at hk'
  have hbne : bc.beziers ≠ [] := by intro e; rw [e] at hpts; exact hc hpts.symm
  obtain ⟨b, b2, i, hp, hi0, hi1, m, hm, hb, hidx⟩ := pick_ok bc.beziers hbne n hn k hk'
  obtain ⟨m1, m2⟩ := pick_mem hp
  have hR : (0 : ℝ) < (n : ℝ) - 1 := by
    have : (2 : ℝ) ≤ n := by exact_mod_cast hn
    linarith
  have hRc : ((n - 1 : Nat) : ℝ) = (n : ℝ) - 1 := by rw [Nat.cast_sub (by omega)]; simp
  -- the sample
  have hcm : c[m]'(by omega) = b.controlPoints := by
    rw [hb]
    have : c[m]? = some (bc.beziers[m]).controlPoints := by rw [← hpts]; simp [List.getElem?_eq_getElem hm]
    rw [List.getElem?_eq_getElem (by omega)] at this
    exact Option.some.inj this
  obtain ⟨J, hJ, hJn, hq⟩ : ∃ J : Nat, (i = J ∨ (i + 1 = J ∧ J < n)) ∧ J ≤ n - 1 ∧
      tbl[k] = curve b.controlPoints ((J : ℝ) / ((n : ℝ) - 1)) := by
    rcases hidx with ⟨rfl, rfl⟩ | ⟨h1, h3, h4⟩
    · obtain ⟨q, hq, e⟩ := hl.2 0 (by omega) k (by omega) (.inl rfl)
      refine ⟨k, .inl rfl, by omega, ?_⟩
      rw [get_ok _ (hne _ (List.getElem_mem _)), hcm, hRc] at hq
      cases hq
      rw [Nat.zero_mul, Nat.zero_add, List.getElem?_eq_getElem hk] at e
      exact Option.some.inj e
    · obtain ⟨j, rfl⟩ : ∃ j : Nat, i = j := ⟨i.toNat, by omega⟩
      obtain ⟨q, hq, e⟩ := hl.2 m (by omega) (j + 1) (by omega) (.inr (by omega))
      refine ⟨j + 1, .inr ⟨by push_cast; rfl, by omega⟩, by omega, ?_⟩
      rw [get_ok _ (hne _ (List.getElem_mem _)), hcm, hRc] at hq
      cases hq
      have hkk : m * (n - 1) + (j + 1) = k := by
        have : (k : Int) = ((m * (n - 1) + (j + 1) : Nat) : Int) := by push_cast; linarith
        omega
      simp only [hkk] at e
      rw [List.getElem?_eq_getElem hk] at e
      exact Option.some.inj e
  have fin : ∀ d : ℝ, (∃ x, 0 ≤ x ∧ x ≤ 1 ∧ d ≤ distance (curve b.controlPoints x) p ∧
      |x - (J : ℝ) / ((n : ℝ) - 1)| ≤ 4 / 5 / ((n : ℝ) - 1)) →
      ∀ d' ≤ d, ∀ q' ∈ tbl, d' ≤ distance q' p + 4 / 5 * (L / ((n : ℝ) - 1)) := by
    rintro d ⟨x, hx0, hx1, hd, hx⟩ d' hd' q' hq'
    obtain ⟨k', hk'', rfl⟩ := List.getElem_of_mem hq'
    have a := hmin k' hk''
    have hJR : (J : ℝ) ≤ (n : ℝ) - 1 := by rw [← hRc]; exact_mod_cast hJn
    have b' := curve_lipschitz (h2 _ (hmem b m1)) (hL _ (hmem b m1)) hx0 hx1 (t := (J : ℝ) / ((n : ℝ) - 1)) (by positivity)
      ((div_le_one hR).mpr hJR)
    have c' := distance_triangle (curve b.controlPoints x) (curve b.controlPoints ((J : ℝ) / ((n : ℝ) - 1))) p
    rw [hq] at a
    have hL0 : 0 ≤ L := by
      have hl2 := h2 _ (hmem b m1)
      refine le_trans ?_ (hL _ (hmem b m1) 0 (by omega))
      have : (2 : ℝ) ≤ (b.controlPoints.length : ℝ) := by exact_mod_cast hl2
      exact mul_nonneg (by linarith) (by unfold distance; positivity)
    have d2 := mul_le_mul_of_nonneg_left hx hL0
    have e2 : L * (4 / 5 / ((n : ℝ) - 1)) = 4 / 5 * (L / ((n : ℝ) - 1)) := by ring
    linarith
  obtain ⟨l, el, hll, _⟩ := C40_samples b.controlPoints (hne _ (hmem b m1)) n hn
  obtain ⟨q, d, er, hx⟩ := refine_near (hne _ (hmem b m1)) (hnear' _ (hmem b m1)) l (by omega) (by omega) i J
    ⟨hi0, by omega⟩ (by rw [hll]; exact hJ)
  rw [hll] at hx
  have hres : ∃ d' q', (findClosestPoint p n bc).1 = .ok (d', q') ∧ d' ≤ d := by
    unfold findClosestPoint
    rw [e]
    simp only
    rw [ek, hp, ok_bind]
    simp only
    unfold closestOn
    rw [el, ok_bind, er, ok_bind]
    cases b2 with
    | none => exact ⟨d, q, rfl, le_rfl⟩
    | some b2 =>
      have hm2 := hmem b2 (m2 b2 rfl)
      obtain ⟨l', el', hll', _⟩ := C40_samples b2.controlPoints (hne _ hm2) n hn
      obtain ⟨q', d', er', _⟩ := refineBinary_ok (hne _ hm2) (hnear' _ hm2) l' (by omega) 0 ⟨le_rfl, by omega⟩
      simp only
      rw [el', ok_bind, er', ok_bind]
      simp only
      split_ifs with hlt
      · exact ⟨d', q', rfl, hlt.le⟩
      · exact ⟨d, q, rfl, le_rfl⟩
  obtain ⟨d', q', hr, hd'⟩ := hres
  exact ⟨tbl, d', q', hl, hr, fin d hx d' hd'⟩

theorem near_sample_of (s : Segment ℝ) (L : ℝ) (h2 : 2 ≤ s.length) (hL : SpeedAtMost s L) (p : Pt ℝ) (n : Nat) (hn : 2 ≤ n)
    (t : ℝ) (h0 : 0 ≤ t) (h1 : t ≤ 1) (J : Nat) (hJ : J ≤ n - 1) (κ : ℝ) (hκ : |t * ((n : ℝ) - 1) - J| ≤ κ) :
    distance (curve s ((J : ℝ) / ((n : ℝ) - 1))) p ≤ distance (curve s t) p + κ * (L / ((n : ℝ) - 1)) := by
  have hR : (0 : ℝ) < (n : ℝ) - 1 := by
    have : (2 : ℝ) ≤ n := by exact_mod_cast hn
    linarith
  have hRc : ((n - 1 : Nat) : ℝ) = (n : ℝ) - 1 := by rw [Nat.cast_sub (by omega)]; simp
  have hJR : (J : ℝ) ≤ (n : ℝ) - 1 := by rw [← hRc]; exact_mod_cast hJ
  have a := curve_lipschitz h2 hL (s := (J : ℝ) / ((n : ℝ) - 1)) (t := t) (by positivity) ((div_le_one hR).mpr hJR) h0 h1
  have b := distance_triangle (curve s ((J : ℝ) / ((n : ℝ) - 1))) (curve s t) p
  have hL0 : 0 ≤ L := by
    refine le_trans ?_ (hL 0 (by omega))
    have : (2 : ℝ) ≤ (s.length : ℝ) := by exact_mod_cast h2
    exact mul_nonneg (by linarith) (by unfold distance; positivity)
  have e : |(J : ℝ) / ((n : ℝ) - 1) - t| ≤ κ / ((n : ℝ) - 1) := by
    rw [abs_sub_comm, show t - (J : ℝ) / ((n : ℝ) - 1) = (t * ((n : ℝ) - 1) - J) / ((n : ℝ) - 1) by field_simp, abs_div,
      abs_of_pos hR]
    exact div_le_div_of_nonneg_right hκ hR.le
  have d := mul_le_mul_of_nonneg_left e hL0
  have e2 : L * (κ / ((n : ℝ) - 1)) = κ * (L / ((n : ℝ) - 1)) := by ring
  linarith

/-- C81: on every new contour the distance found exceeds the distance of every point of every curve by at most 9/5 of the
longest way a curve can move between two samples. -/
theorem C81_any_contour (c : Contour ℝ) (bc : BContour) (h : BContour.new c = .ok bc) (p : Pt ℝ)
    (hnear : ∀ s ∈ c, ∀ t, 0 ≤ t → t ≤ 1 → ∀ q, Bezier.get s t = .ok q → distance q p < 9007199254740991)
    (n : Nat) (hn : 2 ≤ n) (h201 : n ≤ 201) (L : ℝ) (hL : ∀ s ∈ c, SpeedAtMost s L) :
    ∃ d q, (findClosestPoint p n bc).1 = .ok (d, q) ∧
      ∀ s ∈ c, ∀ t, 0 ≤ t → t ≤ 1 → ∀ q', Bezier.get s t = .ok q' → d ≤ distance q' p + 9 / 5 * (L / ((n : ℝ) - 1)) := by
  obtain ⟨hc, h2⟩ := (C52_new c).mp ⟨bc, h⟩
  have hne : ∀ s ∈ c, s ≠ [] := by intro s hs e; have := h2 s hs; rw [e] at this; simp at this
  obtain ⟨tbl, d, q, hl, e, hd⟩ := near_core c bc h p hnear n hn h201 L hL
  refine ⟨d, q, e, ?_⟩
  intro s hs t h0 h1 q' hq'
  rw [get_ok _ (hne s hs)] at hq'
  cases hq'
  obtain ⟨m, hm, rfl⟩ := List.getElem_of_mem hs
  have hRc : ((n - 1 : Nat) : ℝ) = (n : ℝ) - 1 := by rw [Nat.cast_sub (by omega)]; simp
  have hR : (1 : ℝ) ≤ (n : ℝ) - 1 := by
    have : (2 : ℝ) ≤ n := by exact_mod_cast hn
    linarith
  obtain ⟨J, hJ1, hJn, hJ⟩ : ∃ J : Nat, 1 ≤ J ∧ J ≤ n - 1 ∧ |t * ((n : ℝ) - 1) - J| ≤ 1 := by
    by_cases ht : t * ((n : ℝ) - 1) ≤ 1
    · refine ⟨1, le_rfl, by omega, ?_⟩
      have : 0 ≤ t * ((n : ℝ) - 1) := by positivity
      rw [abs_le]; push_cast; constructor <;> linarith
    · have hp : 0 ≤ t * ((n : ℝ) - 1) := by positivity
      have a := Nat.floor_le hp
      have b := Nat.lt_floor_add_one (t * ((n : ℝ) - 1))
      refine ⟨⌊t * ((n : ℝ) - 1)⌋₊, Nat.le_floor (by push_cast; linarith), ?_, ?_⟩
      · apply Nat.floor_le_of_le
        rw [hRc]
        nlinarith
      · rw [abs_le]; constructor <;> linarith
  obtain ⟨q'', hq'', eq⟩ := hl.2 m hm J hJn (.inr hJ1)
  rw [get_ok _ (hne _ hs), hRc] at hq''
  cases hq''
  have a := hd _ (List.mem_of_getElem? eq)
  have b := near_sample_of c[m] L (h2 _ hs) (hL _ hs) p n hn t h0 h1 J hJn 1 hJ
  have e3 : 9 / 5 * (L / ((n : ℝ) - 1)) = 4 / 5 * (L / ((n : ℝ) - 1)) + 1 * (L / ((n : ℝ) - 1)) := by ring
  linarith

/-- C81: on a connected contour it exceeds it by at most 13/10 of that. -/
theorem C81_connected (c : Contour ℝ) (bc : BContour) (h : BContour.new c = .ok bc) (hcon : Connected c) (p : Pt ℝ)
    (hnear : ∀ s ∈ c, ∀ t, 0 ≤ t → t ≤ 1 → ∀ q, Bezier.get s t = .ok q → distance q p < 9007199254740991)
    (n : Nat) (hn : 2 ≤ n) (h201 : n ≤ 201) (L : ℝ) (hL : ∀ s ∈ c, SpeedAtMost s L) :
    ∃ d q, (findClosestPoint p n bc).1 = .ok (d, q) ∧
      ∀ s ∈ c, ∀ t, 0 ≤ t → t ≤ 1 → ∀ q', Bezier.get s t = .ok q' → d ≤ distance q' p + 13 / 10 * (L / ((n : ℝ) - 1)) := by
  obtain ⟨hc, h2⟩ := (C52_new c).mp ⟨bc, h⟩
  have hne : ∀ s ∈ c, s ≠ [] := by intro s hs e; have := h2 s hs; rw [e] at this; simp at this
  obtain ⟨tbl, d, q, hl, e, hd⟩ := near_core c bc h p hnear n hn h201 L hL
  refine ⟨d, q, e, ?_⟩
  intro s hs t h0 h1 q' hq'
  rw [get_ok _ (hne s hs)] at hq'
  cases hq'
  obtain ⟨m, hm, rfl⟩ := List.getElem_of_mem hs
  have hRc : ((n - 1 : Nat) : ℝ) = (n : ℝ) - 1 := by rw [Nat.cast_sub (by omega)]; simp
  have hR : (1 : ℝ) ≤ (n : ℝ) - 1 := by
    have : (2 : ℝ) ≤ n := by exact_mod_cast hn
    linarith
  obtain ⟨J, hJn, hJ⟩ : ∃ J : Nat, J ≤ n - 1 ∧ |t * ((n : ℝ) - 1) - J| ≤ 1 / 2 := by
    have hp : 0 ≤ t * ((n : ℝ) - 1) + 1 / 2 := by positivity
    have a := Nat.floor_le hp
    have b := Nat.lt_floor_add_one (t * ((n : ℝ) - 1) + 1 / 2)
    refine ⟨⌊t * ((n : ℝ) - 1) + 1 / 2⌋₊, ?_, ?_⟩
    · have : ⌊t * ((n : ℝ) - 1) + 1 / 2⌋₊ < n := by
        rw [Nat.floor_lt hp]
        nlinarith
      omega
    · rw [abs_le]; constructor <;> linarith
  have hmemtbl : curve c[m] ((J : ℝ) / ((n : ℝ) - 1)) ∈ tbl := by
    by_cases hcase : m = 0 ∨ 1 ≤ J
    · obtain ⟨q'', hq'', eq⟩ := hl.2 m hm J hJn hcase
      rw [get_ok _ (hne _ hs), hRc] at hq''
      cases hq''
      exact List.mem_of_getElem? eq
    · push Not at hcase
      obtain ⟨m', rfl⟩ : ∃ m', m = m' + 1 := ⟨m - 1, by omega⟩
      have hJ0 : J = 0 := by omega
      subst hJ0
      obtain ⟨x, hx1, hx2⟩ := List.isChain_iff_getElem.mp hcon.2 m' (by omega)
      obtain ⟨q'', hq'', eq⟩ := hl.2 m' (by omega) (n - 1) le_rfl (.inr (by omega))
      rw [get_ok _ (hne _ (List.getElem_mem _)), div_self (by rw [hRc]; linarith)] at hq''
      cases hq''
      have em := List.mem_of_getElem? eq
      have n1 := hne _ (List.getElem_mem (show m' < c.length by omega))
      rw [curve_at_one _ n1] at em
      rw [List.getLast?_eq_some_getLast n1] at hx1
      rw [List.head?_eq_some_head (hne _ hs)] at hx2
      rw [Nat.cast_zero, zero_div, curve_zero _ (hne _ hs), Option.some.inj hx2, ← Option.some.inj hx1]
      exact em
  have a := hd _ hmemtbl
  have b := near_sample_of c[m] L (h2 _ hs) (hL _ hs) p n hn t h0 h1 J hJn (1 / 2) hJ
  have e3 : 13 / 10 * (L / ((n : ℝ) - 1)) = 4 / 5 * (L / ((n : ℝ) - 1)) + 1 / 2 * (L / ((n : ℝ) - 1)) := by ring
  linarith

private theorem distance_axis (a b : ℝ) : distance (a, 0) (b, 0) = |a - b| := by
  unfold distance
  simp only [sub_self]
  rw [zero_pow (by norm_num), add_zero, Real.sqrt_sq_eq_abs]

/-- C81: on the second and later curves the search starts one sample early and does not look beyond the nearest sample. A line
searched on its own from one of its points gives at most 1/10 where the same line after another one gives more than 1/5. -/
theorem C81_later_curves_counterexample :
    Bezier.get [((1:ℝ), 0), (2, 0)] (7 / 10) = .ok (17 / 10, 0) ∧
    (∃ bc d q, BContour.new [[((1:ℝ), 0), (2, 0)]] = .ok bc ∧ (findClosestPoint (17 / 10, 0) 3 bc).1 = .ok (d, q) ∧ d ≤ 1 / 10) ∧
    ∃ bc d q, BContour.new [[((0:ℝ), 0), (1, 0)], [(1, 0), (2, 0)]] = .ok bc ∧
      (findClosestPoint (17 / 10, 0) 3 bc).1 = .ok (d, q) ∧ 1 / 5 < d := by
  have hval : ∀ a t : ℝ, curve [((a:ℝ), 0), (a + 1, 0)] t = (a + t, 0) := by
    intro a t; rw [curve_two]; ext <;> simp; ring
  have h01 : ((1:ℝ)) = 0 + 1 := by norm_num
  have h12 : ((2:ℝ)) = 1 + 1 := by norm_num
  have hnear : ∀ t, 0 ≤ t → t ≤ 1 → distance (curve [((1:ℝ), 0), (2, 0)] t) (17 / 10, 0) < maxSafe := by
    intro t h0 h1
    rw [h12, hval, distance_axis, abs_lt]
    unfold maxSafe
    constructor <;> linarith
  refine ⟨by rw [get_ok _ (by simp), h12, hval]; norm_num, ?_, ?_⟩
  · obtain ⟨bc, hbc⟩ := (C52_new [[((1:ℝ), 0), (2, 0)]]).mpr ⟨by simp, by simp⟩
    have hpts : bc.beziers.map (·.controlPoints) = [[((1:ℝ), 0), (2, 0)]] := (C52_history _ bc hbc []).1
    obtain ⟨tbl, e, hl⟩ := new_lut _ bc hbc 3 (by omega)
    have hlen : tbl.length = 3 := hl.1
    have ent : ∀ j : Nat, ∀ hj : j < 3, tbl[j]'(by omega) = (1 + (j : ℝ) / 2, 0) := by
      intro j hj
      obtain ⟨p, h1, h2⟩ := hl.2 0 (by simp) j (by omega) (.inl rfl)
      rw [Nat.zero_mul, Nat.zero_add, List.getElem?_eq_getElem (by omega)] at h2
      rw [Option.some.inj h2]
      simp only [List.getElem_cons_zero] at h1
      rw [get_ok _ (by simp), h12, hval] at h1
      cases h1
      norm_num
    obtain ⟨k, hk, ek, hmin, _⟩ := C55_findClosest (17 / 10, 0) tbl
      ⟨tbl[1], List.getElem_mem _, by rw [ent 1 (by omega), distance_axis, abs_lt]; norm_num⟩
    have hk1 : k = 1 := by
      have h3 := hmin 1 (by omega)
      rw [hlen] at hk
      rw [ent k hk, ent 1 (by omega), distance_axis, distance_axis] at h3
      interval_cases k
      all_goals first
        | rfl
        | (norm_num [abs_of_neg, abs_of_pos] at h3)
    subst hk1
    rcases hbz : bc.beziers with _ | ⟨b, _ | ⟨_, _⟩⟩
    · rw [hbz] at hpts; simp at hpts
    · rw [hbz] at hpts
      simp only [List.map_cons, List.map_nil, List.cons.injEq, and_true] at hpts
      have hp : pick bc.beziers 3 1 = .ok (b, none, 1) := by
        rw [hbz]
        simp [pick, pyGet]
      obtain ⟨l, el, hll, _⟩ := C40_samples b.controlPoints (by rw [hpts]; simp) 3 (by omega)
      obtain ⟨q, d, er, hd⟩ := refineBinary_ok (p := (17 / 10, 0)) (ps := b.controlPoints) (by rw [hpts]; simp)
        (by rw [hpts]; exact hnear) l (by omega) 1 (by omega)
      refine ⟨bc, d, q, hbc, ?_, ?_⟩
      · unfold findClosestPoint
        rw [show ((3 : Int)) = ((3 : Nat) : Int) from rfl, e]
        simp only
        rw [ek, show (((3 : Nat) : Int)) = 3 from rfl, show (((1 : Nat) : Int)) = 1 from rfl, hp, ok_bind]
        simp only
        unfold closestOn
        rw [show ((3 : Int)) = ((3 : Nat) : Int) from rfl, el, ok_bind, er]
        rfl
      · have := (hd (by omega)).2 3 (by omega) (by omega) 0 2 (by simp) (by rw [hll]; simp)
        rw [hpts, hll, h12, hval, distance_axis] at this
        refine this.trans ?_
        rw [abs_le]; norm_num
    · rw [hbz] at hpts; simp at hpts
  · obtain ⟨bc, hbc⟩ := (C52_new [[((0:ℝ), 0), (1, 0)], [(1, 0), (2, 0)]]).mpr ⟨by simp, by simp⟩
    have hpts : bc.beziers.map (·.controlPoints) = [[((0:ℝ), 0), (1, 0)], [(1, 0), (2, 0)]] := (C52_history _ bc hbc []).1
    obtain ⟨tbl, e, hl⟩ := new_lut _ bc hbc 3 (by omega)
    have hlen : tbl.length = 5 := hl.1
    have ent : ∀ j : Nat, ∀ hj : j < 5, tbl[j]'(by omega) = ((j : ℝ) / 2, 0) := by
      intro j hj
      by_cases hj3 : j < 3
      · obtain ⟨p, h1, h2⟩ := hl.2 0 (by simp) j (by omega) (.inl rfl)
        rw [Nat.zero_mul, Nat.zero_add, List.getElem?_eq_getElem (by omega)] at h2
        rw [Option.some.inj h2]
        simp only [List.getElem_cons_zero] at h1
        rw [get_ok _ (by simp), h01, hval] at h1
        cases h1
        norm_num
      · obtain ⟨p, h1, h2⟩ := hl.2 1 (by simp) (j - 2) (by omega) (.inr (by omega))
        simp only [show 1 * (3 - 1) + (j - 2) = j by omega] at h2
        rw [List.getElem?_eq_getElem (by omega)] at h2
        rw [Option.some.inj h2]
        simp only [List.getElem_cons_succ, List.getElem_cons_zero] at h1
        rw [get_ok _ (by simp), h12, hval, Nat.cast_sub (by omega)] at h1
        cases h1
        norm_num
        ring
    obtain ⟨k, hk, ek, hmin, _⟩ := C55_findClosest (17 / 10, 0) tbl
      ⟨tbl[3], List.getElem_mem _, by rw [ent 3 (by omega), distance_axis, abs_lt]; norm_num⟩
    have hk3 : k = 3 := by
      have h3 := hmin 3 (by omega)
      rw [hlen] at hk
      rw [ent k hk, ent 3 (by omega), distance_axis, distance_axis] at h3
      interval_cases k
      all_goals first
        | rfl
        | (norm_num [abs_of_neg, abs_of_pos] at h3)
    subst hk3
    rcases hbz : bc.beziers with _ | ⟨b0, _ | ⟨b1, _ | ⟨_, _⟩⟩⟩
    · rw [hbz] at hpts; simp at hpts
    · rw [hbz] at hpts; simp at hpts
    · rw [hbz] at hpts
      simp only [List.map_cons, List.map_nil, List.cons.injEq, and_true] at hpts
      have hp : pick bc.beziers 3 3 = .ok (b1, none, 0) := by
        rw [hbz]
        simp [pick, pyGet]
      obtain ⟨l, el, hll, _⟩ := C40_samples b1.controlPoints (by rw [hpts.2]; simp) 3 (by omega)
      obtain ⟨q, d, er, hd⟩ := refineBinary_ok (p := (17 / 10, 0)) (ps := b1.controlPoints) (by rw [hpts.2]; simp)
        (by rw [hpts.2]; exact hnear) l (by omega) 0 (by omega)
      refine ⟨bc, d, q, hbc, ?_, ?_⟩
      · unfold findClosestPoint
        rw [show ((3 : Int)) = ((3 : Nat) : Int) from rfl, e]
        simp only
        rw [ek, show (((3 : Nat) : Int)) = 3 from rfl, hp, ok_bind]
        simp only
        unfold closestOn
        rw [show ((3 : Int)) = ((3 : Nat) : Int) from rfl, el, ok_bind, er]
        rfl
      · rcases refineBinary_window er 0 (1 / 2) (by
          intro tt htt t ht
          rw [hll, tt_ok 3 (by omega)] at htt
          cases htt
          rw [hll] at ht
          rcases ht with ht | ht
          · have := tt_get 3 0 (by omega)
            simp only [if_true] at ht
            rw [show ((0 : Int)) = ((0 : Nat) : Int) from rfl, this] at ht
            cases ht; norm_num
          · have := tt_get 3 1 (by omega)
            rw [if_neg (by norm_num), show ((0 : Int)) + 1 = ((1 : Nat) : Int) from rfl, this] at ht
            cases ht; norm_num) with ⟨_, hm⟩ | ⟨t, _, ht, hq, hd', _⟩
        · rw [hm]; norm_num [maxSafe]
        · rw [get_ok _ (by rw [hpts.2]; simp), hpts.2, h12, hval] at hq
          cases hq
          rw [hd', distance_axis, lt_abs]
          right; linarith
    · rw [hbz] at hpts; simp at hpts

/-- A parabola closed by a line, searched from a point of the parabola: the distance found is small. -/
example : ∃ bc d q, BContour.new [[((0:ℝ), 0), (1, 1), (2, 0)], [(2, 0), (0, 0)]] = .ok bc ∧
    (findClosestPoint (1, 1 / 2) 101 bc).1 = .ok (d, q) ∧ d ≤ 39 / 1000 := by
  obtain ⟨bc, hbc⟩ := (C52_new [[((0:ℝ), 0), (1, 1), (2, 0)], [(2, 0), (0, 0)]]).mpr ⟨by simp, by simp⟩
  have hsp : ∀ s ∈ [[((0:ℝ), 0), (1, 1), (2, 0)], [(2, 0), (0, 0)]], SpeedAtMost s 3 := by
    intro s hs
    simp only [List.mem_cons, List.not_mem_nil, or_false] at hs
    rcases hs with rfl | rfl
    · exact parabola_speed
    · intro i h
      have h' : i < 1 := by simpa using h
      interval_cases i
      norm_num [distance]
      rw [Real.sqrt_le_iff]
      norm_num
  have hnear : ∀ s ∈ [[((0:ℝ), 0), (1, 1), (2, 0)], [(2, 0), (0, 0)]], ∀ t, 0 ≤ t → t ≤ 1 → ∀ q, Bezier.get s t = .ok q →
      distance q (1, 1 / 2) < 9007199254740991 := by
    intro s hs t h0 h1 q hq
    simp only [List.mem_cons, List.not_mem_nil, or_false] at hs
    have hb : (0 ≤ q.1 ∧ q.1 ≤ 2) ∧ 0 ≤ q.2 ∧ q.2 ≤ 1 := by
      rcases hs with rfl | rfl
      · obtain ⟨q', e, h⟩ := C35_box [((0:ℝ), 0), (1, 1), (2, 0)] (by simp) 0 0 2 1 (by simp [InBox]) t h0 h1
        rw [e] at hq; cases hq; exact h
      · obtain ⟨q', e, h⟩ := C35_box [((2:ℝ), 0), (0, 0)] (by simp) 0 0 2 1 (by simp [InBox]) t h0 h1
        rw [e] at hq; cases hq; exact h
    unfold distance
    refine lt_of_le_of_lt (b := 2) ?_ (by norm_num)
    rw [Real.sqrt_le_iff]
    obtain ⟨⟨a, b⟩, c, d⟩ := hb
    constructor
    · norm_num
    · simp only
      nlinarith
  obtain ⟨d, q, e, h⟩ := C81_connected _ bc hbc ⟨by simp, by simp [Spec.Joined]⟩ (1, 1 / 2) hnear 101 (by omega) (by omega) 3 hsp
  refine ⟨bc, d, q, hbc, e, ?_⟩
  have := h [((0:ℝ), 0), (1, 1), (2, 0)] (by simp) (1 / 2) (by norm_num) (by norm_num) _ (get_ok _ (by simp) _)
  rw [curve_three] at this
  norm_num [distance] at this
  linarith

end PathLib
