import Verif.Props.SplitParts
import Verif.Props.BezierReduce

/-!
# Simple curves and their parts, and how many parts reduce returns: C121
-/

set_option linter.unusedSectionVars false
set_option linter.unusedSimpArgs false

namespace PathLib
open Spec Bezier

namespace Simple

/-- The direction of a quadratic with the legs `u` and `v` at the parameter `t`. -/
def dir (u v : Pt ℝ) (t : ℝ) : Pt ℝ := ((1 - t) * u.1 + t * v.1, (1 - t) * u.2 + t * v.2)

theorem test_iff (u v : Pt ℝ) : norm2 u * norm2 v < 2 * dot u v ↔ 0 < dot u v ∧ cross u v ^ 2 < 3 * dot u v ^ 2 := by
  have e : norm2 u * norm2 v = Real.sqrt (dot u v ^ 2 + cross u v ^ 2) := by
    unfold norm2
    rw [← Real.sqrt_mul (by positivity)]
    congr 1; unfold dot cross; ring
  rw [e]
  constructor
  · intro h
    have h0 : 0 < 2 * dot u v := lt_of_le_of_lt (Real.sqrt_nonneg _) h
    rw [Real.sqrt_lt' h0] at h
    exact ⟨by linarith, by nlinarith⟩
  · rintro ⟨h0, h⟩
    rw [Real.sqrt_lt' (by linarith)]
    nlinarith

theorem iff (ps : Segment ℝ) (h : ps.length = 3) :
    simple ps = .ok true ↔ 0 < dot (legs ps).1 (legs ps).2 ∧ cross (legs ps).1 (legs ps).2 ^ 2 < 3 * dot (legs ps).1 (legs ps).2 ^ 2 := by
  classical
  rw [C71_simple ps (.inl h), if_neg (by match ps, h with | [a, b, c], _ => simp [SShaped])]
  by_cases hz : (legs ps).1 = (0, 0) ∨ (legs ps).2 = (0, 0)
  · rw [if_pos hz]
    refine iff_of_false (by simp) fun hh => ?_
    rcases hz with hz | hz <;> · rw [hz] at hh; simp [dot] at hh
  · rw [if_neg hz, ← test_iff]; simp

theorem dot_dir (u v : Pt ℝ) (h : 0 < dot u v) (a b : ℝ) (ha : 0 ≤ a) (ha1 : a ≤ 1) (hb : 0 ≤ b) (hb1 : b ≤ 1) :
    0 < dot (dir u v a) (dir u v b) ∧ (b - a) * dot u v ≤ dot (dir u v a) (dir u v b) := by
  have hu : 0 < u.1 ^ 2 + u.2 ^ 2 := by
    by_contra hc
    have h1 : u.1 = 0 := by nlinarith [sq_nonneg u.1, sq_nonneg u.2]
    have h2 : u.2 = 0 := by nlinarith [sq_nonneg u.1, sq_nonneg u.2]
    simp [dot, h1, h2] at h
  have hv : 0 < v.1 ^ 2 + v.2 ^ 2 := by
    by_contra hc
    have h1 : v.1 = 0 := by nlinarith [sq_nonneg v.1, sq_nonneg v.2]
    have h2 : v.2 = 0 := by nlinarith [sq_nonneg v.1, sq_nonneg v.2]
    simp [dot, h1, h2] at h
  have e : dot (dir u v a) (dir u v b) = (1 - a) * (1 - b) * (u.1 ^ 2 + u.2 ^ 2) + ((1 - a) * b + a * (1 - b)) * dot u v
      + a * b * (v.1 ^ 2 + v.2 ^ 2) := by
    unfold dot dir; ring
  have p1 : 0 ≤ (1 - a) * (1 - b) := mul_nonneg (by linarith) (by linarith)
  have p2 : 0 ≤ (1 - a) * b := mul_nonneg (by linarith) hb
  have p3 : 0 ≤ a * (1 - b) := mul_nonneg ha (by linarith)
  have p4 : 0 ≤ a * b := mul_nonneg ha hb
  have p5 : 0 < min (u.1 ^ 2 + u.2 ^ 2) (min (dot u v) (v.1 ^ 2 + v.2 ^ 2)) := lt_min hu (lt_min h hv)
  set m := min (u.1 ^ 2 + u.2 ^ 2) (min (dot u v) (v.1 ^ 2 + v.2 ^ 2)) with hm
  have m1 : m ≤ u.1 ^ 2 + u.2 ^ 2 := min_le_left _ _
  have m2 : m ≤ dot u v := (min_le_right _ _).trans (min_le_left _ _)
  have m3 : m ≤ v.1 ^ 2 + v.2 ^ 2 := (min_le_right _ _).trans (min_le_right _ _)
  constructor
  · rw [e]
    have := mul_le_mul_of_nonneg_left m1 p1
    have := mul_le_mul_of_nonneg_left m2 (add_nonneg p2 p3)
    have := mul_le_mul_of_nonneg_left m3 p4
    have e' : (1 - a) * (1 - b) * m + ((1 - a) * b + a * (1 - b)) * m + a * b * m = m := by ring
    linarith
  · rw [e]
    have := mul_nonneg p1 hu.le
    have := mul_nonneg p4 hv.le
    have : (b - a) * dot u v ≤ ((1 - a) * b + a * (1 - b)) * dot u v := by
      apply mul_le_mul_of_nonneg_right _ h.le
      nlinarith
    linarith

theorem dir_test (u v : Pt ℝ) (h : 0 < dot u v ∧ cross u v ^ 2 < 3 * dot u v ^ 2) (a b : ℝ) (ha : 0 ≤ a) (hab : a < b) (hb : b ≤ 1) :
    0 < dot (dir u v a) (dir u v b) ∧ cross (dir u v a) (dir u v b) ^ 2 < 3 * dot (dir u v a) (dir u v b) ^ 2 := by
  obtain ⟨h1, h2⟩ := dot_dir u v h.1 a b ha (by linarith) (by linarith) hb
  refine ⟨h1, ?_⟩
  have e : cross (dir u v a) (dir u v b) = (b - a) * cross u v := by unfold cross dir; ring
  have hk : 0 < b - a := by linarith
  rw [e, mul_pow]
  calc (b - a) ^ 2 * cross u v ^ 2 < (b - a) ^ 2 * (3 * dot u v ^ 2) := mul_lt_mul_of_pos_left h.2 (by positivity)
    _ = 3 * ((b - a) * dot u v) ^ 2 := by ring
    _ ≤ 3 * dot (dir u v a) (dir u v b) ^ 2 := by
      have : 0 ≤ (b - a) * dot u v := mul_nonneg hk.le h.1.le
      nlinarith

theorem legs_part (ps qs : Segment ℝ) (hp : ps.length = 3) (u v : ℝ) (hl : qs.length = ps.length)
    (h : ∀ s, curve qs s = curve ps (u + s * (v - u))) :
    legs qs = (((v - u) * (dir (legs ps).1 (legs ps).2 u).1, (v - u) * (dir (legs ps).1 (legs ps).2 u).2),
      ((v - u) * (dir (legs ps).1 (legs ps).2 v).1, (v - u) * (dir (legs ps).1 (legs ps).2 v).2)) := by
  rw [hp] at hl
  match ps, qs, hp, hl, h with
  | [a, b, c], [p, q, r], _, _, h =>
    have h0 := h 0
    have h1 := h 1
    have h2 := h (1 / 2)
    simp only [curve_three, Prod.mk.injEq] at h0 h1 h2
    simp only [legs, vec, dir, Prod.mk.injEq]
    refine ⟨⟨?_, ?_⟩, ?_, ?_⟩
    · linear_combination 2 * h2.1 - (3 / 2) * h0.1 - (1 / 2) * h1.1
    · linear_combination 2 * h2.2 - (3 / 2) * h0.2 - (1 / 2) * h1.2
    · linear_combination -2 * h2.1 + (1 / 2) * h0.1 + (3 / 2) * h1.1
    · linear_combination -2 * h2.2 + (1 / 2) * h0.2 + (3 / 2) * h1.2

theorem part (ps qs : Segment ℝ) (hp : ps.length = 3) (hs : simple ps = .ok true) (u v : ℝ) (hu : 0 ≤ u) (huv : u < v) (hv : v ≤ 1)
    (hl : qs.length = ps.length) (h : ∀ s, curve qs s = curve ps (u + s * (v - u))) : simple qs = .ok true := by
  rw [iff ps hp] at hs
  rw [iff qs (hl.trans hp), legs_part ps qs hp u v hl h]
  obtain ⟨h1, h2⟩ := dir_test _ _ hs u v hu huv hv
  have hk : 0 < (v - u) ^ 2 := by have : 0 < v - u := sub_pos.mpr huv
                                  positivity
  set d := dir (legs ps).1 (legs ps).2
  have e1 : dot ((v - u) * (d u).1, (v - u) * (d u).2) ((v - u) * (d v).1, (v - u) * (d v).2) = (v - u) ^ 2 * dot (d u) (d v) := by
    unfold dot; ring
  have e2 : cross ((v - u) * (d u).1, (v - u) * (d u).2) ((v - u) * (d v).1, (v - u) * (d v).2) = (v - u) ^ 2 * cross (d u) (d v) := by
    unfold cross; ring
  simp only [e1, e2]
  refine ⟨mul_pos hk h1, ?_⟩
  have := mul_lt_mul_of_pos_left h2 (pow_pos hk 2)
  nlinarith

end Simple

/-- C121: every part of a simple quadratic is simple. -/
theorem C121_part (ps qs : Segment ℝ) (hp : ps.length = 3) (hs : simple ps = .ok true) (u v : ℝ) (hu : 0 ≤ u) (huv : u < v) (hv : v ≤ 1)
    (h : IsPart ps qs u v) : simple qs = .ok true :=
  Simple.part ps qs hp hs u v hu huv hv h.1 (Part.curve_eq (by rintro rfl; simp at hp) h)

/-- C121: a simple quadratic passes no point twice. -/
theorem C121_injective (ps : Segment ℝ) (hp : ps.length = 3) (hs : simple ps = .ok true) (s t : ℝ) (hs0 : 0 ≤ s) (hs1 : s ≤ 1)
    (ht0 : 0 ≤ t) (ht1 : t ≤ 1) (h : Bezier.get ps s = Bezier.get ps t) : s = t := by
  have hne : ps ≠ [] := by rintro rfl; simp at hp
  rw [get_ok _ hne, get_ok _ hne] at h
  have h := Except.ok.inj h
  rw [Simple.iff ps hp] at hs
  match ps, hp, h, hs with
  | [a, b, c], _, h, hs =>
    simp only [curve_three, Prod.mk.injEq] at h
    obtain ⟨d, -⟩ := Simple.dot_dir _ _ hs.1 ((s + t) / 2) ((s + t) / 2) (by linarith) (by linarith) (by linarith) (by linarith)
    by_contra hc
    have hk : t - s ≠ 0 := sub_ne_zero.mpr (Ne.symm hc)
    simp only [legs, vec, Simple.dir, dot] at d
    have e1 : (1 - (s + t) / 2) * (b.1 - a.1) + (s + t) / 2 * (c.1 - b.1) = 0 := by
      apply (mul_eq_zero.mp (?_ : (t - s) * _ = 0)).resolve_left hk
      linear_combination -(1 / 2) * h.1
    have e2 : (1 - (s + t) / 2) * (b.2 - a.2) + (s + t) / 2 * (c.2 - b.2) = 0 := by
      apply (mul_eq_zero.mp (?_ : (t - s) * _ = 0)).resolve_left hk
      linear_combination -(1 / 2) * h.2
    rw [e1, e2] at d
    simp at d

namespace Simple

theorem loop_step (p1 : Bezier) (t1 t2 : ℝ) (h : t1 < t2) :
    reduceLoop p1 t1 t2 h = if t2 ≤ 1 then do
      let segment ← splitPiece p1 t1 t2
      if !(← simple segment.controlPoints) then
        if |t1 - (t2 - step)| < step then return none
        else do
          let segment ← splitPiece p1 t1 (t2 - step)
          let a ← butils.map t1 0 1 p1.t1 p1.t2
          let b ← butils.map (t2 - step) 0 1 p1.t1 p1.t2
          match ← reduceLoop p1 (t2 - step) (t2 - step + step) (by unfold step; linarith) with
          | none => return none
          | some (ps, tEnd) => return some ({ segment with t1 := a, t2 := b } :: ps, tEnd)
      else reduceLoop p1 t1 (t2 + step) (by unfold step; linarith)
    else return some ([], t1) := by
  conv_lhs => rw [reduceLoop]
  by_cases h2 : t2 ≤ 1
  · rw [dif_pos h2, if_pos h2]
    congr 1
  · rw [dif_neg h2, if_neg h2]

theorem loop (p1 : Bezier) (hq : QuadOrCubic p1)
    (hs : ∀ a b qs, 0 ≤ a → a < b → b ≤ 1 → qs.length = p1.controlPoints.length →
      (∀ s, curve qs s = curve p1.controlPoints (a + s * (b - a))) → simple qs = .ok true)
    (n : ℕ) (t1 t2 : ℝ) (h : t1 < t2) (h0 : 0 ≤ t1) (hn : (1 - t2) * 100 < n) : reduceLoop p1 t1 t2 h = .ok (some ([], t1)) := by
  induction n generalizing t2 with
  | zero =>
    rw [loop_step, if_neg (by push_cast at hn; linarith)]; rfl
  | succ n ih =>
    rw [loop_step]
    by_cases h2 : t2 ≤ 1
    · obtain ⟨p, hp, hl, hc⟩ := splitPiece_ok p1 hq t1 t2 (by linarith) (.inl (by linarith))
      rw [if_pos h2, hp]
      simp only [ok_bind]
      rw [hs t1 t2 _ h0 h h2 hl hc]
      simp only [ok_bind, Bool.not_true, Bool.false_eq_true, if_false]
      exact ih (t2 + step) _ (by push_cast at hn; unfold step; linarith)
    · rw [if_neg h2]; rfl

theorem loop_count (p1 : Bezier) (n : ℕ) (t1 t2 : ℝ) (h : t1 < t2) (hn : (3 - t1 - t2) * 100 < n) (l : List Bezier) (e : ℝ)
    (hr : reduceLoop p1 t1 t2 h = .ok (some (l, e))) : l.length * step ≤ e - t1 ∧ (l ≠ [] → e ≤ 1 - step) ∧ (l = [] → e = t1) := by
  induction n generalizing t1 t2 l e with
  | zero =>
    rw [loop_step] at hr
    rw [if_neg (by push_cast at hn; linarith)] at hr
    cases hr; simp
  | succ n ih =>
    rw [loop_step] at hr
    by_cases h2 : t2 ≤ 1
    · rw [if_pos h2] at hr
      obtain ⟨seg, -, hr⟩ := bind_eq_ok.mp hr
      obtain ⟨b, -, hr⟩ := bind_eq_ok.mp hr
      cases b with
      | true =>
        simp only [Bool.not_true, Bool.false_eq_true, if_false] at hr
        exact ih t1 (t2 + step) _ (by push_cast at hn; unfold step; linarith) l e hr
      | false =>
        simp only [Bool.not_false, if_true] at hr
        split_ifs at hr with h3
        · cases hr
        · obtain ⟨seg', -, hr⟩ := bind_eq_ok.mp hr
          obtain ⟨a, -, hr⟩ := bind_eq_ok.mp hr
          obtain ⟨b, -, hr⟩ := bind_eq_ok.mp hr
          obtain ⟨res, hres, hr⟩ := bind_eq_ok.mp hr
          have ht : t1 + step ≤ t2 - step := by
            rw [not_lt] at h3
            rcases le_abs.mp h3 with h' | h'
            · exfalso; unfold step at h'; linarith
            · linarith
          cases res with
          | none => cases hr
          | some q =>
            obtain ⟨ps, e'⟩ := q
            cases hr
            obtain ⟨k1, k2, k3⟩ := ih (t2 - step) (t2 - step + step) _ (by push_cast at hn; unfold step at ht ⊢; linarith) ps e hres
            refine ⟨?_, ?_, by simp⟩
            · rw [List.length_cons]; push_cast; linarith
            · intro _
              by_cases hps : ps = []
              · subst hps
                rw [k3 rfl]; linarith
              · exact k2 hps
    · rw [if_neg h2] at hr
      cases hr; simp

theorem pass2_simple (ps : Segment ℝ) (hp : ps.length = 3) (hs : simple ps = .ok true) (l : List Bezier) (a e : ℝ) (h : TilesFrom ps a e l)
    (ha : 0 ≤ a) (he : ∀ p ∈ l, p.t2 ≤ 1) :
    ∃ r, reducePass2 l = .ok (some r) ∧ r.map (·.t1) = l.map (·.t1) ∧ r.map (·.t2) = l.map (·.t2) ∧
      ∀ p ∈ r, p.t1 < p.t2 ∧ p.controlPoints.length = ps.length ∧ ∀ s, curve p.controlPoints s = curve ps (p.t1 + s * (p.t2 - p.t1)) := by
  induction l generalizing a with
  | nil => exact ⟨[], rfl, rfl, rfl, by simp⟩
  | cons p l ih =>
    obtain ⟨a1, a2, a3, a4, a5⟩ := h
    have hq : QuadOrCubic p := .inl (a3.trans hp)
    have h1 : p.t2 ≤ 1 := he p (by simp)
    obtain ⟨r, r1, r2, r3, r4⟩ := ih p.t2 a5 (by linarith) fun q hq => he q (by simp [hq])
    have hps : simple p.controlPoints = .ok true := part ps _ hp hs p.t1 p.t2 (by linarith) a2 h1 a3 a4
    have hl := loop p hq (fun a b qs ha hab hb hl hc => part _ _ (a3.trans hp) hps a b ha hab hb hl hc) 100 0 (0 + step)
      (by unfold step; norm_num) le_rfl (by unfold step; norm_num)
    obtain ⟨seg, s1, s2, s3⟩ := splitPiece_ok p hq 0 1 one_ne_zero (.inr rfl)
    have hm : butils.map (0:ℝ) 0 1 p.t1 p.t2 = .ok p.t1 := by simp [butils.map, pdiv]
    refine ⟨{ seg with t1 := p.t1, t2 := p.t2 } :: r, ?_, ?_, ?_, ?_⟩
    · unfold reducePass2
      rw [hl]
      simp only [ok_bind]
      rw [if_pos one_pos, s1]
      simp only [ok_bind]
      rw [hm]
      simp only [ok_bind, pure_eq_ok]
      rw [r1]
      rfl
    · simp [r2]
    · simp [r3]
    · intro q hq
      rcases List.mem_cons.mp hq with rfl | hq
      · refine ⟨a2, s2.trans a3, fun s => ?_⟩
        simp only [s3, a4]
        congr 1; ring
      · exact r4 q hq

theorem pass1_params (b : Bezier) (t1 : ℝ) (rest : List ℝ) (l : List Bezier) (h : reducePass1 b t1 rest = .ok l) :
    l.map (·.t1) = (t1 :: rest).dropLast ∧ l.map (·.t2) = rest := by
  induction rest generalizing t1 l with
  | nil => cases h; simp
  | cons t2 rest ih =>
    unfold reducePass1 at h
    obtain ⟨seg, -, h⟩ := bind_eq_ok.mp h
    obtain ⟨l', hl', h⟩ := bind_eq_ok.mp h
    cases h
    obtain ⟨e1, e2⟩ := ih t2 l' hl'
    simp [e1, e2]

end Simple

/-- C121: a simple quadratic is cut by `reduce()` at its extrema and nowhere else: the result is never empty, never an exception, and the
curves in it are the parts between neighbours in the list of 0, the extrema and 1. -/
theorem C121_reduce (b : Bezier) (hb : b.controlPoints.length = 3) (hs : simple b.controlPoints = .ok true) :
    ∃ e r, extrema b.controlPoints = .ok e ∧ reduce b = .ok r ∧ r.map (·.t1) = (addEnds e.all).dropLast ∧ r.map (·.t2) = (addEnds e.all).tail ∧
      ∀ p ∈ r, p.t1 < p.t2 ∧ IsPart b.controlPoints p.controlPoints p.t1 p.t2 := by
  have hq : QuadOrCubic b := .inl hb
  obtain ⟨e, he, hm⟩ := C39_quadratic b.controlPoints hb
  obtain ⟨ep, eu⟩ := C39_union _ e he
  have hin : ∀ t ∈ e.all, 0 ≤ t ∧ t ≤ 1 := by
    intro t ht
    rcases (eu t).mp ht with h | h
    · exact ((hm t).1.mp h).1
    · exact ((hm t).2.mp h).1
  obtain ⟨rest, h1, h2, h3, h4, h5⟩ := addEnds_spec e.all ep hin
  obtain ⟨l, l1, l2, l3, -⟩ := pass1_spec b hq 0 rest h3 le_rfl h4
  obtain ⟨q1, q2⟩ := Simple.pass1_params b 0 rest l l1
  obtain ⟨r, r1, r2, r3, r4⟩ := Simple.pass2_simple _ hb hs l _ _ l2 le_rfl (by
    intro p hp
    have : p.t2 ∈ l.map (·.t2) := List.mem_map_of_mem hp
    rw [q2] at this
    exact h4 _ this)
  refine ⟨e, r, he, ?_, by rw [r2, q1, h1], by rw [r3, q2, h1]; rfl, fun p hp => ?_⟩
  · unfold reduce
    rw [he, ok_bind]
    unfold reduceWith
    rw [h1]
    simp only
    rw [l1]; simp only [ok_bind]; rw [r1]; rfl
  · obtain ⟨k1, k2, k3⟩ := r4 p hp
    refine ⟨k1, k2, fun s => ?_⟩
    rw [get_ok _ (by intro h; rw [h, hb] at k2; simp at k2), get_ok _ (by intro h; rw [h] at hb; simp at hb), k3]

/-- C121: it has at most one extremum, so `reduce()` returns one curve or two, and `intersects(None)` finds nothing, whatever the threshold
and the recursion limit. -/
theorem C121_few (b : Bezier) (hb : b.controlPoints.length = 3) (hs : simple b.controlPoints = .ok true) :
    (∃ e, extrema b.controlPoints = .ok e ∧ e.all.length ≤ 1) ∧ (∃ r, reduce b = .ok r ∧ r ≠ [] ∧ r.length ≤ 2) ∧
    ∀ depth θ, intersects depth b none θ = .ok [] := by
  obtain ⟨e, r, he, hr, h1, h2, -⟩ := C121_reduce b hb hs
  obtain ⟨e', he', hm⟩ := C39_quadratic b.controlPoints hb
  obtain rfl : e' = e := by rw [he] at he'; exact (Except.ok.inj he').symm
  obtain ⟨ep, eu⟩ := C39_union _ e' he
  have hd := hasDerivAt_curve_step b.controlPoints (by omega)
  rw [Simple.iff _ hb] at hs
  have hdir : ∀ t, curve (dcStep b.controlPoints) t = (2 * (Simple.dir (legs b.controlPoints).1 (legs b.controlPoints).2 t).1,
      2 * (Simple.dir (legs b.controlPoints).1 (legs b.controlPoints).2 t).2) := by
    match b.controlPoints, hb with
    | [p, q, r], _ =>
      intro t
      simp only [dcStep, List.tail_cons, List.zipWith_cons_cons, List.zipWith_nil_right, curve_two, legs, vec, Simple.dir, List.length_cons,
        List.length_nil, Prod.mk.injEq]
      norm_num
      constructor <;> ring
  set d := Simple.dir (legs b.controlPoints).1 (legs b.controlPoints).2 with hdd
  have hx : ∀ t, t ∈ e'.x → (0 ≤ t ∧ t ≤ 1) ∧ (d t).1 = 0 ∧ ∃ s, (d s).1 ≠ 0 := by
    intro t ht
    obtain ⟨a, ⟨s, hs⟩, c⟩ := (hm t).1.mp ht
    rw [(hd _).1.deriv, hdir] at c hs
    exact ⟨a, by simpa using c, s, by simpa using hs⟩
  have hy : ∀ t, t ∈ e'.y → (0 ≤ t ∧ t ≤ 1) ∧ (d t).2 = 0 ∧ ∃ s, (d s).2 ≠ 0 := by
    intro t ht
    obtain ⟨a, ⟨s, hs⟩, c⟩ := (hm t).2.mp ht
    rw [(hd _).2.deriv, hdir] at c hs
    exact ⟨a, by simpa using c, s, by simpa using hs⟩
  have lin : ∀ u v s t r : ℝ, (1 - s) * u + s * v = 0 → (1 - t) * u + t * v = 0 → (1 - r) * u + r * v ≠ 0 → s = t := by
    intro u v s t r h1 h2 h3
    by_contra hc
    have hk : s - t ≠ 0 := sub_ne_zero.mpr hc
    have : v - u = 0 := (mul_eq_zero.mp (by linear_combination h1 - h2 : (s - t) * (v - u) = 0)).resolve_left hk
    apply h3
    linear_combination h1 + (r - s) * this
  have mixed : ∀ s t, s ∈ e'.x → t ∈ e'.y → False := by
    intro s t h1 h2
    obtain ⟨⟨a, b⟩, c, -⟩ := hx s h1
    obtain ⟨⟨a', b'⟩, c', -⟩ := hy t h2
    have := (Simple.dot_dir _ _ hs.1 s t a b a' b').1
    rw [← hdd] at this
    unfold dot at this
    rw [c, c'] at this
    simp at this
  have one : ∀ s ∈ e'.all, ∀ t ∈ e'.all, s = t := by
    intro s h1 t h2
    rcases (eu s).mp h1 with h1 | h1 <;> rcases (eu t).mp h2 with h2 | h2
    · obtain ⟨-, c, r, hr⟩ := hx s h1
      obtain ⟨-, c', -⟩ := hx t h2
      exact lin _ _ s t r c c' hr
    · exact (mixed s t h1 h2).elim
    · exact (mixed t s h2 h1).elim
    · obtain ⟨-, c, r, hr⟩ := hy s h1
      obtain ⟨-, c', -⟩ := hy t h2
      exact lin _ _ s t r c c' hr
  have len : e'.all.length ≤ 1 := by
    match e'.all, ep, one with
    | [], _, _ => simp
    | [_], _, _ => simp
    | s :: t :: l, ep, one =>
      have h1 : s < t := (List.pairwise_cons.mp ep).1 t (by simp)
      exact absurd (one s (by simp) t (by simp)) h1.ne
  have rl : r.length = (addEnds e'.all).length - 1 := by
    have := congrArg List.length h2
    simpa using this
  have al : 2 ≤ (addEnds e'.all).length ∧ (addEnds e'.all).length ≤ 3 := by
    match e'.all, len with
    | [], _ => simp [addEnds]
    | [m], _ =>
      by_cases h0 : (0:ℝ) = m
      · subst h0; simp [addEnds]
      · by_cases h1 : (1:ℝ) = m
        · subst h1; simp [addEnds]
        · simp [addEnds, h0, h1]
  refine ⟨⟨e', he, len⟩, ⟨r, hr, ?_, by omega⟩, fun depth θ => ?_⟩
  · rintro rfl; simp at rl; omega
  · unfold intersects selfIntersects
    simp only
    rw [hr, ok_bind, show r.length - 2 = 0 by omega]
    rfl

namespace Simple

theorem pass2_count (l r : List Bezier) (h : reducePass2 l = .ok (some r)) : r.length ≤ 100 * l.length := by
  induction l generalizing r with
  | nil => cases h; simp
  | cons p l ih =>
    unfold reducePass2 at h
    obtain ⟨res, hres, h⟩ := bind_eq_ok.mp h
    cases res with
    | none => cases h
    | some q =>
      obtain ⟨ps, t1⟩ := q
      simp only at h
      obtain ⟨last, hlast, h⟩ := bind_eq_ok.mp h
      obtain ⟨more, hmore, h⟩ := bind_eq_ok.mp h
      cases more with
      | none => cases h
      | some m =>
        cases h
        have k1 := ih m hmore
        have k2 : last.length ≤ 1 := by
          split_ifs at hlast
          · obtain ⟨seg, -, hlast⟩ := bind_eq_ok.mp hlast
            obtain ⟨a, -, hlast⟩ := bind_eq_ok.mp hlast
            cases hlast; simp
          · cases hlast; simp
        have k3 : ps.length ≤ 99 := by
          obtain ⟨c1, c2, -⟩ := loop_count p 300 0 (0 + step) _ (by unfold step; norm_num) ps t1 hres
          by_cases hps : ps = []
          · simp [hps]
          · have := c2 hps
            unfold step at c1 this
            have : (ps.length : ℝ) ≤ 99 := by linarith
            exact_mod_cast this
        simp only [List.length_append, List.length_cons]
        omega

theorem droots_length (p : List ℝ) : (butils.droots p).length ≤ p.length - 1 := by
  unfold butils.droots
  split
  · simp only
    split_ifs <;> simp
  · split_ifs <;> simp
  · simp

theorem extrema_length (ps : Segment ℝ) (e : Extrema) (he : extrema ps = .ok e) :
    (ps.length = 3 → e.all.length ≤ 2) ∧ (ps.length = 4 → e.all.length ≤ 6) := by
  unfold extrema extremaOf at he
  obtain ⟨x, hx, he⟩ := bind_eq_ok.mp he
  obtain ⟨y, hy, he⟩ := bind_eq_ok.mp he
  cases he
  have hall : (butils.removeDuplicates (sorted (sorted x ++ sorted y))).length ≤ x.length + y.length := by
    refine (C26_sublist _).length_le.trans ?_
    simp [sorted]
  have dim : ∀ (d : Fin 2) l, extremaDim (order ps) (dcPoints ps) d = .ok l → (ps.length = 3 → l.length ≤ 1) ∧ (ps.length = 4 → l.length ≤ 3) := by
    intro d l hl
    constructor
    · intro h
      have e : ¬ order ps = 3 := by unfold order; omega
      rw [dcPoints_cons _ (by omega)] at hl
      simp only [extremaDim, pyGet_zero_cons, ok_bind, if_neg e, pure_eq_ok, Except.ok.injEq] at hl
      rw [← hl]
      refine (List.length_filterMap_le _ _).trans ((droots_length _).trans ?_)
      simp [dcStep_length, h]
    · intro h
      have e : order ps = 3 := by unfold order; omega
      rw [dcPoints_cons _ (by omega), dcPoints_cons _ (by rw [dcStep_length]; omega)] at hl
      simp only [extremaDim, pyGet_zero_cons, pyGet_one_cons, ok_bind, if_pos e, pure_eq_ok, Except.ok.injEq] at hl
      rw [← hl]
      refine (List.length_filterMap_le _ _).trans ?_
      rw [List.length_append]
      have h1 := droots_length ((dcStep ps).map (coord d))
      have h2 := droots_length ((dcStep (dcStep ps)).map (coord d))
      simp only [List.length_map, dcStep_length, h] at h1 h2
      omega
  have d0 := dim 0 _ hx
  have d1 := dim 1 _ hy
  exact ⟨fun h => by have := d0.1 h; have := d1.1 h; simp only; omega, fun h => by have := d0.2 h; have := d1.2 h; simp only; omega⟩

theorem cubic_true (ps : Segment ℝ) (h : ps.length = 4) (hS : ¬ SShaped ps) (h1 : 0 < dot (legs ps).1 (legs ps).2)
    (h2 : cross (legs ps).1 (legs ps).2 ^ 2 < 3 * dot (legs ps).1 (legs ps).2 ^ 2) : simple ps = .ok true := by
  classical
  rw [C71_simple ps (.inr h), if_neg hS, if_neg, decide_eq_true ((test_iff _ _).mpr ⟨h1, h2⟩)]
  rintro (hz | hz) <;> · rw [hz] at h1; simp [dot] at h1

theorem cubic_false (ps : Segment ℝ) (h : ps.length = 4) (hl1 : (legs ps).1 ≠ (0, 0)) (hl2 : (legs ps).2 ≠ (0, 0))
    (h1 : dot (legs ps).1 (legs ps).2 ≤ 0) : simple ps = .ok false := by
  classical
  rw [C71_simple ps (.inr h)]
  split_ifs with h2 h3
  · rfl
  · exact absurd h3 (by simp [hl1, hl2])
  · rw [decide_eq_false]
    rw [test_iff]
    intro hc; linarith [hc.1]

end Simple

/-- C121: a quadratic has at most two extrema and a cubic at most six, and `reduce()` returns at most a hundred curves for every part between
neighbouring extrema: at most 300 for a quadratic, at most 700 for a cubic. -/
theorem C121_count (b : Bezier) (r : List Bezier) (h : reduce b = .ok r) :
    ∃ e, extrema b.controlPoints = .ok e ∧ r.length ≤ 100 * (e.all.length + 1) ∧
      (b.controlPoints.length = 3 → e.all.length ≤ 2 ∧ r.length ≤ 300) ∧ (b.controlPoints.length = 4 → e.all.length ≤ 6 ∧ r.length ≤ 700) := by
  unfold reduce at h
  obtain ⟨e, he, h⟩ := bind_eq_ok.mp h
  have hadd : (addEnds e.all).length ≤ e.all.length + 2 := by
    simp only [addEnds]
    split_ifs <;> simp
  have hr : r.length ≤ 100 * (e.all.length + 1) := by
    unfold reduceWith at h
    cases ha : addEnds e.all with
    | nil => rw [ha] at h; cases h
    | cons t rest =>
      rw [ha] at h hadd
      simp only at h
      obtain ⟨l, hl, h⟩ := bind_eq_ok.mp h
      obtain ⟨res, hres, h⟩ := bind_eq_ok.mp h
      have hlen : l.length = rest.length := by
        have := congrArg List.length (Simple.pass1_params b t rest l hl).2
        simpa using this
      cases res with
      | none => cases h; simp
      | some q =>
        cases h
        have := Simple.pass2_count l r hres
        simp only [List.length_cons] at hadd
        omega
  obtain ⟨k1, k2⟩ := Simple.extrema_length _ e he
  exact ⟨e, he, hr, fun h3 => ⟨k1 h3, by have := k1 h3; omega⟩, fun h4 => ⟨k2 h4, by have := k2 h4; omega⟩⟩

/-- C121: none of this holds for cubics. The cubic (0,0), (11,1), (-2,1), (9,0) is simple and passes its point at 1/4 again at 3/4; and its
first half is not simple. -/
theorem C121_cubic_loop :
    let ps : Segment ℝ := [(0, 0), (11, 1), (-2, 1), (9, 0)]
    simple ps = .ok true ∧ Bezier.get ps (1 / 4) = Bezier.get ps (3 / 4) ∧
    ∀ b l r q, b.controlPoints = ps → split b (1 / 2) none = .ok (.parts l r q) → simple l.controlPoints = .ok false := by
  intro ps
  refine ⟨?_, ?_, ?_⟩
  · refine Simple.cubic_true ps rfl ?_ ?_ ?_
    · norm_num [ps, SShaped, LeftOf, RightOf, cross, dot, vec]
    · norm_num [ps, legs, vec, dot]
    · norm_num [ps, legs, vec, dot, cross]
  · rw [get_ok _ (by simp [ps]), get_ok _ (by simp [ps])]
    norm_num [ps, curve_four]
  · intro b l r q hb hsp
    obtain ⟨l', r', q', e1, e2, -⟩ := (C119_split b (.inr (by rw [hb]; rfl))).1 (1 / 2)
    rw [hsp] at e1
    obtain ⟨rfl, -, -⟩ : l = l' ∧ r = r' ∧ q = q' := by simpa using e1
    have hl : l.controlPoints = [(0, 0), (11 / 2, 1 / 2), (5, 3 / 4), (9 / 2, 3 / 4)] := by
      refine Reversed.points_unique (by rw [e2.1, hb]; exact .inr rfl) (by rw [e2.1, hb]; rfl) fun s => ?_
      rw [Part.curve_eq (by rw [hb]; simp [ps]) e2, hb]
      simp only [ps, curve_four, Prod.mk.injEq]
      constructor <;> ring
    rw [hl]
    refine Simple.cubic_false _ rfl ?_ ?_ ?_ <;> norm_num [legs, vec, dot]

/-- C121: the cubic (0,0), (10,1), (0,1), (10,0) is simple and has a cusp, so that `reduce()` never returns a non-empty list for it. -/
theorem C121_cubic_cusp (b : Bezier) (hb : b.controlPoints = [(0, 0), (10, 1), (0, 1), (10, 0)]) :
    simple b.controlPoints = .ok true ∧ ∀ r, reduce b = .ok r → r = [] := by
  have hq : QuadOrCubic b := .inr (by rw [hb]; rfl)
  constructor
  · rw [hb]
    refine Simple.cubic_true _ rfl ?_ ?_ ?_
    · norm_num [SShaped, LeftOf, RightOf, cross, dot, vec]
    · norm_num [legs, vec, dot]
    · norm_num [legs, vec, dot, cross]
  · intro r hr
    by_contra hne
    apply C48_stops b hq r hr hne (1 / 2) (by norm_num) (by norm_num)
    have h := hasDerivAt_curve_step b.controlPoints (by rw [hb]; simp) (1 / 2)
    have e : curve (dcStep b.controlPoints) (1 / 2) = (0, 0) := by
      rw [hb]
      simp only [dcStep, List.tail_cons, List.zipWith_cons_cons, List.zipWith_nil_right, curve_three, Prod.mk.injEq]
      norm_num
    rw [e] at h
    exact h

example : simple [(0, 0), (2, 1), (4, 1)] = .ok true := by
  rw [Simple.iff _ rfl]; norm_num [legs, vec, dot, cross]

example : ∃ b, Bezier.new [(0, 0), (2, 1), (4, 1)] = .ok b ∧ intersects 1000 b none (1 / 2) = .ok [] := by
  obtain ⟨b, hb, hp, -⟩ := new_ok [(0, 0), (2, 1), (4, 1)] (by simp)
  exact ⟨b, hb, (C121_few b (by rw [hp]; rfl) (by rw [hp, Simple.iff _ rfl]; norm_num [legs, vec, dot, cross])).2.2 _ _⟩

end PathLib
