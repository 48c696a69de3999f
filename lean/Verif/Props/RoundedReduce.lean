import Verif.Props.Rounded
import Verif.Props.RoundedSimple
import Verif.Lemmas.FloatRun

/-!
# `reduce` in rounded arithmetic: C90
-/

set_option linter.unusedSectionVars false
set_option linter.unusedSimpArgs false

namespace PathLib

open Bezier Spec

/-! ## Without rounding -/

section exact

private theorem ex_add (x y : ℝ) : Rounding.exact.add x y = x + y := rfl
private theorem ex_sub (x y : ℝ) : Rounding.exact.sub x y = x - y := rfl
private theorem ex_mul (x y : ℝ) : Rounding.exact.mul x y = x * y := rfl
private theorem ex_div (x y : ℝ) : Rounding.exact.div x y = x / y := rfl
private theorem ex_sqrt (x : ℝ) : Rounded.sqrt Rounding.exact x = Real.sqrt x := rfl

private theorem dcPoints_exact (ps : Segment ℝ) : Rounded.dcPoints Rounding.exact ps = Bezier.dcPoints ps := by
  induction ps using Bezier.dcPoints.induct with
  | case1 ps h ih =>
    rw [Rounded.dcPoints, Bezier.dcPoints, if_pos h, if_pos h]
    rw [show Rounded.dcStep Rounding.exact ps = Bezier.dcStep ps from rfl, ih]
  | case2 ps h => rw [Rounded.dcPoints, Bezier.dcPoints, if_neg h, if_neg h]

private theorem droots_exact (p : List ℝ) : Rounded.droots Rounding.exact p = butils.droots p := by
  unfold Rounded.droots butils.droots
  match p with
  | [] => rfl
  | [a] => rfl
  | [a, b] => rfl
  | [a, b, c] =>
    by_cases hx : b * b - a * c < 0 <;> by_cases hd : a - 2 * b + c = 0 <;>
      simp [ex_add, ex_sub, ex_mul, ex_div, ex_sqrt, butils.sqrt, hx, hd]
  | a :: b :: c :: d :: l => rfl

theorem extrema_exact (ps : Segment ℝ) : Rounded.extrema Rounding.exact ps = Bezier.extrema ps := by
  unfold Rounded.extrema Bezier.extrema extremaOf
  have : ∀ d, Rounded.extremaDim Rounding.exact (order ps) (Rounded.dcPoints Rounding.exact ps) d =
      Bezier.extremaDim (order ps) (Bezier.dcPoints ps) d := by
    intro d
    unfold Rounded.extremaDim Bezier.extremaDim
    rw [dcPoints_exact]
    simp only [droots_exact]
  rw [this, this]

private theorem splitPiece_exact (b : Bezier) (hb : QuadOrCubic b) (t1 t2 : ℝ) :
    Rounded.splitPiece Rounding.exact b.controlPoints t1 t2 = (Bezier.splitPiece b t1 t2).map (·.controlPoints) := by
  unfold Rounded.splitPiece Bezier.splitPiece Bezier.split
  obtain ⟨l1, r1, h1, hl1, hr1, -⟩ := split1_spec b hb t1
  obtain ⟨l2, r2, h2, hl2, hr2, -⟩ := split1_spec b hb t2
  rw [(C83_exact b.controlPoints t1).2 b _ _ _ rfl h1, (C83_exact b.controlPoints t2).2 b _ _ _ rfl h2]
  simp only [h1, h2, ok_bind, pure_eq_ok]
  by_cases c1 : t1 = 0 ∧ t2 ≠ 0
  · simp only [if_pos c1]; rfl
  · simp only [if_neg c1]
    by_cases c2 : t2 = 1
    · simp only [if_pos c2]; rfl
    · simp only [if_neg c2]
      by_cases c3 : t2 = 0
      · simp only [if_pos c3]; rfl
      · simp only [if_neg c3]
        rw [show Rounded.map Rounding.exact t2 t1 1 0 1 = butils.map t2 t1 1 0 1 from rfl]
        cases butils.map t2 t1 1 0 1 with
        | error e => rfl
        | ok t =>
          have hq : QuadOrCubic r1 := by
            unfold QuadOrCubic at hb ⊢; rw [hr1]; exact hb
          obtain ⟨l3, r3, h3, -⟩ := split1_spec r1 hq t
          simp only [ok_bind, (C83_exact r1.controlPoints t).2 r1 _ _ _ rfl h3, h3]
          rfl

private theorem pass1_exact (b : Bezier) (hb : QuadOrCubic b) (t1 : ℝ) (rest : List ℝ) :
    Rounded.reducePass1 Rounding.exact b.controlPoints t1 rest =
      (Bezier.reducePass1 b t1 rest).map (List.map (·.controlPoints)) := by
  induction rest generalizing t1 with
  | nil => rfl
  | cons t2 rest ih =>
    rw [Rounded.reducePass1, Bezier.reducePass1, splitPiece_exact b hb, ih]
    cases Bezier.splitPiece b t1 t2 with
    | error e => rfl
    | ok s => cases Bezier.reducePass1 b t2 rest <;> rfl

private theorem map_ok (v a b : ℝ) : ∃ x, butils.map v 0 1 a b = .ok x := by
  unfold butils.map
  simp only [pdiv_of_ne _ (show (1:ℝ) - 0 ≠ 0 by norm_num), ok_bind, pure_eq_ok]
  exact ⟨_, rfl⟩

private theorem reduceLoop_exact (p1 : Bezier) (hb : QuadOrCubic p1) (t1 t2 : ℝ) (h : t1 < t2) :
    ∃ n, ∀ fuel ≥ n, Rounded.reduceLoop Rounding.exact fuel p1.controlPoints t1 t2 =
      some ((Bezier.reduceLoop p1 t1 t2 h).map (Option.map fun r => (r.1.map (·.controlPoints), r.2))) := by
  induction t1, t2, h using Bezier.reduceLoop.induct with
  | case1 t1 t2 h h2 ih2 ih1 =>
    have e : (do Rounded.simple Rounding.exact (← Rounded.splitPiece Rounding.exact p1.controlPoints t1 t2) : Py Bool) =
        (do Bezier.simple (← Bezier.splitPiece p1 t1 t2).controlPoints) := by
      rw [splitPiece_exact p1 hb]
      cases Bezier.splitPiece p1 t1 t2 with
      | error e => rfl
      | ok s => exact (C89_exact _ 0).2.2
    have st : Rounded.step Rounding.exact = Bezier.step := rfl
    obtain ⟨n1, hn1⟩ := ih1
    have start : ∀ fuel, Rounded.reduceLoop Rounding.exact (fuel + 1) p1.controlPoints t1 t2 =
        match (do Bezier.simple (← Bezier.splitPiece p1 t1 t2).controlPoints : Py Bool) with
        | .error e => some (.error e)
        | .ok true => Rounded.reduceLoop Rounding.exact fuel p1.controlPoints t1 (t2 + Bezier.step)
        | .ok false =>
          if |t1 - (t2 - Bezier.step)| < Bezier.step then some (.ok none)
          else
            match Rounded.splitPiece Rounding.exact p1.controlPoints t1 (t2 - Bezier.step) with
            | .error e => some (.error e)
            | .ok segment =>
              match Rounded.reduceLoop Rounding.exact fuel p1.controlPoints (t2 - Bezier.step) (t2 - Bezier.step + Bezier.step) with
              | none => none
              | some (.error e) => some (.error e)
              | some (.ok none) => some (.ok none)
              | some (.ok (some (ps, tEnd))) => some (.ok (some (segment :: ps, tEnd))) := by
      intro fuel
      rw [Rounded.reduceLoop, if_pos h2, e]
      rfl
    have start' : Bezier.reduceLoop p1 t1 t2 h =
        match (do Bezier.simple (← Bezier.splitPiece p1 t1 t2).controlPoints : Py Bool) with
        | .error e => .error e
        | .ok true => Bezier.reduceLoop p1 t1 (t2 + Bezier.step) (by unfold Bezier.step; linarith)
        | .ok false => if |t1 - (t2 - Bezier.step)| < Bezier.step then .ok none
          else do
            let segment ← Bezier.splitPiece p1 t1 (t2 - Bezier.step)
            let a ← butils.map t1 0 1 p1.t1 p1.t2
            let b ← butils.map (t2 - Bezier.step) 0 1 p1.t1 p1.t2
            match ← Bezier.reduceLoop p1 (t2 - Bezier.step) (t2 - Bezier.step + Bezier.step) (by unfold Bezier.step; linarith) with
            | none => return none
            | some (ps, tEnd) => return some ({ segment with t1 := a, t2 := b } :: ps, tEnd) := by
      rw [Bezier.reduceLoop, dif_pos h2]
      cases Bezier.splitPiece p1 t1 t2 with
      | error e => rfl
      | ok s =>
        simp only [ok_bind]
        cases Bezier.simple s.controlPoints with
        | error e => rfl
        | ok b => cases b <;> rfl
    cases hb' : (do Bezier.simple (← Bezier.splitPiece p1 t1 t2).controlPoints : Py Bool) with
    | error e =>
      refine ⟨1, fun fuel hf => ?_⟩
      obtain ⟨fuel, rfl⟩ : ∃ k, fuel = k + 1 := ⟨fuel - 1, by omega⟩
      rw [start, start', hb']
      rfl
    | ok b =>
      cases b with
      | true =>
        refine ⟨n1 + 1, fun fuel hf => ?_⟩
        obtain ⟨fuel, rfl⟩ : ∃ k, fuel = k + 1 := ⟨fuel - 1, by omega⟩
        rw [start, start', hb']
        exact hn1 fuel (by omega)
      | false =>
        by_cases hs : |t1 - (t2 - Bezier.step)| < Bezier.step
        · refine ⟨1, fun fuel hf => ?_⟩
          obtain ⟨fuel, rfl⟩ : ∃ k, fuel = k + 1 := ⟨fuel - 1, by omega⟩
          rw [start, start', hb']
          simp only [if_pos hs]
          rfl
        · obtain ⟨n2, hn2⟩ := ih2 hs
          refine ⟨n2 + 1, fun fuel hf => ?_⟩
          obtain ⟨fuel, rfl⟩ : ∃ k, fuel = k + 1 := ⟨fuel - 1, by omega⟩
          have hr := hn2 fuel (by omega)
          rw [start, start', hb']
          simp only [if_neg hs, splitPiece_exact p1 hb, hr]
          obtain ⟨x, hx⟩ := map_ok t1 p1.t1 p1.t2
          obtain ⟨y, hy⟩ := map_ok (t2 - Bezier.step) p1.t1 p1.t2
          simp only [hx, hy, ok_bind]
          cases Bezier.splitPiece p1 t1 (t2 - Bezier.step) with
          | error e => rfl
          | ok s =>
            simp only [ok_bind, Except.map]
            cases Bezier.reduceLoop p1 (t2 - Bezier.step) (t2 - Bezier.step + Bezier.step) (by unfold Bezier.step; linarith) with
            | error e => rfl
            | ok r => cases r <;> rfl
  | case2 t1 t2 h h2 =>
    refine ⟨1, fun fuel hf => ?_⟩
    obtain ⟨fuel, rfl⟩ : ∃ k, fuel = k + 1 := ⟨fuel - 1, by omega⟩
    rw [Rounded.reduceLoop, Bezier.reduceLoop, if_neg h2, dif_neg h2]
    rfl

private theorem pass2_exact (l : List Bezier) (hl : ∀ p ∈ l, QuadOrCubic p) :
    ∃ n, ∀ fuel ≥ n, Rounded.reducePass2 Rounding.exact fuel (l.map (·.controlPoints)) =
      some ((Bezier.reducePass2 l).map (Option.map (List.map (·.controlPoints)))) := by
  induction l with
  | nil => exact ⟨0, fun _ _ => rfl⟩
  | cons p1 rest ih =>
    obtain ⟨n, hn⟩ := ih (fun p hp => hl p (by simp [hp]))
    have hp1 : QuadOrCubic p1 := hl p1 (by simp)
    obtain ⟨m, hm⟩ := reduceLoop_exact p1 hp1 0 (0 + Bezier.step) (by unfold Bezier.step; norm_num)
    refine ⟨n + m, fun fuel hf => ?_⟩
    rw [List.map_cons, Rounded.reducePass2, Bezier.reducePass2, hn fuel (by omega),
      show Rounding.exact.add 0 (Rounded.step Rounding.exact) = 0 + Bezier.step from rfl, hm fuel (by omega)]
    cases Bezier.reduceLoop p1 0 (0 + Bezier.step) (by unfold Bezier.step; norm_num) with
    | error e => rfl
    | ok r =>
      cases r with
      | none => rfl
      | some r =>
        simp only [Except.map, Option.map_some, ok_bind]
        by_cases h1 : r.2 < 1
        · simp only [if_pos h1, splitPiece_exact p1 hp1]
          obtain ⟨x, hx⟩ := map_ok r.2 p1.t1 p1.t2
          simp only [hx]
          cases Bezier.splitPiece p1 r.2 1 with
          | error e => rfl
          | ok s =>
            simp only [Except.map, ok_bind, pure_eq_ok]
            cases Bezier.reducePass2 rest with
            | error e => rfl
            | ok q =>
              cases q with
              | none => rfl
              | some q => simp only [Option.map_some, ok_bind, Except.map, List.map_append, List.map_cons, List.map_nil]
        · simp only [if_neg h1, pure_eq_ok, ok_bind]
          cases Bezier.reducePass2 rest with
          | error e => rfl
          | ok q =>
            cases q with
            | none => rfl
            | some q => simp only [Option.map_some, ok_bind, Except.map, List.map_append, List.map_nil]

private theorem splitPiece_length (b : Bezier) (hb : QuadOrCubic b) (t1 t2 : ℝ) (p : Bezier)
    (h : Bezier.splitPiece b t1 t2 = .ok p) : p.controlPoints.length = b.controlPoints.length := by
  unfold Bezier.splitPiece Bezier.split at h
  obtain ⟨l1, r1, h1, hl1, hr1, -⟩ := split1_spec b hb t1
  obtain ⟨l2, r2, h2, hl2, hr2, -⟩ := split1_spec b hb t2
  simp only [h1, h2, ok_bind, pure_eq_ok] at h
  by_cases c1 : t1 = 0 ∧ t2 ≠ 0
  · simp only [if_pos c1, ok_bind, Except.ok.injEq] at h
    rw [← h, hl2]
  · simp only [if_neg c1] at h
    by_cases c2 : t2 = 1
    · simp only [if_pos c2, ok_bind, Except.ok.injEq] at h
      rw [← h, hr1]
    · simp only [if_neg c2] at h
      by_cases c3 : t2 = 0
      · simp only [if_pos c3, ok_bind] at h
        cases h
      · simp only [if_neg c3] at h
        cases hm : butils.map t2 t1 1 0 1 with
        | error e => rw [hm] at h; cases h
        | ok t =>
          have hq : QuadOrCubic r1 := by
            unfold QuadOrCubic at hb ⊢; rw [hr1]; exact hb
          obtain ⟨l3, r3, h3, hl3, -⟩ := split1_spec r1 hq t
          simp only [hm, ok_bind, h3, Except.ok.injEq] at h
          rw [← h, hl3, hr1]

private theorem pass1_quad (b : Bezier) (hb : QuadOrCubic b) (t1 : ℝ) (rest : List ℝ) (l : List Bezier)
    (h : Bezier.reducePass1 b t1 rest = .ok l) : ∀ p ∈ l, QuadOrCubic p := by
  induction rest generalizing t1 l with
  | nil => cases h; simp
  | cons t2 rest ih =>
    unfold Bezier.reducePass1 at h
    simp only [bind_eq_ok, pure_eq_ok, Except.ok.injEq] at h
    obtain ⟨s, hs, m, hm, rfl⟩ := h
    intro p hp
    rcases List.mem_cons.mp hp with rfl | hp
    · have := splitPiece_length b hb t1 t2 s hs
      unfold QuadOrCubic at hb ⊢
      rw [← this] at hb
      exact hb
    · exact ih t2 m hm p hp

/-- C90: without rounding, and with enough passes allowed, `reduce` returns the control points of the curves which the
exact model returns, or raises the same exception. -/
theorem C90_exact (b : Bezier) (hb : QuadOrCubic b) :
    ∃ n, ∀ fuel ≥ n, Rounded.reduce Rounding.exact fuel b.controlPoints =
      some ((Bezier.reduce b).map (List.map (·.controlPoints))) := by
  have e : Rounded.reduceFirst Rounding.exact b.controlPoints = (do
      match addEnds (← Bezier.extrema b.controlPoints).all with
      | [] => .error .indexError
      | t1 :: rest => Bezier.reducePass1 b t1 rest : Py (List Bezier)).map (List.map (·.controlPoints)) := by
    unfold Rounded.reduceFirst
    rw [extrema_exact]
    cases Bezier.extrema b.controlPoints with
    | error e => rfl
    | ok x =>
      simp only [ok_bind]
      cases addEnds x.all with
      | nil => rfl
      | cons t rest => exact pass1_exact b hb t rest
  have e' : Bezier.reduce b = (do
      let pass1 ← (do
        match addEnds (← Bezier.extrema b.controlPoints).all with
        | [] => .error .indexError
        | t1 :: rest => Bezier.reducePass1 b t1 rest : Py (List Bezier))
      match ← Bezier.reducePass2 pass1 with
      | none => return []
      | some pass2 => return pass2) := by
    unfold Bezier.reduce reduceWith
    cases Bezier.extrema b.controlPoints with
    | error e => rfl
    | ok x =>
      simp only [ok_bind]
      cases addEnds x.all with
      | nil => rfl
      | cons t rest => rfl
  unfold Rounded.reduce
  rw [e, e']
  generalize hp : (do
      match addEnds (← Bezier.extrema b.controlPoints).all with
      | [] => .error .indexError
      | t1 :: rest => Bezier.reducePass1 b t1 rest : Py (List Bezier)) = r
  cases r with
  | error e => exact ⟨0, fun _ _ => rfl⟩
  | ok pass1 =>
    have hq : ∀ p ∈ pass1, QuadOrCubic p := by
      simp only [bind_eq_ok] at hp
      obtain ⟨x, _, hx⟩ := hp
      cases ha : addEnds x.all with
      | nil => rw [ha] at hx; cases hx
      | cons t rest => rw [ha] at hx; exact pass1_quad b hb t rest pass1 hx
    obtain ⟨n, hn⟩ := pass2_exact pass1 hq
    refine ⟨n, fun fuel hf => ?_⟩
    simp only [Except.map, ok_bind, hn fuel hf]
    cases Bezier.reducePass2 pass1 with
    | error e => rfl
    | ok r => cases r <;> rfl

end exact

/-! ## The loop ends -/

section fuel
variable {R : Rounding}

private theorem reduceLoop_mono (n : ℕ) (p1 : Segment ℝ) (t1 t2 : ℝ) (r : Py (Option (List (Segment ℝ) × ℝ)))
    (h : Rounded.reduceLoop R n p1 t1 t2 = some r) : Rounded.reduceLoop R (n + 1) p1 t1 t2 = some r := by
  induction n generalizing t1 t2 r with
  | zero => cases h
  | succ n ih =>
    rw [Rounded.reduceLoop] at h ⊢
    by_cases h1 : t2 ≤ 1
    · rw [if_pos h1] at h ⊢
      cases hs : (do Rounded.simple R (← Rounded.splitPiece R p1 t1 t2) : Py Bool) with
      | error e => rw [hs] at h; exact h
      | ok s =>
        rw [hs] at h
        cases s with
        | true => exact ih _ _ _ h
        | false =>
          simp only at h ⊢
          by_cases h2 : |R.sub t1 (R.sub t2 (Rounded.step R))| < Rounded.step R
          · rw [if_pos h2] at h ⊢; exact h
          · rw [if_neg h2] at h ⊢
            cases hp : Rounded.splitPiece R p1 t1 (R.sub t2 (Rounded.step R)) with
            | error e => rw [hp] at h; exact h
            | ok p =>
              rw [hp] at h
              simp only at h ⊢
              cases hl : Rounded.reduceLoop R n p1 (R.sub t2 (Rounded.step R))
                  (R.add (R.sub t2 (Rounded.step R)) (Rounded.step R)) with
              | none => rw [hl] at h; cases h
              | some x => rw [hl] at h; rw [ih _ _ _ hl]; exact h
    · rw [if_neg h1] at h ⊢; exact h

private theorem pass2_mono (n : ℕ) (l : List (Segment ℝ)) (r : Py (Option (List (Segment ℝ))))
    (h : Rounded.reducePass2 R n l = some r) : Rounded.reducePass2 R (n + 1) l = some r := by
  induction l generalizing r with
  | nil => exact h
  | cons p1 l ih =>
    rw [Rounded.reducePass2] at h ⊢
    cases hl : Rounded.reduceLoop R n p1 0 (R.add 0 (Rounded.step R)) with
    | none => rw [hl] at h; cases h
    | some x =>
      rw [hl] at h
      rw [reduceLoop_mono n p1 _ _ _ hl]
      match x, h with
      | .error e, h => exact h
      | .ok none, h => exact h
      | .ok (some (ps, t1)), h =>
        simp only at h ⊢
        cases hq : (if t1 < 1 then do return [← Rounded.splitPiece R p1 t1 1] else return [] : Py (List (Segment ℝ))) with
        | error e => rw [hq] at h; exact h
        | ok last =>
          rw [hq] at h
          simp only at h ⊢
          cases hm : Rounded.reducePass2 R n l with
          | none => rw [hm] at h; cases h
          | some y => rw [hm] at h; rw [ih _ hm]; exact h

/-- C90: the number of passes allowed makes no difference once it is enough. -/
theorem C90_fuel (ps : Segment ℝ) (n m : ℕ) (h : n ≤ m) (r : Py (List (Segment ℝ)))
    (hr : Rounded.reduce R n ps = some r) : Rounded.reduce R m ps = some r := by
  induction m, h using Nat.le_induction with
  | base => exact hr
  | succ m _ ih =>
    unfold Rounded.reduce at ih ⊢
    cases hf : Rounded.reduceFirst R ps with
    | error e => rw [hf] at ih; exact ih
    | ok l =>
      rw [hf] at ih
      simp only at ih ⊢
      cases hm : Rounded.reducePass2 R m l with
      | none => rw [hm] at ih; cases ih
      | some y => rw [hm] at ih; rw [pass2_mono m l y hm]; exact ih

variable (hu : R.u ≤ 1 / 10000)
include hu

private theorem near (x : ℝ) (h : |x| ≤ 2) : |R.rnd x - x| ≤ 2 / 10000 := by
  refine (R.error x).trans ?_
  have := abs_nonneg x
  nlinarith [R.u_nonneg]

private theorem step_near : |Rounded.step R - 1 / 100| ≤ 1 / 1000000 := by
  refine (R.error _).trans ?_
  rw [abs_of_nonneg (by norm_num)]
  linarith

private theorem loop_ends (n : ℕ) (p1 : Segment ℝ) (t1 t2 : ℝ) (h0 : 0 ≤ t1) (h1 : t1 + 1 / 200 ≤ t2)
    (hn : 2 - (t1 + t2) < 8 / 1000 * n) : Rounded.reduceLoop R (n + 1) p1 t1 t2 ≠ none := by
  have hs := abs_le.mp (step_near hu)
  induction n generalizing t1 t2 with
  | zero =>
    rw [Rounded.reduceLoop, if_neg]
    · simp
    · simp only [Nat.cast_zero, mul_zero] at hn
      linarith
  | succ n ih =>
    rw [Rounded.reduceLoop]
    push_cast at hn
    by_cases h2 : t2 ≤ 1
    · rw [if_pos h2]
      cases (do Rounded.simple R (← Rounded.splitPiece R p1 t1 t2) : Py Bool) with
      | error e => simp
      | ok s =>
        cases s with
        | true =>
          have := abs_le.mp (near hu (t2 + Rounded.step R) (by rw [abs_of_nonneg] <;> linarith))
          have e : R.add t2 (Rounded.step R) = R.rnd (t2 + Rounded.step R) := rfl
          refine ih t1 _ h0 ?_ ?_ <;> rw [e] <;> linarith
        | false =>
          simp only
          have a := abs_le.mp (near hu (t2 - Rounded.step R) (by rw [abs_le]; constructor <;> linarith))
          have ea : R.sub t2 (Rounded.step R) = R.rnd (t2 - Rounded.step R) := rfl
          rw [← ea] at a
          generalize R.sub t2 (Rounded.step R) = t' at a
          by_cases h3 : |R.sub t1 t'| < Rounded.step R
          · rw [if_pos h3]; simp
          · rw [if_neg h3]
            cases Rounded.splitPiece R p1 t1 t' with
            | error e => simp
            | ok p =>
              simp only
              have b := abs_le.mp (near hu (t1 - t') (by rw [abs_le]; constructor <;> linarith))
              have eb : R.sub t1 t' = R.rnd (t1 - t') := rfl
              rw [← eb] at b
              have c := abs_le.mp (near hu (t' + Rounded.step R) (by rw [abs_le]; constructor <;> linarith))
              have ec : R.add t' (Rounded.step R) = R.rnd (t' + Rounded.step R) := rfl
              rw [← ec] at c
              have hlt : t1 + 9 / 1000 ≤ t' := by
                rcases le_abs.mp (not_lt.mp h3) with h | h <;> linarith
              have := ih t' (R.add t' (Rounded.step R)) (by linarith) (by linarith) (by linarith)
              cases hl : Rounded.reduceLoop R (n + 1) p1 t' (R.add t' (Rounded.step R)) with
              | none => exact absurd hl this
              | some x =>
                match x with
                | .error e => simp
                | .ok none => simp
                | .ok (some (ps, t)) => simp
    · rw [if_neg h2]; simp

private theorem pass2_ends (l : List (Segment ℝ)) : Rounded.reducePass2 R 251 l ≠ none := by
  have hs := abs_le.mp (step_near hu)
  induction l with
  | nil => simp [Rounded.reducePass2]
  | cons p1 l ih =>
    rw [Rounded.reducePass2]
    have h := loop_ends hu 250 p1 0 (R.add 0 (Rounded.step R)) le_rfl
    have e : R.add 0 (Rounded.step R) = R.rnd (0 + Rounded.step R) := rfl
    have a := abs_le.mp (near hu (0 + Rounded.step R) (by rw [abs_le]; constructor <;> linarith))
    rw [← e] at a
    have h := h (by linarith) (by norm_num; linarith)
    cases hl : Rounded.reduceLoop R 251 p1 0 (R.add 0 (Rounded.step R)) with
    | none => exact absurd hl h
    | some x =>
      match x with
      | .error e => simp
      | .ok none => simp
      | .ok (some (ps, t1)) =>
        simp only
        cases (if t1 < 1 then do return [← Rounded.splitPiece R p1 t1 1] else return [] : Py (List (Segment ℝ))) with
        | error e => simp
        | ok last =>
          simp only
          cases hm : Rounded.reducePass2 R 251 l with
          | none => exact absurd hm ih
          | some y =>
            match y with
            | .error e => simp
            | .ok none => simp
            | .ok (some y) => simp

/-- C90: `reduce` ends for every curve, with at most 251 passes of the inner loop for each piece of the first pass, if the rounding
is at least as good as to 13 bits. -/
theorem C90_terminates (ps : Segment ℝ) (n : ℕ) (hn : 251 ≤ n) : Rounded.reduce R n ps ≠ none := by
  have : Rounded.reduce R 251 ps ≠ none := by
    unfold Rounded.reduce
    cases Rounded.reduceFirst R ps with
    | error e => simp
    | ok l =>
      simp only
      have := pass2_ends hu l
      cases hm : Rounded.reducePass2 R 251 l with
      | none => exact absurd hm this
      | some y =>
        match y with
        | .error e => simp
        | .ok none => simp
        | .ok (some y) => simp
  cases h : Rounded.reduce R 251 ps with
  | none => exact absurd h this
  | some r => rw [C90_fuel ps 251 n hn r h]; simp

end fuel

/-- Python's `float` is such a rounding. -/
theorem C90_float : (binary 52).u ≤ 1 / 10000 := by
  have e : (binary 52).u = 2 ^ (-53 : ℤ) := rfl
  rw [e]; norm_num

/-! ## In floating point arithmetic -/

/-- C90: in Python's `float`, `reduce()` raises `ValueError` for the straight quadratic (0,0), (3,3), (6,6): the scalar product of two
equal unit normals is rounded to a number above 1. In exact arithmetic it returns pieces. -/
theorem C90_straight_counterexample (b : Bezier) (hb : b.controlPoints = [(0, 0), (3, 3), (6, 6)]) :
    (∀ fuel ≥ 3, Rounded.reduce (binary 52).toRounding fuel b.controlPoints = some (.error .valueError)) ∧
    (∃ r, Bezier.reduce b = .ok r ∧ r ≠ []) := by
  have hs : ([(0, 0), (3, 3), (6, 6)] : Segment ℝ) = Flt.seg [(0, 0), (3, 3), (6, 6)] := by
    simp [Flt.seg, Flt.pt]
  constructor
  · intro fuel hf
    refine C90_fuel _ 3 fuel hf _ ?_
    rw [hb, hs]
    refine (Flt.reduce_run 3 _ (by simp)).trans ?_
    have : Flt.reduce 3 [(0, 0), (3, 3), (6, 6)] = some (.error .valueError) := by decide +kernel
    rw [this]; rfl
  · have hc : ∀ t : ℝ, curve [(0, 0), (3, 3), ((6, 6) : Pt ℝ)] t = (6 * t, 6 * t) := by
      intro t
      rw [curve_three]
      refine Prod.ext ?_ ?_ <;> simp <;> ring
    refine C48_success b (by unfold QuadOrCubic; simp [hb]) ?_ ?_
    · rintro t - - ⟨h, -⟩
      rw [hb] at h
      simp only [hc] at h
      have h' : HasDerivAt (fun t : ℝ => 6 * t) (6 * 1) t := (hasDerivAt_id t).const_mul 6
      have := h.unique h'
      norm_num at this
    · rintro a e - hae - - ⟨qs, hl, hq, hn⟩
      rw [hb] at hl hq
      simp only [hc] at hq
      match qs, hl with
      | [p, q, r], _ =>
        simp only [curve_three] at hq
        have q0 := hq 0
        have q1 := hq 1
        have q2 := hq (1 / 2)
        simp only [Prod.ext_iff] at q0 q1 q2
        norm_num at q0 q1 q2
        obtain ⟨p0, p1⟩ := q0
        obtain ⟨r0, r1⟩ := q1
        obtain ⟨m0, m1⟩ := q2
        have l1 : legs [p, q, r] = ((3 * (e - a), 3 * (e - a)), (3 * (e - a), 3 * (e - a))) := by
          simp only [legs, vec]
          refine Prod.ext (Prod.ext ?_ ?_) (Prod.ext ?_ ?_) <;> simp only <;> linarith
        have hd : 0 < e - a := by linarith
        rw [C71_simple _ (by simp), l1, if_neg (by simp [SShaped]),
          if_neg (by simp only [Prod.ext_iff]; intro h; rcases h with h | h <;> linarith [h.1])] at hn
        simp only [Except.ok.injEq, decide_eq_false_iff_not, not_lt] at hn
        have := norm2_sq ((3 * (e - a), 3 * (e - a)) : Pt ℝ)
        simp only [dot] at hn
        nlinarith

/-- C90: in Python's `float` neighbouring pieces need not join: `split(0.4, 0.5)` of the arch (0,0), (1,2), (3,0) ends 2 to the power
-52 to the left of the point (1.25, 1) at which `split(0.5, 1)` starts. -/
theorem C90_joints_counterexample : ∃ p q : Segment ℝ,
    Rounded.splitPiece (binary 52).toRounding [(0, 0), (1, 2), (3, 0)] ((binary 52).rnd (4 / 10)) (1 / 2) = .ok p ∧
    Rounded.splitPiece (binary 52).toRounding [(0, 0), (1, 2), (3, 0)] (1 / 2) 1 = .ok q ∧
    p.getLast? = some (5 / 4 - 1 / 2 ^ 52, 1) ∧ q.head? = some (5 / 4, 1) := by
  have hs : ([(0, 0), (1, 2), (3, 0)] : Segment ℝ) = Flt.seg [(0, 0), (1, 2), (3, 0)] := by
    simp [Flt.seg, Flt.pt]
  have ht : (binary 52).rnd (4 / 10) = ((fl (4 / 10) : ℚ) : ℝ) := by
    rw [← float_rnd]; norm_num
  have k1 : (Flt.splitPiece [(0, 0), (1, 2), (3, 0)] (fl (4 / 10)) (1 / 2)).toOption.bind (fun (p : Segment ℚ) => p.getLast?) =
      some (5 / 4 - 1 / 2 ^ 52, 1) := by decide +kernel
  have k2 : (Flt.splitPiece [(0, 0), (1, 2), (3, 0)] (1 / 2) 1).toOption.bind (fun (p : Segment ℚ) => p.head?) =
      some (5 / 4, 1) := by decide +kernel
  cases h1 : Flt.splitPiece [(0, 0), (1, 2), (3, 0)] (fl (4 / 10)) (1 / 2) with
  | error e => rw [h1] at k1; cases k1
  | ok p =>
    cases h2 : Flt.splitPiece [(0, 0), (1, 2), (3, 0)] (1 / 2) 1 with
    | error e => rw [h2] at k2; cases k2
    | ok q =>
      rw [h1] at k1
      rw [h2] at k2
      simp only [Except.toOption, Option.bind_some] at k1 k2
      refine ⟨Flt.seg p, Flt.seg q, ?_, ?_, ?_, ?_⟩
      · have := Flt.splitPiece_run [(0, 0), (1, 2), (3, 0)] (fl (4 / 10)) (1 / 2) (by simp)
        rw [h1] at this
        rw [hs, ht]
        refine Eq.trans ?_ this
        norm_num [Flt.F]
      · have := Flt.splitPiece_run [(0, 0), (1, 2), (3, 0)] (1 / 2) 1 (by simp)
        rw [h2] at this
        rw [hs]
        refine Eq.trans ?_ this
        norm_num [Flt.F]
      · unfold Flt.seg
        rw [List.getLast?_map, k1]
        simp [Flt.pt]
      · unfold Flt.seg
        rw [List.head?_map, k2]
        simp [Flt.pt]

/-- `reduce` of a flat arch in `float` returns the arch itself. -/
example : Rounded.reduce (binary 52).toRounding 251 [(0, 0), (1, 1), (3, 1)] = some (.ok [[(0, 0), (1, 1), (3, 1)]]) := by
  have hs : ([(0, 0), (1, 1), (3, 1)] : Segment ℝ) = Flt.seg [(0, 0), (1, 1), (3, 1)] := by
    simp [Flt.seg, Flt.pt]
  rw [hs]
  refine (Flt.reduce_run 251 _ (by simp)).trans ?_
  have : Flt.reduce 251 [(0, 0), (1, 1), (3, 1)] = some (.ok [[(0, 0), (1, 1), (3, 1)]]) := by decide +kernel
  rw [this]; rfl

end PathLib
