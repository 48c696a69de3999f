import Verif.Lemmas.Double
import Verif.Props.RoundedBounds

/-!
# Underflow and overflow: C124
-/

set_option linter.unusedSectionVars false
set_option linter.unusedSimpArgs false

namespace PathLib

open Bezier Spec

/-- A double that is 0 or from 1e-14 to 1e30 in absolute value. -/
def Spec.Moderate (x : ℝ) : Prop := (binary 52).rnd x = x ∧ (x = 0 ∨ 1 / 10 ^ 14 ≤ |x| ∧ |x| ≤ 10 ^ 30)

/-- A double that is 0 or from 1e-24 to 1. -/
def Spec.ModerateParameter (t : ℝ) : Prop := (binary 52).rnd t = t ∧ (t = 0 ∨ 1 / 10 ^ 24 ≤ t ∧ t ≤ 1)

/-- Both coordinates are such. -/
def Spec.ModeratePt (p : Pt ℝ) : Prop := Moderate p.1 ∧ Moderate p.2

/-! ### Results that are related -/

/-- Both calls return, and the results are related, or both raise the same exception. -/
def PyRel {α β : Type} (r : α → β → Prop) : Py α → Py β → Prop
  | .ok a, .ok b => r a b
  | .error e, .error f => e = f
  | _, _ => False

section rel
variable {α β γ δ : Type} {r : α → β → Prop} {s : γ → δ → Prop}

theorem PyRel.bind {x : Py α} {y : Py β} {f : α → Py γ} {g : β → Py δ} (h : PyRel r x y) (hf : ∀ a b, r a b → PyRel s (f a) (g b)) :
    PyRel s (x >>= f) (y >>= g) := by
  cases x <;> cases y <;> first | exact h.elim | exact h | exact hf _ _ h

theorem PyRel.pure {a : α} {b : β} (h : r a b) : PyRel r (Pure.pure a : Py α) (Pure.pure b : Py β) := h

theorem PyRel.of_eq {x y : Py α} (h : x = y) : PyRel (fun a b => a = b) x y := by
  subst h
  cases x <;> rfl

theorem PyRel.imp {t : α → β → Prop} {x : Py α} {y : Py β} (h : PyRel r x y) (ht : ∀ a b, r a b → t a b) : PyRel t x y := by
  cases x <;> cases y <;> first | exact h.elim | exact h | exact ht _ _ h

theorem PyRel.eq {x y : Py α} (h : PyRel (fun a b => a = b) x y) : x = y := by
  cases x <;> cases y <;> first | exact h.elim | exact congrArg _ h

theorem PyRel.get {xs : List α} {ys : List β} (h : List.Forall₂ r xs ys) (i : Int) : PyRel r (pyGet xs i) (pyGet ys i) := by
  have key : ∀ j : ℕ, PyRel r (match xs[j]? with | some a => .ok a | none => .error .indexError)
      (match ys[j]? with | some a => .ok a | none => .error .indexError) := by
    intro j
    by_cases hj : j < xs.length
    · have hj' : j < ys.length := h.length_eq ▸ hj
      rw [List.getElem?_eq_getElem hj, List.getElem?_eq_getElem hj']
      exact h.get hj hj'
    · have hj' : ¬ j < ys.length := h.length_eq ▸ hj
      rw [List.getElem?_eq_none (not_lt.mp hj), List.getElem?_eq_none (not_lt.mp hj')]
      rfl
  unfold pyGet
  rw [h.length_eq]
  by_cases hn : (if i < 0 then i + (ys.length : Int) else i) < 0
  · simp only [hn, if_true]; rfl
  · simp only [hn, if_false]; exact key _

end rel

/-! ### Points and segments -/

/-- Both coordinates are safe. -/
def SafePt (e k : ℕ) (p q : Pt ℝ) : Prop := Safe e k p.1 q.1 ∧ Safe e k p.2 q.2

theorem SafePt.eq {e k : ℕ} {p q : Pt ℝ} (h : SafePt e k p q) : p = q := Prod.ext h.1.eq h.2.eq

theorem SafePt.mono {e f k l : ℕ} {p q : Pt ℝ} (h : SafePt e k p q) (he : e ≤ f) (hk : k ≤ l) : SafePt f l p q :=
  ⟨h.1.mono he hk, h.2.mono he hk⟩

/-- All points are safe. -/
def SafeSeg (e k : ℕ) (ps qs : Segment ℝ) : Prop := List.Forall₂ (SafePt e k) ps qs

theorem SafeSeg.mono {e f k l : ℕ} {ps qs : Segment ℝ} (h : SafeSeg e k ps qs) (he : e ≤ f) (hk : k ≤ l) : SafeSeg f l ps qs :=
  List.Forall₂.imp (fun _ _ h => h.mono he hk) h

theorem SafeSeg.eq {e k : ℕ} {ps qs : Segment ℝ} (h : SafeSeg e k ps qs) : ps = qs := by
  induction h with
  | nil => rfl
  | cons h _ ih => rw [h.eq, ih]

theorem SafeSeg.zipWith {e k f l : ℕ} {g g' : Pt ℝ → Pt ℝ → Pt ℝ}
    (hg : ∀ a a' b b', SafePt e k a a' → SafePt e k b b' → SafePt f l (g a b) (g' a' b'))
    {ps ps' qs qs' : Segment ℝ} (h : SafeSeg e k ps ps') (h' : SafeSeg e k qs qs') :
    SafeSeg f l (List.zipWith g ps qs) (List.zipWith g' ps' qs') := by
  induction h generalizing qs qs' with
  | nil => exact .nil
  | cons h1 _ ih =>
    cases h' with
    | nil => exact .nil
    | cons h2 h3 => exact .cons (hg _ _ _ _ h1 h2) (ih h3)

theorem SafeSeg.tail {e k : ℕ} {ps qs : Segment ℝ} (h : SafeSeg e k ps qs) : SafeSeg e k ps.tail qs.tail := by
  cases h with
  | nil => exact .nil
  | cons _ h => exact h

section functions
variable {c : ℝ}

private theorem safe_one : Safe 0 0 (1:ℝ) 1 := by simpa using Safe.int 1 (k := 0) (by norm_num)
private theorem safe_two : Safe 0 1 (2:ℝ) 2 := by simpa using Safe.int 2 (k := 1) (by norm_num)
private theorem safe_three : Safe 0 2 (3:ℝ) 3 := by simpa using Safe.int 3 (k := 2) (by norm_num)
private theorem safe_zero (e k : ℕ) : Safe e k (0:ℝ) 0 := ⟨rfl, ⟨0, by simp⟩, by simp⟩
private theorem safePt_zero (e k : ℕ) : SafePt e k (0, 0) (0, 0) := ⟨safe_zero e k, safe_zero e k⟩

/-- Weighted sum of three. -/
private theorem sum3_safe {f l e k : ℕ} {w0 w1 w2 v0 v1 v2 x0 x1 x2 y0 y1 y2 : ℝ} (he : f + e ≤ 1074) (hk : l + k + 2 ≤ 1023)
    (a0 : Safe f l w0 v0) (a1 : Safe f l w1 v1) (a2 : Safe f l w2 v2) (h0 : Safe e k x0 y0) (h1 : Safe e k x1 y1) (h2 : Safe e k x2 y2) :
    Safe (f + e) (l + k + 2)
      ((double c).add ((double c).add ((double c).mul w0 x0) ((double c).mul w1 x1)) ((double c).mul w2 x2))
      ((binary 52).add ((binary 52).add ((binary 52).mul v0 y0) ((binary 52).mul v1 y1)) ((binary 52).mul v2 y2)) := by
  have m0 := a0.mul (c := c) h0 he (by omega)
  have m1 := a1.mul (c := c) h1 he (by omega)
  have m2 := (a2.mul (c := c) h2 he (by omega)).mono (le_refl (f + e)) (show l + k ≤ l + k + 1 by omega)
  exact (m0.add m1 he (by omega)).add m2 he (by omega)

variable {b j e k : ℕ} {t : ℝ}

private theorem mt_safe (ht : Safe b j t t) (hb : b ≤ 1074) (hj : j + 1 ≤ 1023) :
    Safe b (j + 1) ((double c).sub 1 t) ((binary 52).sub 1 t) := (safe_one.mono (by omega) (by omega)).sub ht hb hj

/-- `get` -/
theorem get_rel {ps qs : Segment ℝ} (h : SafeSeg e k ps qs) (h4 : ps.length ≤ 4) (ht : Safe b j t t) (he : 3 * b + e ≤ 1074)
    (hk : 3 * j + k + 10 ≤ 1023) :
    PyRel (SafePt (3 * b + e) (3 * j + k + 8)) (Rounded.get (double c) ps t) (Rounded.get (binary 52).toRounding qs t) := by
  have ho : order ps = order qs := by unfold order; rw [h.length_eq]
  have ho4 : order ps < 4 := by unfold order; omega
  have mt := mt_safe (c := c) ht (by omega) (by omega)
  unfold Rounded.get
  rw [← ho]
  have wide : ∀ p q, SafePt e k p q → SafePt (3 * b + e) (3 * j + k + 8) p q := fun p q h => h.mono (by omega) (by omega)
  by_cases h0 : t = 0
  · rw [if_pos h0, if_pos h0]; exact (PyRel.get h _).imp wide
  rw [if_neg h0, if_neg h0]
  by_cases h1 : t = 1
  · rw [if_pos h1, if_pos h1]; exact (PyRel.get h _).imp wide
  rw [if_neg h1, if_neg h1]
  simp only
  by_cases h2 : order ps = 0
  · rw [if_pos h2, if_pos h2]; exact (PyRel.get h _).imp wide
  rw [if_neg h2, if_neg h2]
  by_cases h3 : order ps = 1
  · rw [if_pos h3, if_pos h3]
    refine (PyRel.get h 0).bind fun p0 q0 s0 => (PyRel.get h 1).bind fun p1 q1 s1 => PyRel.pure ?_
    have term : ∀ x0 y0 x1 y1, Safe e k x0 y0 → Safe e k x1 y1 → Safe (3 * b + e) (3 * j + k + 8)
        ((double c).add ((double c).mul ((double c).sub 1 t) x0) ((double c).mul t x1))
        ((binary 52).add ((binary 52).mul ((binary 52).sub 1 t) y0) ((binary 52).mul t y1)) := by
      intro x0 y0 x1 y1 a0 a1
      have m0 := mt.mul (c := c) a0 (by omega) (by omega)
      have m1 := (ht.mul (c := c) a1 (by omega) (by omega)).mono (le_refl (b + e)) (show j + k ≤ j + 1 + k by omega)
      exact (m0.add m1 (by omega) (by omega)).mono (by omega) (by omega)
    exact ⟨term _ _ _ _ s0.1 s1.1, term _ _ _ _ s0.2 s1.2⟩
  · rw [if_neg h3, if_neg h3, if_pos ho4, if_pos ho4]
    have m2 := mt.mul (c := c) mt (by omega) (by omega)
    have t2 := ht.mul (c := c) ht (by omega) (by omega)
    let r : (Segment ℝ × ℝ × ℝ × ℝ × ℝ) → (Segment ℝ × ℝ × ℝ × ℝ × ℝ) → Prop := fun x y =>
      SafeSeg e k x.1 y.1 ∧ Safe (3 * b) (3 * j + 5) x.2.1 y.2.1 ∧ Safe (3 * b) (3 * j + 5) x.2.2.1 y.2.2.1 ∧
        Safe (3 * b) (3 * j + 5) x.2.2.2.1 y.2.2.2.1 ∧ Safe (3 * b) (3 * j + 5) x.2.2.2.2 y.2.2.2.2
    refine PyRel.bind (r := r) ?_ ?_
    · split_ifs
      · refine (PyRel.get h 0).bind fun p0 q0 s0 => (PyRel.get h 1).bind fun p1 q1 s1 => (PyRel.get h 2).bind fun p2 q2 s2 =>
          PyRel.pure ⟨.cons s0 (.cons s1 (.cons s2 (.cons (safePt_zero e k) .nil))), m2.mono (by omega) (by omega), ?_,
            t2.mono (by omega) (by omega), safe_zero _ _⟩
        exact ((mt.mul ht (by omega) (by omega)).mul safe_two (by omega) (by omega)).mono (by omega) (by omega)
      · refine PyRel.pure ⟨h, (m2.mul mt (by omega) (by omega)).mono (by omega) (by omega), ?_, ?_,
          (ht.mul t2 (by omega) (by omega)).mono (by omega) (by omega)⟩
        · exact ((m2.mul ht (by omega) (by omega)).mul safe_three (by omega) (by omega)).mono (by omega) (by omega)
        · exact ((mt.mul t2 (by omega) (by omega)).mul safe_three (by omega) (by omega)).mono (by omega) (by omega)
    · rintro ⟨p, w0, w1, w2, w3⟩ ⟨q, v0, v1, v2, v3⟩ ⟨hp, a0, a1, a2, a3⟩
      refine (PyRel.get hp 0).bind fun p0 q0 s0 => (PyRel.get hp 1).bind fun p1 q1 s1 => (PyRel.get hp 2).bind fun p2 q2 s2 =>
        (PyRel.get hp 3).bind fun p3 q3 s3 => PyRel.pure ?_
      have term : ∀ x0 y0 x1 y1 x2 y2 x3 y3, Safe e k x0 y0 → Safe e k x1 y1 → Safe e k x2 y2 → Safe e k x3 y3 →
          Safe (3 * b + e) (3 * j + k + 8)
          ((double c).add ((double c).add ((double c).add ((double c).mul w0 x0) ((double c).mul w1 x1)) ((double c).mul w2 x2))
            ((double c).mul w3 x3))
          ((binary 52).add ((binary 52).add ((binary 52).add ((binary 52).mul v0 y0) ((binary 52).mul v1 y1)) ((binary 52).mul v2 y2))
            ((binary 52).mul v3 y3)) := by
        intro x0 y0 x1 y1 x2 y2 x3 y3 h0 h1 h2 h3
        have s3 := sum3_safe (c := c) (by omega) (by omega) a0 a1 a2 h0 h1 h2
        have m3 := (a3.mul (c := c) h3 (by omega) (by omega)).mono (le_refl (3 * b + e)) (show 3 * j + 5 + k ≤ 3 * j + 5 + k + 2 by omega)
        exact (s3.add m3 (by omega) (by omega)).mono le_rfl (by omega)
      exact ⟨term _ _ _ _ _ _ _ _ s0.1 s1.1 s2.1 s3.1, term _ _ _ _ _ _ _ _ s0.2 s1.2 s2.2 s3.2⟩

/-! `hull` and `split` -/

private theorem lerp_safe (ht : Safe b j t t) (he : b + e ≤ 1074) (hk : j + k + 2 ≤ 1023) {p q p' q' : Pt ℝ}
    (h : SafePt e k p p') (h' : SafePt e k q q') :
    SafePt (b + e) (j + k + 2) (Rounded.lerp (double c) t p q) (Rounded.lerp (binary 52).toRounding t p' q') := by
  have term : ∀ x x' y y', Safe e k x x' → Safe e k y y' → Safe (b + e) (j + k + 2)
      ((double c).add x ((double c).mul t ((double c).sub y x))) ((binary 52).add x' ((binary 52).mul t ((binary 52).sub y' x'))) := by
    intro x x' y y' a a'
    have m := ht.mul (c := c) (a'.sub (c := c) a (by omega) (by omega)) (by omega) (by omega)
    exact ((a.mono (by omega) (by omega)).add m (by omega) (by omega))
  exact ⟨term _ _ _ _ h.1 h'.1, term _ _ _ _ h.2 h'.2⟩

private theorem hullLoop_safe (ht : Safe b j t t) (n : ℕ) {ps qs : Segment ℝ} (h : SafeSeg e k ps qs) (hn : ps.length ≤ n + 1)
    (he : n * b + e ≤ 1074) (hk : n * (j + 2) + k ≤ 1023) :
    SafeSeg (n * b + e) (n * (j + 2) + k) (Rounded.hullLoop (double c) t ps) (Rounded.hullLoop (binary 52).toRounding t qs) := by
  induction n generalizing e k ps qs with
  | zero =>
    rw [Rounded.hullLoop.eq_def (double c) t ps, Rounded.hullLoop.eq_def (binary 52).toRounding t qs, if_neg (by omega), if_neg (by rw [← h.length_eq]; omega)]
    exact .nil
  | succ n ih =>
    rw [Rounded.hullLoop.eq_def (double c) t ps, Rounded.hullLoop.eq_def (binary 52).toRounding t qs]
    by_cases h1 : ps.length > 1
    · rw [if_pos h1, if_pos (by rw [← h.length_eq]; exact h1)]
      have e1 : (n + 1) * b + e = n * b + (b + e) := by ring
      have e2 : (n + 1) * (j + 2) + k = n * (j + 2) + (j + k + 2) := by ring
      rw [e1] at he ⊢
      rw [e2] at hk ⊢
      have st : SafeSeg (b + e) (j + k + 2) (Rounded.hullStep (double c) t ps) (Rounded.hullStep (binary 52).toRounding t qs) :=
        SafeSeg.zipWith (fun _ _ _ _ ha hb => lerp_safe ht (le_trans (Nat.le_add_left _ _) he) (le_trans (Nat.le_add_left _ _) hk) ha hb) h h.tail
      refine List.rel_append (st.mono (Nat.le_add_left _ _) (Nat.le_add_left _ _)) (ih st ?_ he hk)
      rw [Rounded.hullStep_length]; omega
    · rw [if_neg h1, if_neg (by rw [← h.length_eq]; exact h1)]
      exact .nil

theorem hull_rel {ps qs : Segment ℝ} (h : SafeSeg e k ps qs) (h4 : ps.length ≤ 4) (ht : Safe b j t t) (he : 3 * b + e ≤ 1074)
    (hk : 3 * j + k + 6 ≤ 1023) :
    SafeSeg (3 * b + e) (3 * j + k + 6) (Rounded.hull (double c) ps t) (Rounded.hull (binary 52).toRounding qs t) := by
  unfold Rounded.hull
  refine List.rel_append (h.mono (by omega) (by omega)) ((hullLoop_safe ht 3 h h4 he (by omega)).mono le_rfl (by omega))

theorem split_rel {ps qs : Segment ℝ} (h : SafeSeg e k ps qs) (h4 : ps.length ≤ 4) (ht : Safe b j t t) (he : 3 * b + e ≤ 1074)
    (hk : 3 * j + k + 6 ≤ 1023) :
    PyRel (fun x y => (SafeSeg (3 * b + e) (3 * j + k + 6) x.1 y.1 ∧ x.1.length ≤ 4) ∧ SafeSeg (3 * b + e) (3 * j + k + 6) x.2 y.2 ∧ x.2.length ≤ 4)
      (Rounded.splitPoints (double c) ps t) (Rounded.splitPoints (binary 52).toRounding qs t) := by
  have hh := hull_rel (c := c) h h4 ht he hk
  have ho : order ps = order qs := by unfold order; rw [h.length_eq]
  unfold Rounded.splitPoints
  rw [← ho]
  simp only
  split_ifs
  · refine (PyRel.get hh _).bind fun _ _ s0 => (PyRel.get hh _).bind fun _ _ s1 => (PyRel.get hh _).bind fun _ _ s2 =>
      (PyRel.get hh _).bind fun _ _ s3 => (PyRel.get hh _).bind fun _ _ s4 => (PyRel.get hh _).bind fun _ _ s5 => PyRel.pure ?_
    exact ⟨⟨.cons s0 (.cons s1 (.cons s2 .nil)), by simp⟩, .cons s3 (.cons s4 (.cons s5 .nil)), by simp⟩
  · refine (PyRel.get hh _).bind fun _ _ s0 => (PyRel.get hh _).bind fun _ _ s1 => (PyRel.get hh _).bind fun _ _ s2 =>
      (PyRel.get hh _).bind fun _ _ s3 => (PyRel.get hh _).bind fun _ _ s4 => (PyRel.get hh _).bind fun _ _ s5 =>
      (PyRel.get hh _).bind fun _ _ s6 => (PyRel.get hh _).bind fun _ _ s7 => PyRel.pure ?_
    exact ⟨⟨.cons s0 (.cons s1 (.cons s2 (.cons s3 .nil))), by simp⟩, .cons s4 (.cons s5 (.cons s6 (.cons s7 .nil))), by simp⟩

theorem pdiv_rel {f l : ℕ} {x y x' y' : ℝ} (h : Safe e k x y) (h' : Safe f l x' y') (he : e + l ≤ 1022) (hk : k + f ≤ 1023) :
    PyRel (Safe (e + l + 53) (k + f)) (Rounded.pdiv (double c) x x') (Rounded.pdiv (binary 52).toRounding y y') := by
  unfold Rounded.pdiv
  have h0 := h'.eq
  by_cases hz : x' = 0
  · rw [if_pos hz, if_pos (by rw [← h0]; exact hz)]; rfl
  · rw [if_neg hz, if_neg (by rw [← h0]; exact hz)]
    exact h.div h' he hk

/-- `split(t1, t2)` -/
theorem piece_rel {ps qs : Segment ℝ} (h : SafeSeg e k ps qs) (h4 : ps.length ≤ 4) {t1 t2 : ℝ} (ht1 : Safe b 0 t1 t1) (ht2 : Safe b 0 t2 t2)
    (he : 6 * b + e + 162 ≤ 1074) (hk : 3 * b + k + 30 ≤ 1023) :
    PyRel (SafeSeg (6 * b + e + 162) (3 * b + k + 30)) (Rounded.splitPiece (double c) ps t1 t2)
      (Rounded.splitPiece (binary 52).toRounding qs t1 t2) := by
  unfold Rounded.splitPiece
  split_ifs
  · refine (split_rel h h4 ht2 (by omega) (by omega)).bind fun x y hx => PyRel.pure (hx.1.1.mono (by omega) (by omega))
  · refine (split_rel h h4 ht1 (by omega) (by omega)).bind fun x y hx => PyRel.pure (hx.2.1.mono (by omega) (by omega))
  · refine (split_rel h h4 ht1 (by omega) (by omega)).bind ?_
    rintro ⟨_, r⟩ ⟨_, r'⟩ ⟨_, hr, hr4⟩
    rfl
  · refine (split_rel h h4 ht1 (by omega) (by omega)).bind ?_
    rintro ⟨_, r⟩ ⟨_, r'⟩ ⟨_, hr, hr4⟩
    refine PyRel.bind (r := Safe (b + 54) (b + 3)) ?_ ?_
    · unfold Rounded.map
      have d1 := mt_safe (c := c) ht1 (by omega) (by omega)
      have d2 := (safe_one.sub (c := c) (safe_zero 0 0) (by omega) (by omega))
      have v2 := ht2.sub (c := c) ht1 (by omega) (by omega)
      refine (pdiv_rel v2 d1 (by omega) (by omega)).bind fun x y hx => PyRel.pure ?_
      have m := d2.mul (c := c) hx (by omega) (by omega)
      exact (((safe_zero _ _).add m (by omega) (by omega))).mono (by omega) (by omega)
    · intro s s' hs
      have := hs.eq; subst this
      refine (split_rel hr hr4 hs (by omega) (by omega)).bind fun x y hx => PyRel.pure (hx.1.1.mono (by omega) (by omega))

/-! `_derivative`, `normal` and `simple` -/

theorem dcStep_safe {ps qs : Segment ℝ} (h : SafeSeg e k ps qs) (h4 : ps.length ≤ 4) (he : e ≤ 1074) (hk : k + 3 ≤ 1023) :
    SafeSeg e (k + 3) (Rounded.dcStep (double c) ps) (Rounded.dcStep (binary 52).toRounding qs) := by
  have hn : Safe 0 2 (((ps.length - 1 : ℕ) : ℝ)) ((qs.length - 1 : ℕ) : ℝ) := by
    rw [← h.length_eq]
    have : (((ps.length - 1 : ℕ) : ℤ) : ℝ) = ((ps.length - 1 : ℕ) : ℝ) := by push_cast; rfl
    rw [← this]
    refine Safe.int _ ?_
    rw [this, abs_of_nonneg (Nat.cast_nonneg _)]
    have h3 : ps.length - 1 ≤ 3 := by omega
    have : ((ps.length - 1 : ℕ) : ℝ) ≤ 3 := by exact_mod_cast h3
    linarith
  have term : ∀ x x' y y', Safe e k x x' → Safe e k y y' → Safe e (k + 3)
      ((double c).mul ((ps.length - 1 : ℕ) : ℝ) ((double c).sub y x)) ((binary 52).mul ((qs.length - 1 : ℕ) : ℝ) ((binary 52).sub y' x')) := by
    intro x x' y y' a a'
    exact (hn.mul (a'.sub (c := c) a he (by omega)) (by omega) (by omega)).mono (by omega) (by omega)
  exact SafeSeg.zipWith (fun _ _ _ _ ha hb => ⟨term _ _ _ _ ha.1 hb.1, term _ _ _ _ ha.2 hb.2⟩) h h.tail

theorem derivative_rel {ps qs : Segment ℝ} (h : SafeSeg e k ps qs) (h4 : ps.length ≤ 4) (ht : Safe b j t t) (he : 2 * b + e ≤ 1074)
    (hk : 2 * j + k + 10 ≤ 1023) :
    PyRel (SafePt (2 * b + e) (2 * j + k + 8)) (Rounded.derivative (double c) ps t) (Rounded.derivative (binary 52).toRounding qs t) := by
  have ho : order ps = order qs := by unfold order; rw [h.length_eq]
  unfold Rounded.derivative Rounded.firstDerivative
  rw [← ho, ← h.length_eq]
  refine PyRel.bind (r := SafeSeg e (k + 3)) ?_ ?_
  · split_ifs
    · exact dcStep_safe h h4 (by omega) (by omega)
    · rfl
  · intro p q hp
    unfold Rounded.derivativeOf
    have mt := mt_safe (c := c) ht (by omega) (by omega)
    let r : (Segment ℝ × ℝ × ℝ × ℝ) → (Segment ℝ × ℝ × ℝ × ℝ) → Prop := fun x y =>
      SafeSeg e (k + 3) x.1 y.1 ∧ Safe (2 * b) (2 * j + 3) x.2.1 y.2.1 ∧ Safe (2 * b) (2 * j + 3) x.2.2.1 y.2.2.1 ∧
        Safe (2 * b) (2 * j + 3) x.2.2.2 y.2.2.2
    refine PyRel.bind (r := r) ?_ ?_
    · split_ifs
      · refine (PyRel.get hp 0).bind fun p0 q0 s0 => (PyRel.get hp 1).bind fun p1 q1 s1 =>
          PyRel.pure ⟨.cons s0 (.cons s1 (.cons (safePt_zero _ _) .nil)), mt.mono (by omega) (by omega), ht.mono (by omega) (by omega),
            safe_zero _ _⟩
      · refine PyRel.pure ⟨hp, (mt.mul mt (by omega) (by omega)).mono (by omega) (by omega), ?_,
          (ht.mul ht (by omega) (by omega)).mono (by omega) (by omega)⟩
        exact ((mt.mul ht (by omega) (by omega)).mul safe_two (by omega) (by omega)).mono (by omega) (by omega)
    · rintro ⟨p, w0, w1, w2⟩ ⟨q, v0, v1, v2⟩ ⟨hp, a0, a1, a2⟩
      refine (PyRel.get hp 0).bind fun p0 q0 s0 => (PyRel.get hp 1).bind fun p1 q1 s1 => (PyRel.get hp 2).bind fun p2 q2 s2 => PyRel.pure ?_
      exact ⟨(sum3_safe he (by omega) a0 a1 a2 s0.1 s1.1 s2.1).mono le_rfl (by omega),
        (sum3_safe he (by omega) a0 a1 a2 s0.2 s1.2 s2.2).mono le_rfl (by omega)⟩

theorem normal_rel' {ps qs : Segment ℝ} (h : SafeSeg e k ps qs) (h4 : ps.length ≤ 4) (ht : Safe b j t t)
    (he : 2 * (2 * b + e) ≤ 1022) (hk : 2 * (2 * j + k + 20) ≤ 1023) (hm : 2 * b + e + 2 * j + k + 70 ≤ 1022) :
    PyRel (SafePt (2 * b + e + (2 * j + k + 9) + 53) (2 * j + k + 8 + (2 * b + e + 53))) (Rounded.normal (double c) ps t)
      (Rounded.normal (binary 52).toRounding qs t) := by
  unfold Rounded.normal
  refine (derivative_rel h h4 ht (by omega) (by omega)).bind fun d d' hd => ?_
  have hs := ((hd.1.mul (c := c) hd.1 (by omega) (by omega)).add (c := c) (hd.2.mul (c := c) hd.2 (by omega) (by omega)) (by omega) (by omega)).mono
    (show _ ≤ 2 * (2 * b + e) by omega) (show _ ≤ 2 * (2 * j + k + 9) by omega)
  have hq := hs.sqrt (c := c) (by omega) (by omega)
  refine (pdiv_rel hd.2.neg hq (by omega) (by omega)).bind fun x x' hx => (pdiv_rel hd.1 hq (by omega) (by omega)).bind fun y y' hy => ?_
  exact PyRel.pure ⟨hx, hy⟩

private theorem angle_eq {p0 p1 p2 q0 q1 q2 : Pt ℝ} (h0 : SafePt e k p0 q0) (h1 : SafePt e k p1 q1) (h2 : SafePt e k p2 q2) (he : 2 * e ≤ 1074)
    (hk : 2 * k + 10 ≤ 1023) : Rounded.angle (double c) p0 p1 p2 = Rounded.angle (binary 52).toRounding q0 q1 q2 := by
  unfold Rounded.angle
  have dx1 := h1.1.sub (c := c) h0.1 (by omega) (by omega)
  have dy1 := h1.2.sub (c := c) h0.2 (by omega) (by omega)
  have dx2 := h2.1.sub (c := c) h0.1 (by omega) (by omega)
  have dy2 := h2.2.sub (c := c) h0.2 (by omega) (by omega)
  have cr := ((dx1.mul (c := c) dy2 (by omega) (by omega)).sub (c := c) (dy1.mul (c := c) dx2 (by omega) (by omega)) (by omega) (by omega)).eq
  have dt := ((dx1.mul (c := c) dx2 (by omega) (by omega)).add (c := c) (dy1.mul (c := c) dy2 (by omega) (by omega)) (by omega) (by omega)).eq
  simp only
  rw [cr, dt]

theorem simple_eq {ps qs : Segment ℝ} (h : SafeSeg e k ps qs) (h4 : ps.length ≤ 4) (hm : e + k ≤ 300) :
    Rounded.simple (double c) ps = Rounded.simple (binary 52).toRounding qs := by
  have ho : order ps = order qs := by unfold order; rw [h.length_eq]
  have n0 := normal_rel' (c := c) h h4 (safe_zero 0 0) (by omega) (by omega) (by omega)
  have n1 := normal_rel' (c := c) h h4 safe_one (by omega) (by omega) (by omega)
  apply PyRel.eq
  unfold Rounded.simple
  rw [← ho]
  refine PyRel.bind (r := fun a b => a = b) ?_ ?_
  · split_ifs
    · refine (PyRel.get h 0).bind fun p0 q0 s0 => (PyRel.get h 3).bind fun p3 q3 s3 => (PyRel.get h 1).bind fun p1 q1 s1 => ?_
      simp only
      rw [angle_eq s0 s3 s1 (by omega) (by omega)]
      refine (PyRel.get h 0).bind fun p0 q0 s0 => (PyRel.get h 3).bind fun p3 q3 s3 => (PyRel.get h 2).bind fun p1 q1 s1 => ?_
      rw [angle_eq s0 s3 s1 (by omega) (by omega)]
      exact PyRel.pure rfl
    · exact PyRel.pure rfl
  · rintro x y rfl
    split_ifs
    · exact PyRel.pure rfl
    · refine n0.bind fun a a' ha => n1.bind fun d d' hd => ?_
      have := ((ha.1.mul (c := c) hd.1 (by omega) (by omega)).add (c := c) (ha.2.mul (c := c) hd.2 (by omega) (by omega)) (by omega) (by omega)).eq
      simp only
      rw [this]
      cases acos ((binary 52).add ((binary 52).mul a'.1 d'.1) ((binary 52).mul a'.2 d'.2)) <;> rfl

/-! `droots`, `extrema` and `bbox` -/

private theorem droots_eq (p : List ℝ) (h : ∀ x ∈ p, Safe e k x x) (hm : e + k ≤ 400) :
    Rounded.droots (double c) p = Rounded.droots (binary 52).toRounding p ∧
      ∀ v, some v ∈ Rounded.droots (double c) p → Multiple (e + k + 109) v := by
  match p, h with
  | [], _ => simp [Rounded.droots]
  | [_], _ => simp [Rounded.droots]
  | [x, y], h =>
    have hx := h x (by simp)
    have hy := h y (by simp)
    have d := hx.sub (c := c) hy (by omega) (by omega)
    unfold Rounded.droots
    simp only
    by_cases hxy : x ≠ y
    · have q := (hx.div (c := c) d (by omega) (by omega)).mono (show _ ≤ e + k + 109 by omega) le_rfl
      rw [if_pos hxy, if_pos hxy]
      refine ⟨by rw [q.eq], ?_⟩
      intro v hv
      simp only [List.mem_singleton, Option.some.injEq] at hv
      rw [hv]; exact q.multiple
    · rw [if_neg hxy, if_neg hxy]; simp
  | [x, y, z], h =>
    have hx := h x (by simp)
    have hy := h y (by simp)
    have hz := h z (by simp)
    have y2 := (safe_two.mul (c := c) hy (by omega) (by omega)).mono (show _ ≤ e by omega) (show _ ≤ k + 1 by omega)
    have d := ((hx.mono (le_refl e) (show k ≤ k + 1 by omega)).sub (c := c) y2 (by omega) (by omega)).add (c := c)
      (hz.mono (le_refl e) (show k ≤ k + 1 + 1 by omega)) (by omega) (by omega)
    have rad := (((hy.mul (c := c) hy (by omega) (by omega)).sub (c := c) (hx.mul (c := c) hz (by omega) (by omega)) (by omega) (by omega))).mono
      (show _ ≤ 2 * e by omega) (show _ ≤ 2 * (k + 1) by omega)
    have m1 := (rad.sqrt (c := c) (by omega) (by omega)).neg
    have m2 := (hx.neg.add (c := c) hy (by omega) (by omega)).mono (show e ≤ e + 53 by omega) (le_refl (k + 1))
    unfold Rounded.droots
    simp only
    rw [d.eq]
    by_cases hd : (binary 52).add ((binary 52).sub x ((binary 52).mul 2 y)) z ≠ 0
    · rw [if_pos hd, if_pos hd, rad.eq]
      by_cases hr : (binary 52).sub ((binary 52).mul y y) ((binary 52).mul x z) < 0
      · simp [hr]
      · simp only [hr, if_false, Option.map_some]
        have v1 := ((m1.add (c := c) m2 (by omega) (by omega)).neg.div (c := c) d (by omega) (by omega)).mono (show _ ≤ e + k + 109 by omega) le_rfl
        have v2 := ((m1.neg.add (c := c) m2 (by omega) (by omega)).neg.div (c := c) d (by omega) (by omega)).mono (show _ ≤ e + k + 109 by omega) le_rfl
        rw [rad.eq, d.eq] at v1 v2
        refine ⟨?_, ?_⟩
        · simp only [List.cons.injEq, Option.some.injEq, and_true]
          exact ⟨v1.eq, v2.eq⟩
        · intro v hv
          simp only [List.mem_cons, Option.some.injEq, List.not_mem_nil, or_false] at hv
          rcases hv with hv | hv
          · rw [hv]; exact v1.multiple
          · rw [hv]; exact v2.multiple
    · rw [if_neg hd, if_neg hd]
      split_ifs
      · have v1 := ((y2.sub (c := c) (hz.mono (le_refl e) (show k ≤ k + 1 by omega)) (by omega) (by omega)).div (c := c)
          ((safe_two.mul (c := c) (hy.sub (c := c) hz (by omega) (by omega)) (by omega) (by omega))) (by omega) (by omega)).mono
          (show _ ≤ e + k + 109 by omega) le_rfl
        refine ⟨by rw [v1.eq], ?_⟩
        intro v hv
        simp only [List.mem_singleton, Option.some.injEq] at hv
        rw [hv]; exact v1.multiple
      · simp
  | _ :: _ :: _ :: _ :: _, _ => simp [Rounded.droots]

private theorem coord_safe {ps qs : Segment ℝ} (h : SafeSeg e k ps qs) (d : Fin 2) : ∀ x ∈ ps.map (coord d), Safe e k x x := by
  intro x hx
  obtain ⟨p, hp, rfl⟩ := List.mem_map.mp hx
  have := h.eq; subst this
  obtain ⟨i, hi, rfl⟩ := List.getElem_of_mem hp
  have hs := h.get hi hi
  unfold coord
  split_ifs
  · exact hs.1
  · exact hs.2

private theorem dcPoints_rel {ps qs : Segment ℝ} (h : SafeSeg e k ps qs) (h4 : ps.length ≤ 4) (i : Int) (hi : i = 0 ∨ i = 1) (he : e ≤ 1074)
    (hk : k + 10 ≤ 1023) :
    PyRel (SafeSeg e (k + 6)) (pyGet (Rounded.dcPoints (double c) ps) i) (pyGet (Rounded.dcPoints (binary 52).toRounding qs) i) := by
  rw [Rounded.dcPoints.eq_def (double c) ps, Rounded.dcPoints.eq_def (binary 52).toRounding qs, ← h.length_eq]
  by_cases h1 : ps.length > 1
  · rw [if_pos h1, if_pos h1]
    have s1 := dcStep_safe (c := c) h h4 he (by omega)
    rcases hi with rfl | rfl
    · exact s1.mono le_rfl (by omega)
    · rw [Rounded.dcPoints.eq_def (double c), Rounded.dcPoints.eq_def (binary 52).toRounding, ← s1.length_eq]
      by_cases h2 : (Rounded.dcStep (double c) ps).length > 1
      · rw [if_pos h2, if_pos h2]
        exact dcStep_safe s1 (by rw [Rounded.dcStep_length]; omega) he (by omega)
      · rw [if_neg h2, if_neg h2]; rfl
  · simp only [if_neg h1, pyGet_nil]; rfl

private theorem extremaDim_rel {ps qs : Segment ℝ} (h : SafeSeg e k ps qs) (h4 : ps.length ≤ 4) (d : Fin 2) (hm : e + k ≤ 390) :
    PyRel (fun x y => x = y ∧ ∀ t ∈ x, Safe (e + k + 115) 0 t t)
      (Rounded.extremaDim (double c) (order ps) (Rounded.dcPoints (double c) ps) d)
      (Rounded.extremaDim (binary 52).toRounding (order qs) (Rounded.dcPoints (binary 52).toRounding qs) d) := by
  have ho : order ps = order qs := by unfold order; rw [h.length_eq]
  unfold Rounded.extremaDim
  rw [← ho]
  refine (dcPoints_rel h h4 0 (.inl rfl) (by omega) (by omega)).bind fun p q hp => ?_
  have e1 := droots_eq (c := c) _ (coord_safe hp d) (by omega)
  refine PyRel.bind (r := fun x y => x = y ∧ ∀ v, some v ∈ x → Multiple (e + k + 115) v) ?_ ?_
  · split_ifs
    · refine (dcPoints_rel h h4 1 (.inr rfl) (by omega) (by omega)).bind fun p' q' hp' => PyRel.pure ?_
      have e2 := droots_eq (c := c) _ (coord_safe hp' d) (by omega)
      rw [← hp.eq, ← hp'.eq]
      refine ⟨by rw [e1.1, e2.1], ?_⟩
      intro v hv
      rcases List.mem_append.mp hv with hv | hv
      · exact (e1.2 v hv).mono (by omega)
      · exact (e2.2 v hv).mono (by omega)
    · refine PyRel.pure ?_
      rw [← hp.eq]
      exact ⟨e1.1, fun v hv => (e1.2 v hv).mono (by omega)⟩
  · rintro x y ⟨rfl, hx⟩
    refine PyRel.pure ⟨rfl, ?_⟩
    intro t ht
    obtain ⟨o, ho, hf⟩ := List.mem_filterMap.mp ht
    rw [Option.filter_eq_some_iff] at hf
    obtain ⟨rfl, h2⟩ := hf
    simp only [ge_iff_le, decide_eq_true_eq] at h2
    exact ⟨rfl, hx t ho, by rw [abs_of_nonneg h2.1]; simpa using h2.2⟩

theorem extrema_rel {ps qs : Segment ℝ} (h : SafeSeg e k ps qs) (h4 : ps.length ≤ 4) (hm : e + k ≤ 390) :
    PyRel (fun x y => x = y ∧ (∀ t ∈ x.x, Safe (e + k + 115) 0 t t) ∧ ∀ t ∈ x.y, Safe (e + k + 115) 0 t t)
      (Rounded.extrema (double c) ps) (Rounded.extrema (binary 52).toRounding qs) := by
  unfold Rounded.extrema
  refine (extremaDim_rel h h4 0 hm).bind fun x x' hx => (extremaDim_rel h h4 1 hm).bind fun y y' hy => PyRel.pure ?_
  obtain ⟨rfl, hx⟩ := hx
  obtain ⟨rfl, hy⟩ := hy
  exact ⟨rfl, hx, hy⟩

private theorem minmax_eq {ps : Segment ℝ} (h : SafeSeg e k ps ps) (h4 : ps.length ≤ 4) (d : Fin 2) (l : List ℝ) (hl : ∀ t ∈ l, Safe b 0 t t)
    (he : 3 * b + e ≤ 1074) (hk : k + 10 ≤ 1023) :
    Rounded.minmaxLoop (double c) ps d l = Rounded.minmaxLoop (binary 52).toRounding ps d l := by
  unfold Rounded.minmaxLoop
  generalize ((maxSafe, minSafe) : ℝ × ℝ) = acc
  induction l generalizing acc with
  | nil => rfl
  | cons t l ih =>
    have hg : Rounded.get (double c) ps t = Rounded.get (binary 52).toRounding ps t :=
      ((get_rel h h4 (hl t (by simp)) he (by omega)).imp fun _ _ h => h.eq).eq
    rw [List.foldlM_cons, List.foldlM_cons, hg]
    congr 1
    funext acc'
    exact ih (fun t ht => hl t (by simp [ht])) acc'

theorem bbox_eq {ps : Segment ℝ} (h : SafeSeg e k ps ps) (h4 : ps.length ≤ 4) (hm : 4 * e + 3 * k ≤ 729) :
    Rounded.bbox (double c) ps = Rounded.bbox (binary 52).toRounding ps := by
  apply PyRel.eq
  unfold Rounded.bbox
  refine (extrema_rel h h4 (by omega)).bind ?_
  rintro x _ ⟨rfl, hx, hy⟩
  have ends : ∀ l : List ℝ, (∀ t ∈ l, Safe (e + k + 115) 0 t t) → ∀ t ∈ addEnds l, Safe (e + k + 115) 0 t t := by
    intro l hl t ht
    rw [mem_addEnds] at ht
    rcases ht with rfl | rfl | ht
    · exact safe_zero _ _
    · exact safe_one.mono (by omega) le_rfl
    · exact hl t ht
  rw [minmax_eq (c := c) h h4 0 _ (ends _ hx) (by omega) (by omega), minmax_eq (c := c) h h4 1 _ (ends _ hy) (by omega) (by omega)]
  exact PyRel.of_eq rfl

end functions

/-! ### The statements -/

theorem safe_of_range {a k : ℕ} {x : ℝ} (h : (binary 52).rnd x = x) (hr : x = 0 ∨ (2:ℝ) ^ (-(a : ℤ)) ≤ |x| ∧ |x| ≤ 2 ^ k) :
    Safe (a + 53) k x x := by
  rcases hr with rfl | ⟨h0, h1⟩
  · exact safe_zero _ _
  · refine ⟨rfl, ?_, h1⟩
    rw [← h]
    exact multiple_round h0

theorem safe_moderate {x : ℝ} (h : Moderate x) : Safe 100 100 x x := by
  refine safe_of_range (a := 47) h.1 (h.2.imp id fun ⟨h0, h1⟩ => ⟨?_, ?_⟩)
  · exact le_trans (by norm_num) h0
  · exact h1.trans (by norm_num)

theorem safe_parameter {t : ℝ} (h : ModerateParameter t) : Safe 133 0 t t := by
  refine safe_of_range (a := 80) h.1 (h.2.imp id fun ⟨h0, h1⟩ => ?_)
  have : 0 ≤ t := le_trans (by positivity) h0
  rw [abs_of_nonneg this]
  refine ⟨le_trans ?_ h0, by simpa using h1⟩
  norm_num

private theorem seg_moderate {ps : Segment ℝ} (h : ∀ p ∈ ps, ModeratePt p) : SafeSeg 100 100 ps ps := by
  unfold SafeSeg
  rw [List.forall₂_same]
  exact fun p hp => ⟨safe_moderate (h p hp).1, safe_moderate (h p hp).2⟩

variable (c : ℝ) (ps : Segment ℝ) (h4 : ps.length ≤ 4) (hm : ∀ p ∈ ps, ModeratePt p)
include h4 hm

/-- C124: evaluating and splitting a curve of order at most 3 neither underflows nor overflows, for moderate coordinates and parameters:
`get`, `hull`, `split(t)` and `split(t1, t2)` return what they return with an unlimited exponent. -/
theorem C124_curve (t s : ℝ) (ht : ModerateParameter t) (hs : ModerateParameter s) :
    Rounded.get (double c) ps t = Rounded.get float ps t ∧
    Rounded.hull (double c) ps t = Rounded.hull float ps t ∧
    Rounded.splitPoints (double c) ps t = Rounded.splitPoints float ps t ∧
    Rounded.splitPiece (double c) ps t s = Rounded.splitPiece float ps t s := by
  have h := seg_moderate hm
  have st := safe_parameter ht
  refine ⟨((get_rel h h4 st (by norm_num) (by norm_num)).imp fun _ _ h => h.eq).eq, (hull_rel h h4 st (by norm_num) (by norm_num)).eq,
    ((split_rel h h4 st (by norm_num) (by norm_num)).imp fun _ _ h => Prod.ext h.1.1.eq h.2.1.eq).eq,
    ((piece_rel h h4 st (safe_parameter hs) (by norm_num) (by norm_num)).imp fun _ _ h => h.eq).eq⟩

/-- C124: nor do its derivative and its normals, and `simple`. -/
theorem C124_normal (t : ℝ) (ht : ModerateParameter t) :
    Rounded.derivative (double c) ps t = Rounded.derivative float ps t ∧
    Rounded.normal (double c) ps t = Rounded.normal float ps t ∧
    Rounded.simple (double c) ps = Rounded.simple float ps := by
  have h := seg_moderate hm
  have st := safe_parameter ht
  exact ⟨((derivative_rel h h4 st (by norm_num) (by norm_num)).imp fun _ _ h => h.eq).eq,
    ((normal_rel' h h4 st (by norm_num) (by norm_num) (by norm_num)).imp fun _ _ h => h.eq).eq, simple_eq h h4 (by norm_num)⟩

/-- C124: nor do its extrema, at whatever parameters they are, and its bounds. -/
theorem C124_bounds :
    Rounded.extrema (double c) ps = Rounded.extrema float ps ∧
    Rounded.bbox (double c) ps = Rounded.bbox float ps ∧
    Rounded.boundsRectangle (double c) ps = Rounded.boundsRectangle float ps := by
  have h := seg_moderate hm
  have hb : Rounded.bbox (double c) ps = Rounded.bbox float ps := bbox_eq h h4 (by norm_num)
  refine ⟨((extrema_rel h h4 (by norm_num)).imp fun _ _ h => h.1).eq, hb, ?_⟩
  unfold Rounded.boundsRectangle
  rw [hb]

omit h4 hm

/-- C124: nor does a transformation whose matrix is moderate, applied to a moderate point. -/
theorem C124_transform (T : Transform ℝ) (p : Pt ℝ) (hp : ModeratePt p) (hT : ∀ row ∈ T.transform, ∀ x ∈ row, Moderate x) :
    Rounded.applyToPoint (double c) T p = Rounded.applyToPoint float T p := by
  apply PyRel.eq
  unfold Rounded.applyToPoint
  refine PyRel.bind (r := List.Forall₂ (Safe 200 202)) ?_ ?_
  · unfold Rounded.multiplyRowByMatrix
    split
    · rename_i row mat r1 r2 r3 m11 m12 m13 m21 m22 m23 m31 m32 m33 e1 e2
      simp only [List.cons.injEq, and_true] at e1
      obtain ⟨rfl, rfl, rfl⟩ := e1
      rw [e2] at hT
      simp only [List.mem_cons, List.not_mem_nil, or_false, forall_eq_or_imp, forall_eq] at hT
      obtain ⟨⟨a1, a2, a3⟩, ⟨b1, b2, b3⟩, c1, c2, c3⟩ := hT
      have s1 := safe_moderate hp.1
      have s2 := safe_moderate hp.2
      have s3 : Safe 100 100 (1:ℝ) 1 := safe_one.mono (by norm_num) (by norm_num)
      exact .cons (sum3_safe (by norm_num) (by norm_num) s1 s2 s3 (safe_moderate a1) (safe_moderate b1) (safe_moderate c1))
        (.cons (sum3_safe (by norm_num) (by norm_num) s1 s2 s3 (safe_moderate a2) (safe_moderate b2) (safe_moderate c2))
        (.cons (sum3_safe (by norm_num) (by norm_num) s1 s2 s3 (safe_moderate a3) (safe_moderate b3) (safe_moderate c3)) .nil))
    · rfl
  · intro x y hx
    refine (PyRel.get hx 0).bind fun x0 y0 h0 => (PyRel.get hx 2).bind fun x2 y2 h2 =>
      (pdiv_rel h0 h2 (by norm_num) (by norm_num)).bind fun _ _ h3 => (PyRel.get hx 1).bind fun x1 y1 h1 => (PyRel.get hx 2).bind fun x4 y4 h4 =>
      (pdiv_rel h1 h4 (by norm_num) (by norm_num)).bind fun _ _ h5 => PyRel.pure ?_
    rw [h3.eq, h5.eq]

/-- C124: nor does the midpoint of a line, which is where `qCurveTo` puts the points on the curve. -/
theorem C124_midpoint (line : Segment ℝ) (hm : ∀ p ∈ line, ModeratePt p) :
    Rounded.midpoint (double c) line = Rounded.midpoint float line := by
  apply PyRel.eq
  have h : SafeSeg 100 100 line line := seg_moderate hm
  unfold Rounded.midpoint PathUtilities.endPoints
  simp only [bind_assoc, pure_bind]
  refine (PyRel.get h 0).bind fun p p' hp => (PyRel.get h (-1)).bind fun q q' hq => PyRel.pure ?_
  have d1 := ((hp.1.add (c := c) hq.1 (by norm_num) (by norm_num)).div (c := c) safe_two (by norm_num) (by norm_num)).eq
  have d2 := ((hp.2.add (c := c) hq.2 (by norm_num) (by norm_num)).div (c := c) safe_two (by norm_num) (by norm_num)).eq
  exact Prod.ext d1 d2

/-- Points of the design space of a font are moderate. -/
theorem C124_grid {p : Pt ℝ} (h : OnGrid p) : ModeratePt p := by
  obtain ⟨m, n, hm, hn, rfl⟩ := h
  have key : ∀ m : ℤ, |m| ≤ 32768 → Moderate (m : ℝ) := by
    intro m hm
    refine ⟨rnd_int m (hm.trans (by norm_num)), ?_⟩
    by_cases h0 : m = 0
    · left; exact_mod_cast h0
    · right
      have h1 : (1:ℝ) ≤ |(m : ℝ)| := by exact_mod_cast Int.one_le_abs h0
      have h2 : |(m : ℝ)| ≤ 32768 := by exact_mod_cast hm
      exact ⟨le_trans (by norm_num) h1, h2.trans (by norm_num)⟩
  exact ⟨key m hm, key n hn⟩

/-- C124: so the bound of the error of `get` holds with underflow and overflow, -/
theorem C124_get_error (ps : Segment ℝ) (h2 : 2 ≤ ps.length) (h4 : ps.length ≤ 4) (hm : ∀ p ∈ ps, ModeratePt p) (B : ℝ)
    (hB : ∀ p ∈ ps, |p.1| ≤ B ∧ |p.2| ≤ B) (t : ℝ) (ht : ModerateParameter t) :
    ∃ p q, Rounded.get (double c) ps t = .ok p ∧ Bezier.get ps t = .ok q ∧ Close (B / 10 ^ 15) p q := by
  rw [(C124_curve c ps h4 hm t t ht ht).1]
  have h01 : 0 ≤ t ∧ t ≤ 1 := by
    rcases ht.2 with rfl | ⟨h0, h1⟩
    · norm_num
    · exact ⟨le_trans (by positivity) h0, h1⟩
  exact C82_float ps h2 h4 B hB t h01.1 h01.2

/-- C124: and so does that of the bounds of a curve on the grid. -/
theorem C124_bbox_error (ps : Segment ℝ) (h2 : 2 ≤ ps.length) (h4 : ps.length ≤ 4) (hg : ∀ p ∈ ps, OnGrid p) :
    ∃ minX maxX minY maxY, Rounded.bbox (double c) ps = .ok ((minX, maxX), (minY, maxY)) ∧
      (∀ t, 0 ≤ t → t ≤ 1 → minX - 1 / 10 ^ 10 ≤ (curve ps t).1 ∧ (curve ps t).1 ≤ maxX + 1 / 10 ^ 10 ∧
          minY - 1 / 10 ^ 10 ≤ (curve ps t).2 ∧ (curve ps t).2 ≤ maxY + 1 / 10 ^ 10) ∧
      (∃ t, 0 ≤ t ∧ t ≤ 1 ∧ |minX - (curve ps t).1| ≤ 1 / 10 ^ 10) ∧ (∃ t, 0 ≤ t ∧ t ≤ 1 ∧ |maxX - (curve ps t).1| ≤ 1 / 10 ^ 10) ∧
      (∃ t, 0 ≤ t ∧ t ≤ 1 ∧ |minY - (curve ps t).2| ≤ 1 / 10 ^ 10) ∧ (∃ t, 0 ≤ t ∧ t ≤ 1 ∧ |maxY - (curve ps t).2| ≤ 1 / 10 ^ 10) := by
  obtain ⟨x0, x1, y0, y1, b, e, _, h, ⟨t1, a1, a2, a3, _⟩, ⟨t2, b1, b2, b3, _⟩, ⟨t3, c1, c2, c3, _⟩, t4, d1, d2, d3, _⟩ := C93_grid ps h2 h4 hg
  refine ⟨x0, x1, y0, y1, ?_, fun t h0 h1 => (h t h0 h1).1, ⟨t1, a1, a2, a3⟩, ⟨t2, b1, b2, b3⟩, ⟨t3, c1, c2, c3⟩, t4, d1, d2, d3⟩
  rw [(C124_bounds c ps h4 fun p hp => C124_grid (hg p hp)).2.1]
  exact e

/-- One third, as it is in Python, is a moderate parameter. -/
example : ModerateParameter (float.rnd (1 / 3)) := by
  refine ⟨(binary 52).idem _, .inr ?_⟩
  have h := float.error (1 / 3)
  have hu : float.u ≤ 1 / 2 := by
    show (2:ℝ) ^ (-((52 + 1 : ℕ) : ℤ)) ≤ 1 / 2
    norm_num
  rw [abs_of_pos (by norm_num : (0:ℝ) < 1 / 3), abs_le] at h
  have := mul_le_mul_of_nonneg_right hu (show (0:ℝ) ≤ 1 / 3 by norm_num)
  constructor
  · refine le_trans (b := 1 / 6) (by norm_num) ?_; linarith
  · linarith

/-- A cubic of a font at this parameter: all of it without underflow and overflow. -/
example (t : ℝ) (ht : ModerateParameter t) :
    Rounded.get (double c) [(0, 0), (100, 700), (400, 650), (500, -200)] t = Rounded.get float [(0, 0), (100, 700), (400, 650), (500, -200)] t ∧
    Rounded.bbox (double c) [(0, 0), (100, 700), (400, 650), (500, -200)] = Rounded.bbox float [(0, 0), (100, 700), (400, 650), (500, -200)] := by
  have hm : ∀ p ∈ ([(0, 0), (100, 700), (400, 650), (500, -200)] : Segment ℝ), ModeratePt p := by
    intro p hp
    simp only [List.mem_cons, List.not_mem_nil, or_false] at hp
    refine C124_grid ?_
    rcases hp with rfl | rfl | rfl | rfl
    · exact ⟨0, 0, by norm_num, by norm_num, by norm_num⟩
    · exact ⟨100, 700, by norm_num, by norm_num, by norm_num⟩
    · exact ⟨400, 650, by norm_num, by norm_num, by norm_num⟩
    · exact ⟨500, -200, by norm_num, by norm_num, by norm_num⟩
  exact ⟨(C124_curve c _ (by simp) hm t t ht ht).1, (C124_bounds c _ (by simp) hm).2.1⟩

/-! ### Beyond -/

private theorem float_power (k : ℤ) : float.rnd (2 ^ k) = 2 ^ k := roundBits_power k

private theorem double_power (k : ℤ) (h0 : -1074 ≤ k) (h1 : k ≤ 1023) : (double c).rnd (2 ^ k) = 2 ^ k := by
  have hm : Multiple 1074 ((2:ℝ) ^ k) := by simpa using multiple_of_le (e := 1074) (j := k) h0 1
  rw [double_rnd c (roundDouble_multiple hm ?_)]
  · exact float_power k
  · rw [abs_of_pos (by positivity)]
    exact zpow_le_zpow_right₀ (by norm_num) h1

private theorem double_tiny {x : ℝ} (h : |x| < 2 ^ (-1075 : ℤ)) : (double c).rnd x = 0 := by
  show (roundDouble x).getD _ = _
  rw [roundDouble_tiny h]; rfl

/-- C124: at a parameter as small as `2 ^ -600` the square of the parameter underflows, and the point is lost. -/
theorem C124_underflow_get :
    Rounded.get (double c) [(0, 0), (0, 0), (1, 0)] (2 ^ (-600 : ℤ)) = .ok (0, 0) ∧
    Rounded.get float [(0, 0), (0, 0), (1, 0)] (2 ^ (-600 : ℤ)) = .ok (2 ^ (-1200 : ℤ), 0) := by
  have h0 : (2:ℝ) ^ (-600 : ℤ) ≠ 0 := by positivity
  have h1 : (2:ℝ) ^ (-600 : ℤ) ≠ 1 := by
    have := zpow_lt_zpow_right₀ (a := (2:ℝ)) (by norm_num) (show (-600 : ℤ) < 0 by norm_num)
    rw [zpow_zero] at this
    exact this.ne
  have sq : (2:ℝ) ^ (-600 : ℤ) * 2 ^ (-600 : ℤ) = 2 ^ (-1200 : ℤ) := by rw [← zpow_add₀ (by norm_num)]; norm_num
  have value : ∀ R : Rounding, Rounded.get R [(0, 0), (0, 0), (1, 0)] (2 ^ (-600 : ℤ)) =
      .ok (R.rnd (R.rnd (R.rnd (R.rnd (2 ^ (-1200 : ℤ))))), 0) := by
    intro R
    generalize (2:ℝ) ^ (-600 : ℤ) = t at h0 h1 sq ⊢
    rw [← sq]
    unfold Rounded.get
    rw [if_neg h0, if_neg h1]
    simp [order, pyGet_zero_cons, pyGet_one_cons, pyGet_two_cons, pyGet_three_cons, Rounding.mul, Rounding.add, R.rnd_zero]
  have tiny : (double c).rnd (2 ^ (-1200 : ℤ)) = 0 := by
    refine double_tiny c ?_
    rw [abs_of_pos (by positivity)]
    exact zpow_lt_zpow_right₀ (by norm_num) (by norm_num)
  rw [value, value, float_power, float_power, float_power, float_power, tiny, Rounding.rnd_zero, Rounding.rnd_zero, Rounding.rnd_zero]
  exact ⟨rfl, rfl⟩

/-- C124: for a curve as small as `2 ^ -600` the square of the speed underflows, and `normal` raises an exception although the curve
has a normal there. -/
theorem C124_underflow_normal :
    Rounded.normal (double c) [(0, 0), (2 ^ (-600 : ℤ), 0), (0, 0)] 0 = .error .zeroDivisionError ∧
    Rounded.normal float [(0, 0), (2 ^ (-600 : ℤ), 0), (0, 0)] 0 = .ok (0, 1) := by
  have d0 : ∀ R : Rounding, R.rnd 1 = 1 → R.rnd (2 ^ (-600 : ℤ)) = 2 ^ (-600 : ℤ) → R.rnd (2 ^ (-599 : ℤ)) = 2 ^ (-599 : ℤ) →
      Rounded.derivative R [(0, 0), (2 ^ (-600 : ℤ), 0), (0, 0)] 0 = .ok (2 ^ (-599 : ℤ), 0) := by
    intro R r1 r2 r3
    have e : (2:ℝ) ^ (-599 : ℤ) = 2 * 2 ^ (-600 : ℤ) := by
      rw [show (-599 : ℤ) = 1 + -600 by norm_num, zpow_add₀ (by norm_num), zpow_one]
    generalize (2:ℝ) ^ (-600 : ℤ) = x at *
    rw [e] at r3 ⊢
    simp [Rounded.derivative, Rounded.firstDerivative, Rounded.derivativeOf, Rounded.dcStep, order, Rounding.mul, Rounding.add, Rounding.sub,
      R.rnd_zero, r1, r2, r3]
  have dp : ∀ k : ℤ, -1074 ≤ k → k ≤ 1023 → (double c).rnd (2 ^ k) = 2 ^ k := double_power c
  have sq : (2:ℝ) ^ (-599 : ℤ) * 2 ^ (-599 : ℤ) = 2 ^ (-1198 : ℤ) := by rw [← zpow_add₀ (by norm_num)]; norm_num
  have hs : Real.sqrt (2 ^ (-1198 : ℤ)) = 2 ^ (-599 : ℤ) := by rw [← sq, Real.sqrt_mul_self (by positivity)]
  have one : (double c).rnd 1 = 1 := by simpa using dp 0 (by norm_num) (by norm_num)
  have fone : float.rnd 1 = 1 := (binary 52).one
  have tiny : (double c).rnd (2 ^ (-1198 : ℤ)) = 0 := by
    refine double_tiny c ?_
    rw [abs_of_pos (by positivity)]
    exact zpow_lt_zpow_right₀ (by norm_num) (by norm_num)
  constructor
  · unfold Rounded.normal
    rw [d0 _ one (dp _ (by norm_num) (by norm_num)) (dp _ (by norm_num) (by norm_num))]
    simp only [ok_bind, Rounding.mul, Rounding.add, Rounded.sqrt, sq, tiny, mul_zero, Rounding.rnd_zero, add_zero, Real.sqrt_zero, Rounded.pdiv,
      if_true]
    rfl
  · unfold Rounded.normal
    rw [d0 _ fone (float_power _) (float_power _)]
    simp only [ok_bind, Rounding.mul, Rounding.add, Rounded.sqrt, sq, float_power, mul_zero, Rounding.rnd_zero, add_zero, hs, Rounded.pdiv]
    rw [if_neg (by positivity), if_neg (by positivity)]
    simp only [ok_bind, Rounding.div]
    rw [neg_zero, zero_div, Rounding.rnd_zero, div_self (by positivity), fone]
    rfl

/-- C124: the sum of two numbers of `2 ^ 1023` overflows, and what `midpoint` returns depends on what infinity stands for. -/
theorem C124_overflow :
    roundDouble (2 ^ (1023 : ℤ) + 2 ^ (1023 : ℤ)) = none ∧
    Rounded.midpoint (double 0) [(2 ^ (1023 : ℤ), 0), (2 ^ (1023 : ℤ), 0)] ≠
      Rounded.midpoint (double 1) [(2 ^ (1023 : ℤ), 0), (2 ^ (1023 : ℤ), 0)] := by
  have e : (2:ℝ) ^ (1023 : ℤ) + 2 ^ (1023 : ℤ) = 2 ^ (1024 : ℤ) := by
    rw [show (1024 : ℤ) = 1023 + 1 by norm_num, zpow_add₀ (by norm_num), zpow_one]; ring
  have e2 : (2:ℝ) ^ (1024 : ℤ) / 2 = 2 ^ (1023 : ℤ) := by rw [← e]; ring
  refine ⟨by rw [e]; exact roundDouble_overflow, ?_⟩
  have inf : ∀ c, (double c).rnd (2 ^ (1024 : ℤ)) = c * 2 ^ (1024 : ℤ) := by
    intro c
    show (roundDouble _).getD _ = _
    rw [roundDouble_overflow]; rfl
  have value : ∀ c, Rounded.midpoint (double c) [(2 ^ (1023 : ℤ), 0), (2 ^ (1023 : ℤ), 0)] =
      .ok ((double c).rnd (c * 2 ^ (1024 : ℤ) / 2), (double c).rnd ((double c).rnd (0 + 0) / 2)) := by
    intro c
    rw [← inf, ← e]
    rfl
  rw [value, value]
  intro h
  rw [Except.ok.injEq, Prod.mk.injEq] at h
  have h1 := h.1
  rw [zero_mul, zero_div, Rounding.rnd_zero, one_mul, e2, double_power 1 1023 (by norm_num) (by norm_num)] at h1
  exact absurd h1 (by positivity)

end PathLib
