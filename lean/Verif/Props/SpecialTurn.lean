import Verif.Props.SpecialFiniteRun

/-!
# Which curves with a control point at infinity count as clockwise: C115
-/

namespace PathLib
open Special Special.Num

namespace Special

theorem new_clockwise (ps : Segment (Num ℝ)) (hl' : ps.length ≤ 4) (first second last : Pt (Num ℝ)) (rest : Segment (Num ℝ))
    (hf : ps = first :: second :: rest) (he : ps.getLast? = some last) :
    ∃ c, Special.new ps = .ok c ∧ c.clockwise = lt (fin 0) (Special.angle first last second) := by
  unfold Special.new
  obtain ⟨d, e⟩ := computeDirection_ok ps (by rw [hf]; simp) hl'
  rw [e, ok_bind]
  have hlast : pyGet ps (-1) = .ok last := by
    subst hf
    rw [List.getLast?_eq_getElem?] at he
    simp only [List.length_cons, Nat.add_sub_cancel] at he
    have : ¬ ((rest.length : ℤ) + 1 < 0) := by omega
    simp at he
    simp [pyGet, this, he]
  subst hf
  obtain ⟨qs, hq, -⟩ := Special.alignPoints_ok (first :: second :: rest) first last
  simp only [pyGet_zero_cons, pyGet_one_cons, ok_bind, hlast, hq, pure_eq_ok]
  exact ⟨_, rfl, rfl⟩

theorem atan2_inf_pos (s : Bool) (x : Num ℝ) (hx : x ≠ nan) : lt (fin 0) (atan2 (inf s) x) = s := by
  have := Real.pi_pos
  rcases x with x | t | _
  · cases s <;> simp [atan2, lt] <;> linarith
  · cases s <;> cases t <;> simp [atan2, lt] <;> linarith
  · exact absurd rfl hx

theorem atan2_nan_right (y : Num ℝ) : lt (fin 0) (atan2 y nan) = false := by
  cases y <;> rfl

theorem atan2_nan_left (x : Num ℝ) : lt (fin 0) (atan2 nan x) = false := by
  cases x <;> rfl

end Special

/-- C115: a curve whose ends are finite and whose second control point is infinitely far to the right (or left) counts as clockwise exactly if its end is lower (or higher) than its
start, and not straight below or above it; if the second control point is infinitely far above (or below), exactly if the end is to the right (or left) of the start, and not at
the same height; if both coordinates of the second control point are infinite, never. -/
theorem C115_clockwise (ps : Segment (Num ℝ)) (hl' : ps.length ≤ 4) (a b : Pt ℝ) (second : Pt (Num ℝ)) (rest : Segment (Num ℝ))
    (hf : ps = (fin a.1, fin a.2) :: second :: rest) (he : ps.getLast? = some (fin b.1, fin b.2)) :
    ∃ c, Special.new ps = .ok c ∧
      (∀ s y, second = (inf s, fin y) → (c.clockwise = true ↔ b.1 ≠ a.1 ∧ if s then b.2 < a.2 else a.2 < b.2)) ∧
      (∀ s x, second = (fin x, inf s) → (c.clockwise = true ↔ b.2 ≠ a.2 ∧ if s then a.1 < b.1 else b.1 < a.1)) ∧
      (∀ s s', second = (inf s, inf s') → c.clockwise = false) := by
  obtain ⟨c, hc, e⟩ := new_clockwise ps hl' _ second _ rest hf he
  refine ⟨c, hc, ?_, ?_, ?_⟩
  · rintro s y rfl
    rw [e]
    simp only [Special.angle, sub_fin]
    have hs : sub (inf s) (fin a.1) = inf s := rfl
    rw [hs, mul_fin, mul_fin]
    have hx : b.1 - a.1 = 0 ↔ b.1 = a.1 := sub_eq_zero
    generalize (b.1 - a.1) * (y - a.2) = u
    generalize (b.2 - a.2) * (y - a.2) = v
    simp only [mul]
    by_cases h1 : b.1 = a.1
    · rw [if_pos (hx.mpr h1)]
      have : add (nan : Num ℝ) (fin v) = nan := rfl
      rw [this, atan2_nan_right]
      simp [h1]
    · rw [if_neg (fun h => h1 (hx.mp h))]
      have : ∀ p, add (inf p : Num ℝ) (fin v) = inf p := fun _ => rfl
      rw [this]
      by_cases h2 : b.2 - a.2 = 0
      · rw [if_pos h2]
        have : sub (fin u : Num ℝ) nan = nan := rfl
        rw [this, atan2_nan_left]
        have : b.2 = a.2 := sub_eq_zero.mp h2
        cases s <;> simp [this]
      · rw [if_neg h2]
        have : ∀ p, sub (fin u : Num ℝ) (inf p) = inf !p := fun _ => rfl
        rw [this, atan2_inf_pos _ _ (by simp)]
        have h3 : b.2 ≠ a.2 := fun h => h2 (sub_eq_zero.mpr h)
        cases s
        · simp [h1]
        · simp only [beq_true, Bool.not_eq_true', decide_eq_false_iff_not, sub_pos, not_lt, ne_eq, h1, not_false_eq_true, if_true, true_and]
          exact ⟨fun h => lt_of_le_of_ne h h3, le_of_lt⟩
  · rintro s x rfl
    rw [e]
    simp only [Special.angle, sub_fin]
    have h1 : sub (inf s) (fin a.2) = inf s := rfl
    rw [h1, mul_fin, mul_fin]
    generalize (b.1 - a.1) * (x - a.1) = u
    generalize (b.2 - a.2) * (x - a.1) = v
    simp only [mul]
    by_cases h2 : b.2 - a.2 = 0
    · rw [if_pos h2]
      have : add (fin u : Num ℝ) nan = nan := rfl
      rw [this, atan2_nan_right]
      simp [sub_eq_zero.mp h2]
    · rw [if_neg h2]
      have : ∀ p, add (fin u : Num ℝ) (inf p) = inf p := fun _ => rfl
      rw [this]
      have h3 : b.2 ≠ a.2 := fun h => h2 (sub_eq_zero.mpr h)
      by_cases h1 : b.1 - a.1 = 0
      · rw [if_pos h1]
        have : sub (nan : Num ℝ) (fin v) = nan := rfl
        rw [this, atan2_nan_left]
        have : b.1 = a.1 := sub_eq_zero.mp h1
        cases s <;> simp [this]
      · rw [if_neg h1]
        have : ∀ p, sub (inf p : Num ℝ) (fin v) = inf p := fun _ => rfl
        rw [this, atan2_inf_pos _ _ (by simp)]
        have h4 : b.1 ≠ a.1 := fun h => h1 (sub_eq_zero.mpr h)
        cases s
        · simp only [beq_false, Bool.not_eq_true', decide_eq_false_iff_not, sub_pos, not_lt, ne_eq, h3, not_false_eq_true, true_and, Bool.false_eq_true, if_false]
          exact ⟨fun h => lt_of_le_of_ne h h4, le_of_lt⟩
        · simp [h3]
  · rintro s s' rfl
    rw [e]
    simp only [Special.angle, sub_fin]
    have h1 : sub (inf s) (fin a.1) = inf s := rfl
    have h2 : sub (inf s') (fin a.2) = inf s' := rfl
    rw [h1, h2]
    generalize b.1 - a.1 = u
    generalize b.2 - a.2 = v
    simp only [mul]
    by_cases hu : u = 0
    · rw [if_pos hu, if_pos hu]
      cases (if v = 0 then (nan : Num ℝ) else inf (decide (0 < v) == s)) <;> rfl
    · rw [if_neg hu, if_neg hu]
      by_cases hv : v = 0
      · rw [if_pos hv, if_pos hv]
        rfl
      · rw [if_neg hv, if_neg hv]
        cases decide (0 < u) <;> cases decide (0 < v) <;> cases s <;> cases s' <;> simp [sub, neg, add, atan2, lt]

/-- With its middle point far to the left an arch going up is clockwise, one going down is not; straight up it is not. -/
example : (∃ c, Special.new [(fin 0, fin 0), (inf false, fin 5), (fin 2, fin 10)] = .ok c ∧ c.clockwise = true) ∧
    (∃ c, Special.new [(fin 0, fin 0), (inf false, fin 5), (fin 2, fin (-10))] = .ok c ∧ c.clockwise = false) ∧
    (∃ c, Special.new [(fin 0, fin 0), (inf false, fin 5), (fin 0, fin 10)] = .ok c ∧ c.clockwise = false) := by
  refine ⟨?_, ?_, ?_⟩
  · obtain ⟨c, hc, h, -⟩ := C115_clockwise [(fin 0, fin 0), (inf false, fin 5), (fin 2, fin 10)] (by simp) (0, 0) (2, 10) _ _ rfl rfl
    exact ⟨c, hc, (h _ _ rfl).mpr (by norm_num)⟩
  · obtain ⟨c, hc, h, -⟩ := C115_clockwise [(fin 0, fin 0), (inf false, fin 5), (fin 2, fin (-10))] (by simp) (0, 0) (2, -10) _ _ rfl rfl
    exact ⟨c, hc, by rw [← Bool.not_eq_true, h _ _ rfl]; norm_num⟩
  · obtain ⟨c, hc, h, -⟩ := C115_clockwise [(fin 0, fin 0), (inf false, fin 5), (fin 0, fin 10)] (by simp) (0, 0) (0, 10) _ _ rfl rfl
    exact ⟨c, hc, by rw [← Bool.not_eq_true, h _ _ rfl]; norm_num⟩

end PathLib
