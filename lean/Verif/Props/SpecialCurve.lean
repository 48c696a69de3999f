import Verif.Props.Special

set_option linter.unusedSectionVars false
set_option linter.unusedSimpArgs false

/-!
# Curves with NaN and infinite coordinates: C115
-/

namespace PathLib
open Special Special.Num

namespace Special
variable {K : Type} [Field K] [LinearOrder K]

theorem zip_nan (d : Fin 2) (f : Pt (Num K) → Pt (Num K) → Pt (Num K))
    (hf : ∀ a b, coordinate d a = nan ∨ coordinate d b = nan → coordinate d (f a b) = nan) (ps : Segment (Num K)) (hl : 2 ≤ ps.length)
    (h : ∃ p ∈ ps, coordinate d p = nan) : ∃ p ∈ List.zipWith f ps ps.tail, coordinate d p = nan := by
  induction ps with
  | nil => simp at hl
  | cons a ps ih =>
    cases ps with
    | nil => simp at hl
    | cons b l =>
      obtain ⟨p, hp, hn⟩ := h
      rcases List.mem_cons.mp hp with rfl | hp
      · exact ⟨f p b, by simp, hf _ _ (.inl hn)⟩
      · rcases List.mem_cons.mp hp with rfl | hp'
        · exact ⟨f a p, by simp, hf _ _ (.inr hn)⟩
        · have hl' : 2 ≤ (b :: l).length := by
            cases l with
            | nil => simp at hp'
            | cons c l => simp
          obtain ⟨q, hq, hqn⟩ := ih hl' ⟨p, hp, hn⟩
          exact ⟨q, List.mem_cons_of_mem _ hq, hqn⟩

theorem step_nan (d : Fin 2) (t : K) (a b : Pt (Num K)) (h : coordinate d a = nan ∨ coordinate d b = nan) :
    coordinate d (add a.1 (mul (sub b.1 a.1) (fin t)), add a.2 (mul (sub b.2 a.2) (fin t))) = nan := by
  unfold coordinate at *
  split <;> rename_i hd <;> simp only [hd, if_true, if_false] at h <;> rcases h with h | h <;>
    simp [h, add_nan_left, add_nan_right, sub_nan_left, sub_nan_right, mul_nan_left, mul_nan_right]

theorem lerp_nan (d : Fin 2) (t : K) (a b : Pt (Num K)) (h : coordinate d a = nan ∨ coordinate d b = nan) :
    coordinate d (lerp t a b) = nan := by
  unfold coordinate lerp at *
  split <;> rename_i hd <;> simp only [hd, if_true, if_false] at h <;> rcases h with h | h <;>
    simp [h, add_nan_left, add_nan_right, sub_nan_left, sub_nan_right, mul_nan_left, mul_nan_right]

theorem casteljau_nan (d : Fin 2) (t : K) (n : Nat) (ps : Segment (Num K)) (hn : ps.length = n + 1) (h : ∃ p ∈ ps, coordinate d p = nan) :
    ∃ q, casteljau t ps = .ok q ∧ coordinate d q = nan := by
  induction n generalizing ps with
  | zero =>
    unfold casteljau
    match ps, hn with
    | [p], _ =>
      obtain ⟨q, hq, hqn⟩ := h
      rw [List.mem_singleton] at hq
      subst hq
      exact ⟨q, by simp [pyGet], hqn⟩
  | succ n ih =>
    unfold casteljau
    rw [if_pos (by omega)]
    exact ih _ (by simp [hn]) (zip_nan d _ (fun a b => step_nan d t a b) ps (by omega) h)

theorem hullLoop_nan (d : Fin 2) (t : K) (n : Nat) (ps : Segment (Num K)) (hn : ps.length = n + 2) (h : ∃ p ∈ ps, coordinate d p = nan) :
    ∃ q, (hullLoop t ps).getLast? = some q ∧ coordinate d q = nan := by
  induction n generalizing ps with
  | zero =>
    match ps, hn with
    | [a, b], _ =>
      refine ⟨lerp t a b, by unfold hullLoop; simp; unfold hullLoop; simp, ?_⟩
      obtain ⟨q, hq, hqn⟩ := h
      apply lerp_nan
      simp only [List.mem_cons, List.not_mem_nil, or_false] at hq
      rcases hq with rfl | rfl
      · exact .inl hqn
      · exact .inr hqn
  | succ n ih =>
    have := ih _ (by simp [hn]) (zip_nan d _ (fun a b => lerp_nan d t a b) ps (by omega) h)
    obtain ⟨q, hq, hqn⟩ := this
    refine ⟨q, ?_, hqn⟩
    unfold hullLoop
    rw [if_pos (by omega), List.getLast?_append, hq]
    rfl

end Special

section field
variable {K : Type} [Field K] [LinearOrder K]

/-- C115: a NaN in one coordinate of one control point makes that coordinate of every inner point of the curve NaN, for curves of every order. -/
theorem C115_get_nan (d : Fin 2) (ps : Segment (Num K)) (hl : 2 ≤ ps.length) (h : ∃ p ∈ ps, coordinate d p = nan) (t : K) (h0 : t ≠ 0) (h1 : t ≠ 1) :
    ∃ q, Special.get ps t = .ok q ∧ coordinate d q = nan := by
  unfold Special.get
  rw [if_neg h0, if_neg h1]
  match ps, hl with
  | [a, b], _ =>
    refine ⟨_, by simp [pyGet_zero_cons, pyGet_one_cons, ok_bind, pure_eq_ok]; rfl, ?_⟩
    unfold coordinate at *
    split <;> rename_i hd <;> simp only [hd, if_true, if_false, List.mem_cons, List.not_mem_nil, or_false, exists_eq_or_imp, exists_eq_left] at h <;> rcases h with h | h <;>
      simp [h, add_nan_left, add_nan_right, mul_nan_left, mul_nan_right]
  | [a, b, c], _ =>
    refine ⟨_, by simp [pyGet_zero_cons, pyGet_one_cons, pyGet_two_cons, pyGet_three_cons, ok_bind, pure_eq_ok]; rfl, ?_⟩
    unfold coordinate at *
    split <;> rename_i hd <;> simp only [hd, if_true, if_false, List.mem_cons, List.not_mem_nil, or_false, exists_eq_or_imp, exists_eq_left] at h <;> rcases h with h | h | h <;>
      simp [h, add_nan_left, add_nan_right, mul_nan_left, mul_nan_right]
  | [a, b, c, e], _ =>
    refine ⟨_, by simp [pyGet_zero_cons, pyGet_one_cons, pyGet_two_cons, pyGet_three_cons, ok_bind, pure_eq_ok]; rfl, ?_⟩
    unfold coordinate at *
    split <;> rename_i hd <;> simp only [hd, if_true, if_false, List.mem_cons, List.not_mem_nil, or_false, exists_eq_or_imp, exists_eq_left] at h <;> rcases h with h | h | h | h <;>
      simp [h, add_nan_left, add_nan_right, mul_nan_left, mul_nan_right]
  | a :: b :: c :: e :: f :: l, _ =>
    simp only
    rw [if_neg (by simp), if_neg (by simp), if_neg (by simp)]
    exact casteljau_nan d t (l.length + 4) _ (by simp) h

/-- C115: the same for the last point of `hull(t)`, at every `t`. -/
theorem C115_hull_nan (d : Fin 2) (ps : Segment (Num K)) (hl : 2 ≤ ps.length) (h : ∃ p ∈ ps, coordinate d p = nan) (t : K) :
    ∃ q, (hull ps t).getLast? = some q ∧ coordinate d q = nan := by
  obtain ⟨q, hq, hn⟩ := hullLoop_nan d t (ps.length - 2) ps (by omega) h
  exact ⟨q, by unfold hull; rw [List.getLast?_append, hq]; rfl, hn⟩

/-- C115: if a control point other than the last has an infinite coordinate, then the last point of `hull(t)` has NaN there for positive `t`. -/
theorem C115_hull_infinite [IsStrictOrderedRing K] (d : Fin 2) (ps : Segment (Num K)) (h : ∃ p ∈ ps.dropLast, ∃ s, coordinate d p = inf s) (t : K) (ht : 0 < t) :
    ∃ q, (hull ps t).getLast? = some q ∧ coordinate d q = nan := by
  have hlerp : ∀ a b : Pt (Num K), (∃ s, coordinate d a = inf s) → coordinate d (lerp t a b) = nan := by
    rintro a b ⟨s, hs⟩
    have key : ∀ y : Num K, add (inf s) (mul (fin t) (sub y (inf s))) = nan := by
      intro y
      rcases y with y | (_ | _) | _ <;> cases s <;> simp [sub, neg, add, mul, ht.ne', ht]
    unfold coordinate lerp at *
    split <;> rename_i hd <;> simp only [hd, if_true, if_false] at hs <;> simp only [hs] <;> exact key _
  have hlen : 2 ≤ ps.length := by
    obtain ⟨p, hp, -⟩ := h
    have := List.length_pos_of_mem hp
    rw [List.length_dropLast] at this
    omega
  have hzip : ∀ qs : Segment (Num K), (∃ p ∈ qs.dropLast, ∃ s, coordinate d p = inf s) → ∃ p ∈ List.zipWith (lerp t) qs qs.tail, coordinate d p = nan := by
    intro qs
    induction qs with
    | nil => simp
    | cons a l ih =>
      cases l with
      | nil => simp
      | cons b l =>
        rintro ⟨p, hp, hs⟩
        rw [List.dropLast_cons_cons] at hp
        rcases List.mem_cons.mp hp with rfl | hp
        · exact ⟨_, List.mem_cons_self .., hlerp _ b hs⟩
        · obtain ⟨q, hq, hn⟩ := ih ⟨p, hp, hs⟩
          exact ⟨q, List.mem_cons_of_mem _ hq, hn⟩
  unfold hull hullLoop
  rw [if_pos (by omega)]
  by_cases h2 : ps.length = 2
  · match ps, h2 with
    | [a, b], _ =>
      refine ⟨lerp t a b, by unfold hullLoop; simp, hlerp a b ?_⟩
      obtain ⟨p, hp, hs⟩ := h
      simp at hp
      exact hp ▸ hs
  · obtain ⟨q, hq, hn⟩ := hullLoop_nan d t (ps.length - 3) (List.zipWith (lerp t) ps ps.tail) (by simp; omega) (hzip ps h)
    exact ⟨q, by rw [List.getLast?_append, List.getLast?_append, hq]; rfl, hn⟩

/-- C115: where some coordinates are infinite, all of them with the same sign, and none is NaN, the coordinate of `get(t)` is infinite with this sign for
`0 < t < 1`, for lines, quadratics and cubics. -/
theorem C115_get_infinite [IsStrictOrderedRing K] (d : Fin 2) (s : Bool) (ps : Segment (Num K)) (hl : 2 ≤ ps.length) (hl' : ps.length ≤ 4)
    (h : ∃ p ∈ ps, coordinate d p = inf s) (ha : ∀ p ∈ ps, coordinate d p = inf s ∨ ∃ x, coordinate d p = fin x) (t : K) (h0 : 0 < t) (h1 : t < 1) :
    ∃ q, Special.get ps t = .ok q ∧ coordinate d q = inf s := by
  have hm : ∀ (w : K) (x : Num K), 0 < w → (x = inf s → mul (fin w) x = inf s) ∧ (∀ y, x = fin y → ∃ z, mul (fin w) x = fin z) := by
    intro w x hw
    constructor
    · rintro rfl; cases s <;> simp [mul, hw.ne', hw]
    · rintro y rfl; exact ⟨_, rfl⟩
  have hadd : ∀ x y : Num K, (x = inf s ∨ ∃ z, x = fin z) → (y = inf s ∨ ∃ z, y = fin z) →
      (add x y = inf s ∨ ∃ z, add x y = fin z) ∧ (x = inf s ∨ y = inf s → add x y = inf s) := by
    rintro x y (rfl | ⟨a, rfl⟩) (rfl | ⟨b, rfl⟩) <;> simp [add]
  have hterm : ∀ (w : K) (x : Num K), 0 < w → (x = inf s ∨ ∃ z, x = fin z) → (mul (fin w) x = inf s ∨ ∃ z, mul (fin w) x = fin z) := by
    rintro w x hw (h | ⟨z, h⟩)
    · exact .inl ((hm w x hw).1 h)
    · exact .inr ((hm w x hw).2 z h)
  have hmt : 0 < 1 - t := by linarith
  have hzero : ∀ x : Num K, (x = inf s ∨ ∃ z, x = fin z) → add x (mul (fin 0) (fin 0)) = x := by
    rintro x (rfl | ⟨z, rfl⟩) <;> simp [add, mul]
  unfold Special.get
  rw [if_neg h0.ne', if_neg h1.ne]
  match ps, hl, hl' with
  | [a, b], _, _ =>
    refine ⟨_, by simp [pyGet_zero_cons, pyGet_one_cons, ok_bind, pure_eq_ok]; rfl, ?_⟩
    unfold coordinate at *
    split <;> rename_i hd <;> simp only [hd, if_true, if_false, List.mem_cons, List.not_mem_nil, or_false, exists_eq_or_imp, exists_eq_left, forall_eq_or_imp, forall_eq] at h ha ⊢ <;>
    · obtain ⟨a1, a2⟩ := ha
      have t1 := hterm _ _ hmt a1
      have t2 := hterm _ _ h0 a2
      refine (hadd _ _ t1 t2).2 ?_
      rcases h with h | h
      · exact .inl ((hm _ _ hmt).1 h)
      · exact .inr ((hm _ _ h0).1 h)
  | [a, b, c], _, _ =>
    refine ⟨_, by simp [pyGet_zero_cons, pyGet_one_cons, pyGet_two_cons, pyGet_three_cons, ok_bind, pure_eq_ok]; rfl, ?_⟩
    have w1 : 0 < (1 - t) * (1 - t) := mul_pos hmt hmt
    have w2 : 0 < (1 - t) * t * 2 := by positivity
    have w3 : 0 < t * t := mul_pos h0 h0
    unfold coordinate at *
    split <;> rename_i hd <;> simp only [hd, if_true, if_false, List.mem_cons, List.not_mem_nil, or_false, exists_eq_or_imp, exists_eq_left, forall_eq_or_imp, forall_eq] at h ha ⊢ <;>
    · obtain ⟨a1, a2, a3⟩ := ha
      have t1 := hterm _ _ w1 a1
      have t2 := hterm _ _ w2 a2
      have t3 := hterm _ _ w3 a3
      rw [hzero _ (hadd _ _ (hadd _ _ t1 t2).1 t3).1]
      refine (hadd _ _ (hadd _ _ t1 t2).1 t3).2 ?_
      rcases h with h | h | h
      · exact .inl ((hadd _ _ t1 t2).2 (.inl ((hm _ _ w1).1 h)))
      · exact .inl ((hadd _ _ t1 t2).2 (.inr ((hm _ _ w2).1 h)))
      · exact .inr ((hm _ _ w3).1 h)
  | [a, b, c, e], _, _ =>
    refine ⟨_, by simp [pyGet_zero_cons, pyGet_one_cons, pyGet_two_cons, pyGet_three_cons, ok_bind, pure_eq_ok]; rfl, ?_⟩
    have w1 : 0 < (1 - t) * (1 - t) * (1 - t) := by positivity
    have w2 : 0 < (1 - t) * (1 - t) * t * 3 := by positivity
    have w3 : 0 < (1 - t) * (t * t) * 3 := by positivity
    have w4 : 0 < t * (t * t) := by positivity
    unfold coordinate at *
    split <;> rename_i hd <;> simp only [hd, if_true, if_false, List.mem_cons, List.not_mem_nil, or_false, exists_eq_or_imp, exists_eq_left, forall_eq_or_imp, forall_eq] at h ha ⊢ <;>
    · obtain ⟨a1, a2, a3, a4⟩ := ha
      have t1 := hterm _ _ w1 a1
      have t2 := hterm _ _ w2 a2
      have t3 := hterm _ _ w3 a3
      have t4 := hterm _ _ w4 a4
      have s2 := (hadd _ _ t1 t2).1
      have s3 := (hadd _ _ s2 t3).1
      refine (hadd _ _ s3 t4).2 ?_
      rcases h with h | h | h | h
      · exact .inl ((hadd _ _ s2 t3).2 (.inl ((hadd _ _ t1 t2).2 (.inl ((hm _ _ w1).1 h)))))
      · exact .inl ((hadd _ _ s2 t3).2 (.inl ((hadd _ _ t1 t2).2 (.inr ((hm _ _ w2).1 h)))))
      · exact .inl ((hadd _ _ s2 t3).2 (.inr ((hm _ _ w3).1 h)))
      · exact .inr ((hm _ _ w4).1 h)

/-- A case: `get` and `hull` disagree about a curve with an infinite control point. -/
example : Special.get [((fin 0 : Num ℚ), fin 0), (inf true, fin 1), (fin 4, fin 0)] (1 / 2) = .ok (inf true, fin (1 / 2)) ∧
    (hull [((fin 0 : Num ℚ), fin 0), (inf true, fin 1), (fin 4, fin 0)] (1 / 2)).getLast? = some (nan, fin (1 / 2)) := by decide +kernel

end field

end PathLib
