import Verif.Model.Special
import Verif.Props.BezierSelf

set_option linter.unusedSectionVars false
set_option linter.unusedSimpArgs false

/-!
# NaN and infinite coordinates: C115
-/

namespace PathLib
open Special Special.Num

namespace Special

section order
variable {K : Type} [Field K] [LinearOrder K]

theorem lt_nan_left (a : Num K) : lt nan a = false := by cases a <;> rfl
theorem lt_nan_right (a : Num K) : lt a nan = false := by cases a <;> rfl
theorem min_nan (a : Num K) : Num.min a nan = a := by simp [Num.min, lt_nan_left]
theorem max_nan (a : Num K) : Num.max a nan = a := by simp [Num.max, lt_nan_right]

theorem add_nan_left (a : Num K) : add nan a = nan := by cases a <;> rfl
theorem add_nan_right (a : Num K) : add a nan = nan := by cases a <;> rfl
theorem mul_nan_left (a : Num K) : mul nan a = nan := by cases a <;> rfl
theorem mul_nan_right (a : Num K) : mul a nan = nan := by cases a <;> rfl
theorem sub_nan_left (a : Num K) : sub nan a = nan := add_nan_left _
theorem sub_nan_right (a : Num K) : sub a nan = nan := by show add a nan = nan; exact add_nan_right _

theorem le_refl' {a : Num K} (h : a ≠ nan) : le a a = true := by
  cases a <;> simp_all [le, lt, eq]

theorem le_trans' {a b c : Num K} (h1 : le a b = true) (h2 : le b c = true) : le a c = true := by
  cases a with
  | nan => cases b <;> simp [le, lt, eq] at h1
  | inf p => cases b with
    | nan => simp [le, lt, eq] at h1
    | inf q => cases c <;> cases p <;> cases q <;> simp_all [le, lt, eq]
    | fin y => cases c <;> cases p <;> simp_all [le, lt, eq]
  | fin x => cases b with
    | nan => simp [le, lt, eq] at h1
    | inf q => cases c <;> cases q <;> simp_all [le, lt, eq]
    | fin y => cases c with
      | fin z =>
        simp only [le, lt, eq, Bool.or_eq_true, decide_eq_true_eq] at *
        exact (le_iff_lt_or_eq.mp ((le_iff_lt_or_eq.mpr h1).trans (le_iff_lt_or_eq.mpr h2)))
      | inf r => simp_all [le, lt, eq]
      | nan => simp [le, lt, eq] at h2

theorem le_of_not_lt {a b : Num K} (ha : a ≠ nan) (hb : b ≠ nan) (h : lt a b = false) : le b a = true := by
  cases a with
  | nan => exact absurd rfl ha
  | inf p => cases b <;> cases p <;> simp_all [le, lt, eq]
  | fin x => cases b with
    | nan => exact absurd rfl hb
    | inf q => cases q <;> simp_all [le, lt, eq]
    | fin y =>
      simp only [le, lt, eq, Bool.or_eq_true, decide_eq_true_eq, decide_eq_false_iff_not, not_lt] at *
      exact le_iff_lt_or_eq.mp h

theorem le_of_lt' {a b : Num K} (h : lt a b = true) : le a b = true := by simp [le, h]

theorem min_ne_nan {a : Num K} (b : Num K) (h : a ≠ nan) : Num.min a b ≠ nan := by
  unfold Num.min
  split
  · rename_i hl; rintro rfl; simp [lt_nan_left] at hl
  · exact h

theorem max_ne_nan {a : Num K} (b : Num K) (h : a ≠ nan) : Num.max a b ≠ nan := by
  unfold Num.max
  split
  · rename_i hl; rintro rfl; simp [lt_nan_right] at hl
  · exact h

theorem min_le_left' {a : Num K} (b : Num K) (h : a ≠ nan) : le (Num.min a b) a = true := by
  unfold Num.min
  split
  · rename_i hl; exact le_of_lt' hl
  · exact le_refl' h

theorem min_le_right' {a b : Num K} (h : a ≠ nan) (hb : b ≠ nan) : le (Num.min a b) b = true := by
  unfold Num.min
  split
  · exact le_refl' hb
  · rename_i hl; exact le_of_not_lt hb h (by simpa using hl)

theorem le_max_left' {a : Num K} (b : Num K) (h : a ≠ nan) : le a (Num.max a b) = true := by
  unfold Num.max
  split
  · rename_i hl; exact le_of_lt' hl
  · exact le_refl' h

theorem le_max_right' {a b : Num K} (h : a ≠ nan) (hb : b ≠ nan) : le b (Num.max a b) = true := by
  unfold Num.max
  split
  · exact le_refl' hb
  · rename_i hl; exact le_of_not_lt h hb (by simpa using hl)

/-! ## Rectangles -/

theorem rectangle_sides (ps : Segment (Num K)) :
    rectangle ps = ⟨(ps.map Prod.fst).foldl Num.min (fin 32768), (ps.map Prod.snd).foldl Num.min (fin 32768),
      (ps.map Prod.fst).foldl Num.max (fin (-32768)), (ps.map Prod.snd).foldl Num.max (fin (-32768))⟩ := by
  unfold rectangle
  generalize (fin 32768 : Num K) = a
  suffices h : ∀ (l b r t : Num K), ps.foldl (fun b p =>
      { left := Num.min b.left p.1, right := Num.max b.right p.1, bottom := Num.min b.bottom p.2, top := Num.max b.top p.2 })
      (⟨l, b, r, t⟩ : BoundsRectangle (Num K)) = ⟨(ps.map Prod.fst).foldl Num.min l, (ps.map Prod.snd).foldl Num.min b,
      (ps.map Prod.fst).foldl Num.max r, (ps.map Prod.snd).foldl Num.max t⟩ from h _ _ _ _
  induction ps with
  | nil => intros; rfl
  | cons p ps ih => intro l b r t; exact ih _ _ _ _

theorem foldl_min (l : List (Num K)) (a : Num K) (ha : a ≠ nan) :
    l.foldl Num.min a ≠ nan ∧ le (l.foldl Num.min a) a = true ∧ (∀ x ∈ l, x ≠ nan → le (l.foldl Num.min a) x = true) ∧
      (l.foldl Num.min a = a ∨ l.foldl Num.min a ∈ l) := by
  induction l generalizing a with
  | nil => exact ⟨ha, le_refl' ha, by simp, .inl rfl⟩
  | cons x l ih =>
    obtain ⟨h1, h2, h3, h4⟩ := ih (Num.min a x) (min_ne_nan x ha)
    refine ⟨h1, le_trans' h2 (min_le_left' x ha), ?_, ?_⟩
    · intro y hy hn
      rcases List.mem_cons.mp hy with rfl | hy
      · exact le_trans' h2 (min_le_right' ha hn)
      · exact h3 y hy hn
    · rw [List.foldl_cons]
      rcases h4 with h4 | h4
      · rw [h4]; unfold Num.min; split
        · exact .inr (by simp)
        · exact .inl rfl
      · exact .inr (List.mem_cons_of_mem _ h4)

theorem foldl_max (l : List (Num K)) (a : Num K) (ha : a ≠ nan) :
    l.foldl Num.max a ≠ nan ∧ le a (l.foldl Num.max a) = true ∧ (∀ x ∈ l, x ≠ nan → le x (l.foldl Num.max a) = true) ∧
      (l.foldl Num.max a = a ∨ l.foldl Num.max a ∈ l) := by
  induction l generalizing a with
  | nil => exact ⟨ha, le_refl' ha, by simp, .inl rfl⟩
  | cons x l ih =>
    obtain ⟨h1, h2, h3, h4⟩ := ih (Num.max a x) (max_ne_nan x ha)
    refine ⟨h1, le_trans' (le_max_left' x ha) h2, ?_, ?_⟩
    · intro y hy hn
      rcases List.mem_cons.mp hy with rfl | hy
      · exact le_trans' (le_max_right' ha hn) h2
      · exact h3 y hy hn
    · rw [List.foldl_cons]
      rcases h4 with h4 | h4
      · rw [h4]; unfold Num.max; split
        · exact .inr (by simp)
        · exact .inl rfl
      · exact .inr (List.mem_cons_of_mem _ h4)

theorem foldl_min_filter (l : List (Num K)) (a : Num K) : (l.filter (· ≠ nan)).foldl Num.min a = l.foldl Num.min a := by
  induction l generalizing a with
  | nil => rfl
  | cons x l ih =>
    by_cases hx : x = nan
    · subst hx; simp only [ne_eq, not_true_eq_false, decide_false, Bool.false_eq_true, not_false_eq_true, List.filter_cons_of_neg, List.foldl_cons, min_nan]; exact ih a
    · rw [List.filter_cons_of_pos (by simpa using hx)]; exact ih _

theorem foldl_max_filter (l : List (Num K)) (a : Num K) : (l.filter (· ≠ nan)).foldl Num.max a = l.foldl Num.max a := by
  induction l generalizing a with
  | nil => rfl
  | cons x l ih =>
    by_cases hx : x = nan
    · subst hx; simp only [ne_eq, not_true_eq_false, decide_false, Bool.false_eq_true, not_false_eq_true, List.filter_cons_of_neg, List.foldl_cons, max_nan]; exact ih a
    · rw [List.filter_cons_of_pos (by simpa using hx)]; exact ih _

end order
end Special

section field
variable {K : Type} [Field K] [LinearOrder K]

/-- C115: the sides of a bounds rectangle are never NaN; it contains every coordinate that is not NaN, and its sides are coordinates of points or the
initial values. -/
theorem C115_rectangle (ps : Segment (Num K)) :
    ((rectangle ps).left ≠ nan ∧ (rectangle ps).right ≠ nan ∧ (rectangle ps).bottom ≠ nan ∧ (rectangle ps).top ≠ nan) ∧
    (∀ p ∈ ps, (p.1 ≠ nan → le (rectangle ps).left p.1 = true ∧ le p.1 (rectangle ps).right = true) ∧
      (p.2 ≠ nan → le (rectangle ps).bottom p.2 = true ∧ le p.2 (rectangle ps).top = true)) ∧
    (((rectangle ps).left = fin 32768 ∨ ∃ p ∈ ps, (rectangle ps).left = p.1) ∧ ((rectangle ps).right = fin (-32768) ∨ ∃ p ∈ ps, (rectangle ps).right = p.1) ∧
      ((rectangle ps).bottom = fin 32768 ∨ ∃ p ∈ ps, (rectangle ps).bottom = p.2) ∧
      ((rectangle ps).top = fin (-32768) ∨ ∃ p ∈ ps, (rectangle ps).top = p.2)) := by
  rw [rectangle_sides]
  obtain ⟨a1, a2, a3, a4⟩ := foldl_min (ps.map Prod.fst) (fin 32768) (by simp)
  obtain ⟨b1, b2, b3, b4⟩ := foldl_max (ps.map Prod.fst) (fin (-32768)) (by simp)
  obtain ⟨c1, c2, c3, c4⟩ := foldl_min (ps.map Prod.snd) (fin 32768) (by simp)
  obtain ⟨d1, d2, d3, d4⟩ := foldl_max (ps.map Prod.snd) (fin (-32768)) (by simp)
  refine ⟨⟨a1, b1, c1, d1⟩, fun p hp => ⟨fun h => ⟨a3 _ (List.mem_map_of_mem hp) h, b3 _ (List.mem_map_of_mem hp) h⟩,
    fun h => ⟨c3 _ (List.mem_map_of_mem hp) h, d3 _ (List.mem_map_of_mem hp) h⟩⟩, ?_, ?_, ?_, ?_⟩
  · rcases a4 with h | h
    · exact .inl h
    · obtain ⟨p, hp, e⟩ := List.mem_map.mp h; exact .inr ⟨p, hp, e.symm⟩
  · rcases b4 with h | h
    · exact .inl h
    · obtain ⟨p, hp, e⟩ := List.mem_map.mp h; exact .inr ⟨p, hp, e.symm⟩
  · rcases c4 with h | h
    · exact .inl h
    · obtain ⟨p, hp, e⟩ := List.mem_map.mp h; exact .inr ⟨p, hp, e.symm⟩
  · rcases d4 with h | h
    · exact .inl h
    · obtain ⟨p, hp, e⟩ := List.mem_map.mp h; exact .inr ⟨p, hp, e.symm⟩

/-- C115: NaN coordinates are ignored: lists with the same other abscissas and the same other ordinates have the same rectangle. -/
theorem C115_ignored (ps qs : Segment (Num K)) (hx : (ps.map Prod.fst).filter (· ≠ nan) = (qs.map Prod.fst).filter (· ≠ nan))
    (hy : (ps.map Prod.snd).filter (· ≠ nan) = (qs.map Prod.snd).filter (· ≠ nan)) : rectangle ps = rectangle qs := by
  rw [rectangle_sides, rectangle_sides, ← foldl_min_filter (ps.map Prod.fst), ← foldl_min_filter (ps.map Prod.snd), ← foldl_max_filter (ps.map Prod.fst),
    ← foldl_max_filter (ps.map Prod.snd), hx, hy, foldl_min_filter, foldl_min_filter, foldl_max_filter, foldl_max_filter]

/-- C115: a point with a NaN coordinate is in no rectangle, and every other point is in the rectangle made from it. -/
theorem C115_enclosesPoint (b : BoundsRectangle (Num K)) (ps : Segment (Num K)) (p : Pt (Num K)) :
    (p.1 = nan ∨ p.2 = nan → enclosesPoint b p = false) ∧ (p.1 ≠ nan → p.2 ≠ nan → p ∈ ps → enclosesPoint (rectangle ps) p = true) := by
  constructor
  · have h1 : ∀ a : Num K, le a nan = false := by intro a; cases a <;> rfl
    rintro (h | h) <;> simp [enclosesPoint, h, h1]
  · intro hx hy hp
    obtain ⟨-, h, -⟩ := C115_rectangle ps
    obtain ⟨a, b⟩ := h p hp
    simp [enclosesPoint, a hx, b hy]

/-- C115: width and height are never NaN; the area is NaN exactly when one of them is infinite and the other zero. -/
theorem C115_measures [IsStrictOrderedRing K] (ps : Segment (Num K)) : width (rectangle ps) ≠ nan ∧ height (rectangle ps) ≠ nan ∧
    (area (rectangle ps) = nan ↔ (width (rectangle ps) = inf true ∧ height (rectangle ps) = fin 0) ∨
      (width (rectangle ps) = fin 0 ∧ height (rectangle ps) = inf true)) := by
  have key : ∀ l r : Num K, le l (fin 32768) = true → le (fin (-32768)) r = true → (∃ x, sub r l = fin x) ∨ sub r l = inf true := by
    intro l r h1 h2
    cases l with
    | nan => simp [le, lt, eq] at h1
    | inf p =>
      cases p
      · cases r with
        | nan => simp [le, lt, eq] at h2
        | inf q => cases q <;> simp [le, lt, eq] at h2 <;> exact .inr rfl
        | fin y => exact .inr rfl
      · simp [le, lt, eq] at h1
    | fin x =>
      cases r with
      | nan => simp [le, lt, eq] at h2
      | inf q => cases q <;> simp [le, lt, eq] at h2 <;> exact .inr rfl
      | fin y => exact .inl ⟨_, rfl⟩
  have hw : (∃ x, width (rectangle ps) = fin x) ∨ width (rectangle ps) = inf true := by
    rw [rectangle_sides]
    exact key _ _ (foldl_min _ _ (by simp)).2.1 (foldl_max _ _ (by simp)).2.1
  have hh : (∃ x, height (rectangle ps) = fin x) ∨ height (rectangle ps) = inf true := by
    rw [rectangle_sides]
    exact key _ _ (foldl_min _ _ (by simp)).2.1 (foldl_max _ _ (by simp)).2.1
  unfold area
  rcases hw with ⟨x, hx⟩ | hx <;> rcases hh with ⟨y, hy⟩ | hy <;> rw [hx, hy] <;> simp [mul]

/-- C115: the union of two rectangles made from points is made from points, so it has no NaN side, and contains the points of both. -/
theorem C115_union (ps qs : Segment (Num K)) : (∃ l, union (rectangle ps) (rectangle qs) = rectangle l) ∧
    ∀ p, enclosesPoint (rectangle ps) p = true ∨ enclosesPoint (rectangle qs) p = true → enclosesPoint (union (rectangle ps) (rectangle qs)) p = true := by
  refine ⟨⟨_, rfl⟩, fun p h => ?_⟩
  obtain ⟨⟨a1, a2, a3, a4⟩, -, -⟩ := C115_rectangle ps
  obtain ⟨⟨b1, b2, b3, b4⟩, -, -⟩ := C115_rectangle qs
  obtain ⟨-, hm, -⟩ := C115_rectangle [(Num.min (rectangle ps).left (rectangle qs).left, Num.min (rectangle ps).bottom (rectangle qs).bottom),
    (Num.max (rectangle ps).right (rectangle qs).right, Num.max (rectangle ps).top (rectangle qs).top)]
  have u1 := hm _ (List.mem_cons_self ..)
  have u2 := hm _ (List.mem_cons_of_mem _ (List.mem_cons_self ..))
  have l := (u1.1 (min_ne_nan _ a1)).1
  have b := (u1.2 (min_ne_nan _ a3)).1
  have r := (u2.1 (max_ne_nan _ a2)).2
  have t := (u2.2 (max_ne_nan _ a4)).2
  unfold union
  simp only [enclosesPoint, Bool.and_eq_true] at h ⊢
  rcases h with ⟨⟨h1, h2⟩, h3, h4⟩ | ⟨⟨h1, h2⟩, h3, h4⟩
  · exact ⟨⟨le_trans' l (le_trans' (min_le_left' _ a1) h1), le_trans' h2 (le_trans' (le_max_left' _ a2) r)⟩,
      le_trans' b (le_trans' (min_le_left' _ a3) h3), le_trans' h4 (le_trans' (le_max_left' _ a4) t)⟩
  · exact ⟨⟨le_trans' l (le_trans' (min_le_right' a1 b1) h1), le_trans' h2 (le_trans' (le_max_right' a2 b2) r)⟩,
      le_trans' b (le_trans' (min_le_right' a3 b3) h3), le_trans' h4 (le_trans' (le_max_right' a4 b4) t)⟩

/-- Cases: a NaN is skipped although its point has another coordinate; an infinite width; an area that is NaN. -/
example : rectangle [((nan : Num ℚ), fin 5), (fin 1, nan), (fin 3, fin 7)] = ⟨fin 1, fin 5, fin 3, fin 7⟩ := by decide +kernel
example : width (rectangle [((inf true : Num ℚ), fin 5), (fin 1, fin 6)]) = inf true := by decide +kernel
example : area (rectangle [((inf true : Num ℚ), fin 5), (fin 1, fin 5)]) = nan := by decide +kernel
example : enclosesPoint (rectangle [((nan : Num ℚ), fin 5), (fin 1, nan), (fin 3, fin 7)]) (nan, fin 5) = false := by decide +kernel

end field

end PathLib
