import Verif.Model.BezierUtilities
import Verif.Lemmas.Bernstein
import Mathlib.Data.List.Dedup

/-!
# Property theorems about `BezierUtilities` (C26-C29)
-/

set_option linter.unusedSectionVars false
set_option linter.unusedSimpArgs false

namespace PathLib
open Spec

/-! ## C26 -/

private theorem removeDuplicates_filter {α : Type} [DecidableEq α] (l : List α) :
    butils.removeDuplicates l =
      (List.range l.length).filterMap fun i => l[i]?.bind fun v =>
        if l.idxOf v = i then some v else none := by
  unfold butils.removeDuplicates
  have : ∀ (is : List ℕ) (acc : List α),
      is.foldl (fun result i => match l[i]? with
        | some v => if l.idxOf v = i then result ++ [v] else result
        | none => result) acc = acc ++ is.filterMap fun i => l[i]?.bind fun v =>
        if l.idxOf v = i then some v else none := by
    intro is
    induction is with
    | nil => simp
    | cons i is ih =>
      intro acc
      rw [List.foldl_cons, ih]
      cases h : l[i]? with
      | none => simp [h]
      | some v => by_cases h2 : l.idxOf v = i <;> simp [h, h2]
  exact (this _ []).trans (List.nil_append _)

/-- The loop computes: keep the head, drop its later copies, recurse (the reference definition). -/
def Spec.firstOccurrences {α : Type} [DecidableEq α] : List α → List α
  | [] => []
  | a :: l => a :: (firstOccurrences l).filter (· ≠ a)

/-- C26: `removeDuplicates` keeps the head and removes its later copies, recursively. -/
theorem C26_eq_firstOccurrences {α : Type} [DecidableEq α] (l : List α) :
    butils.removeDuplicates l = firstOccurrences l := by
  rw [removeDuplicates_filter]
  induction l with
  | nil => rfl
  | cons a l ih =>
    rw [firstOccurrences, List.length_cons, List.range_succ_eq_map, List.filterMap_cons]
    simp only [List.getElem?_cons_zero, Option.bind_some, List.idxOf_cons_self, if_true]
    congr 1
    rw [← ih, List.filterMap_map, List.filter_filterMap]
    apply List.filterMap_congr
    intro i hi
    simp only [Function.comp_apply, List.getElem?_cons_succ]
    have hi' : i < l.length := by simpa using hi
    rw [List.getElem?_eq_getElem hi']
    simp only [Option.bind_some]
    by_cases h : l[i] = a
    · rw [h]; by_cases h2 : l.idxOf a = i <;> simp [h2, Option.filter]
    · have : (a == l[i]) = false := by simpa using fun e => h e.symm
      by_cases h2 : l.idxOf l[i] = i <;> simp [List.idxOf_cons, this, h2, h, Option.filter]

/-- C26: the result has the same members as the input. -/
theorem C26_mem {α : Type} [DecidableEq α] (l : List α) (x : α) :
    x ∈ butils.removeDuplicates l ↔ x ∈ l := by
  rw [C26_eq_firstOccurrences]
  induction l with
  | nil => simp [firstOccurrences]
  | cons a l ih =>
    simp only [firstOccurrences, List.mem_cons, List.mem_filter, ih]
    by_cases h : x = a <;> simp [h]

/-- C26: the result has no duplicates. -/
theorem C26_nodup {α : Type} [DecidableEq α] (l : List α) : (butils.removeDuplicates l).Nodup := by
  rw [C26_eq_firstOccurrences]
  induction l with
  | nil => simp [firstOccurrences]
  | cons a l ih =>
    rw [firstOccurrences, List.nodup_cons]
    exact ⟨by simp, ih.filter _⟩

/-- C26: the result is a sublist of the input (order preserved). -/
theorem C26_sublist {α : Type} [DecidableEq α] (l : List α) :
    List.Sublist (butils.removeDuplicates l) l := by
  rw [C26_eq_firstOccurrences]
  induction l with
  | nil => simp [firstOccurrences]
  | cons a l ih =>
    rw [firstOccurrences]
    exact (List.Sublist.trans (List.filter_sublist) ih).cons_cons a

/-- C26: values are ordered by their first occurrence in the input. -/
theorem C26_order {α : Type} [DecidableEq α] (l : List α) :
    (butils.removeDuplicates l).Pairwise fun x y => l.idxOf x < l.idxOf y := by
  rw [C26_eq_firstOccurrences]
  induction l with
  | nil => simp [firstOccurrences]
  | cons a l ih =>
    rw [firstOccurrences, List.pairwise_cons]
    constructor
    · intro b hb
      have hb2 : b ≠ a := by simpa using (List.mem_filter.mp hb).2
      have : (a == b) = false := by simpa using fun e => hb2 e.symm
      simp [List.idxOf_cons, this]
    · refine (ih.filter _).imp_of_mem ?_
      intro x y hx hy hxy
      have hx2 : x ≠ a := by simpa using (List.mem_filter.mp hx).2
      have hy2 : y ≠ a := by simpa using (List.mem_filter.mp hy).2
      have e1 : (a == x) = false := by simpa using fun e => hx2 e.symm
      have e2 : (a == y) = false := by simpa using fun e => hy2 e.symm
      simp [List.idxOf_cons, e1, e2, hxy]

/-- C26: a list without duplicates is unchanged. -/
theorem C26_of_nodup {α : Type} [DecidableEq α] (l : List α) (h : l.Nodup) :
    butils.removeDuplicates l = l := by
  rw [C26_eq_firstOccurrences]
  induction l with
  | nil => rfl
  | cons a l ih =>
    rw [List.nodup_cons] at h
    rw [firstOccurrences, ih h.2, List.filter_eq_self.mpr]
    intro b hb
    have : b ≠ a := fun e => h.1 (e ▸ hb)
    simpa using this

/-- C26: idempotence. -/
theorem C26_idempotent {α : Type} [DecidableEq α] (l : List α) :
    butils.removeDuplicates (butils.removeDuplicates l) = butils.removeDuplicates l :=
  C26_of_nodup _ (C26_nodup l)

example : butils.removeDuplicates [3, 1, 3, 2, 1] = [3, 1, 2] := by decide

/-! ## C27 -/

/-- C27: for three Bernstein coefficients, not all zero, the numbers returned are exactly the real roots. -/
theorem C27_quadratic (a b c t : ℝ) (h : ¬ (a = 0 ∧ b = 0 ∧ c = 0)) :
    some t ∈ butils.droots [a, b, c] ↔ bernList [a, b, c] t = 0 := by
  rw [bernList_three]
  unfold butils.droots butils.sqrt
  simp only
  by_cases hd : a - 2 * b + c = 0
  · have ha : a = 2 * b - c := by linarith
    by_cases hbc : b = c
    · subst hbc
      have hab : a = b := by linarith
      subst hab
      rw [if_neg (not_not.mpr hd), if_neg (by simp)]
      simp only [List.not_mem_nil, false_iff]
      intro h0
      have : a = 0 := by linear_combination h0
      exact h ⟨this, this, this⟩
    · have hbc' : b - c ≠ 0 := sub_ne_zero.mpr hbc
      rw [if_neg (not_not.mpr hd), if_pos ⟨hbc, hd⟩]
      simp only [List.mem_singleton, Option.some.injEq]
      rw [eq_div_iff (by simpa using hbc')]
      subst ha
      constructor
      · intro e; linear_combination -e
      · intro e; linear_combination -e
  · simp only [ne_eq, hd, not_false_eq_true, if_true]
    by_cases hr : b * b - a * c < 0
    · simp only [hr, if_true, Option.map_none, List.mem_cons, List.not_mem_nil, or_false,
        reduceCtorEq, or_self, false_iff]
      intro e
      have : ((a - 2 * b + c) * t + (b - a)) ^ 2 = b * b - a * c := by
        linear_combination (a - 2 * b + c) * e
      nlinarith [sq_nonneg ((a - 2 * b + c) * t + (b - a))]
    · simp only [hr, if_false, Option.map_some, List.mem_cons, Option.some.injEq, List.not_mem_nil,
        or_false]
      rw [eq_div_iff hd, eq_div_iff hd]
      set s := Real.sqrt (b * b - a * c) with hs
      have hs2 : s * s = b * b - a * c := Real.mul_self_sqrt (not_lt.mp hr)
      have key : ((a - 2 * b + c) * t + (b - a)) ^ 2 - s * s =
          (a - 2 * b + c) * ((1 - t) ^ 2 * a + 2 * (1 - t) * t * b + t ^ 2 * c) := by
        rw [hs2]; ring
      constructor
      · intro e
        have : (a - 2 * b + c) * ((1 - t) ^ 2 * a + 2 * (1 - t) * t * b + t ^ 2 * c) = 0 := by
          rw [← key]
          rcases e with e | e
          · linear_combination ((a - 2 * b + c) * t + (b - a) + s) * e
          · linear_combination ((a - 2 * b + c) * t + (b - a) - s) * e
        exact (mul_eq_zero.mp this).resolve_left hd
      · intro e
        rw [e, mul_zero] at key
        have : (((a - 2 * b + c) * t + (b - a)) - s) * (((a - 2 * b + c) * t + (b - a)) + s) = 0 := by
          linear_combination key
        rcases mul_eq_zero.mp this with h | h
        · left; linear_combination h
        · right; linear_combination h

/-- C27: NaN entries appear exactly when the quadratic has no real root. -/
theorem C27_quadratic_nan (a b c : ℝ) :
    none ∈ butils.droots [a, b, c] ↔ a - 2 * b + c ≠ 0 ∧ b * b - a * c < 0 := by
  unfold butils.droots butils.sqrt
  simp only
  by_cases hd : a - 2 * b + c = 0
  · by_cases hbc : b = c <;> simp [hd, hbc]
  · by_cases hr : b * b - a * c < 0 <;> simp [hd, hr]

/-- C27: NaN entries mean there is no real root at all. -/
theorem C27_quadratic_nan_no_root (a b c : ℝ) (h : none ∈ butils.droots [a, b, c]) (t : ℝ) :
    bernList [a, b, c] t ≠ 0 := by
  rw [C27_quadratic_nan] at h
  rw [bernList_three]
  intro e
  have : ((a - 2 * b + c) * t + (b - a)) ^ 2 = b * b - a * c := by
    linear_combination (a - 2 * b + c) * e
  nlinarith [sq_nonneg ((a - 2 * b + c) * t + (b - a))]

/-- C27: two Bernstein coefficients, not both zero. -/
theorem C27_linear (a b t : ℝ) (h : ¬ (a = 0 ∧ b = 0)) :
    some t ∈ butils.droots [a, b] ↔ bernList [a, b] t = 0 := by
  rw [bernList_two]
  unfold butils.droots
  by_cases hab : a = b
  · subst hab
    simp only [ne_eq, not_true, if_false, List.not_mem_nil, false_iff]
    intro e
    apply h
    have : a = 0 := by linear_combination e
    exact ⟨this, this⟩
  · simp only [ne_eq, hab, not_false_eq_true, if_true, List.mem_singleton, Option.some.injEq]
    rw [eq_div_iff (sub_ne_zero.mpr hab)]
    constructor
    · intro e; linear_combination -e
    · intro e; linear_combination -e

/-- C27: constant polynomials (this includes the zero polynomial) give no roots. -/
theorem C27_constant (a : ℝ) : butils.droots [a, a, a] = [] ∧ butils.droots [a, a] = [] := by
  unfold butils.droots
  have : a - 2 * a + a = 0 := by ring
  simp [this]

/-- C27: any other length gives no roots. -/
theorem C27_other_length (p : List ℝ) (h2 : p.length ≠ 2) (h3 : p.length ≠ 3) :
    butils.droots p = [] := by
  unfold butils.droots
  split
  · simp at h3
  · simp at h2
  · rfl

example : ¬ ((1:ℝ) = 0 ∧ (-1:ℝ) = 0 ∧ (2:ℝ) = 0) := by norm_num
example : some (1/2 : ℝ) ∈ butils.droots [1, -1, 1] :=
  (C27_quadratic _ _ _ _ (by norm_num)).mpr (by rw [bernList_three]; norm_num)

/-! ## C28 -/

section
variable {K : Type} [Field K] [LinearOrder K]

/-- C28: `None` is returned exactly for parallel lines. -/
theorem C28_none_iff (a b c d : Pt K) :
    butils.lli [a, b] [c, d] = .ok none ↔ Parallel a b c d := by
  simp only [butils.lli, butils.lli4, butils.lli8, pyGet_zero_cons, pyGet_one_cons, ok_bind,
    pure_eq_ok, Except.ok.injEq]
  unfold Parallel
  split_ifs with h
  · simp only [true_iff]; linear_combination h
  · simp only [reduceCtorEq, false_iff]
    intro h2; apply h; linear_combination h2

/-- C28: a returned point is on both lines. -/
theorem C28_sound (a b c d p : Pt K) (h : butils.lli [a, b] [c, d] = .ok (some p)) :
    OnLine a b p ∧ OnLine c d p := by
  simp only [butils.lli, butils.lli4, butils.lli8, pyGet_zero_cons, pyGet_one_cons, ok_bind,
    pure_eq_ok, Except.ok.injEq] at h
  split_ifs at h with hd
  simp only [Option.some.injEq] at h
  subst h
  set D := (a.1 - b.1) * (c.2 - d.2) - (a.2 - b.2) * (c.1 - d.1) with hD
  constructor
  · refine ⟨((a.1 - c.1) * (c.2 - d.2) - (a.2 - c.2) * (c.1 - d.1)) / D, ?_, ?_⟩
    · simp only; field_simp; rw [hD]; ring
    · simp only; field_simp; rw [hD]; ring
  · refine ⟨((a.1 - c.1) * (a.2 - b.2) - (a.2 - c.2) * (a.1 - b.1)) / D, ?_, ?_⟩
    · simp only; field_simp; rw [hD]; ring
    · simp only; field_simp; rw [hD]; ring

/-- Two non-parallel lines have at most one common point. -/
theorem C28_unique (a b c d p q : Pt K) (h : ¬ Parallel a b c d)
    (hp : OnLine a b p ∧ OnLine c d p) (hq : OnLine a b q ∧ OnLine c d q) : p = q := by
  obtain ⟨⟨s, s1, s2⟩, ⟨u, u1, u2⟩⟩ := hp
  obtain ⟨⟨s', s1', s2'⟩, ⟨u', u1', u2'⟩⟩ := hq
  have hs : s = s' := by
    have : (s - s') * ((b.1 - a.1) * (d.2 - c.2) - (b.2 - a.2) * (d.1 - c.1)) = 0 := by
      linear_combination (d.2 - c.2) * (u1 - s1 + s1' - u1') - (d.1 - c.1) * (u2 - s2 + s2' - u2')
    rcases mul_eq_zero.mp this with h1 | h1
    · exact sub_eq_zero.mp h1
    · exact absurd (sub_eq_zero.mp h1) h
  apply Prod.ext
  · rw [s1, s1', hs]
  · rw [s2, s2', hs]

/-- C28: for non-parallel lines the unique common point is returned. -/
theorem C28_complete (a b c d p : Pt K) (h : ¬ Parallel a b c d)
    (hp : OnLine a b p) (hp' : OnLine c d p) : butils.lli [a, b] [c, d] = .ok (some p) := by
  cases hl : butils.lli [a, b] [c, d] with
  | error e => simp [butils.lli] at hl
  | ok o =>
    cases o with
    | none => exact absurd ((C28_none_iff a b c d).mp hl) h
    | some q => rw [C28_unique a b c d p q h ⟨hp, hp'⟩ (C28_sound a b c d q hl)]

/-- C28: symmetric in the two lines and in the orientation of each. -/
theorem C28_symm (a b c d : Pt K) :
    butils.lli [c, d] [a, b] = butils.lli [a, b] [c, d] ∧
    butils.lli [b, a] [c, d] = butils.lli [a, b] [c, d] := by
  have flip : ∀ {x y p : Pt K}, OnLine x y p → OnLine y x p := by
    rintro x y p ⟨s, h1, h2⟩
    exact ⟨1 - s, by rw [h1]; ring, by rw [h2]; ring⟩
  constructor
  · cases hl : butils.lli [a, b] [c, d] with
    | error e => simp [butils.lli] at hl
    | ok o =>
      cases o with
      | none =>
        rw [C28_none_iff] at hl ⊢; unfold Parallel at *; linear_combination -hl
      | some q =>
        have := C28_sound a b c d q hl
        refine C28_complete c d a b q ?_ this.2 this.1
        intro hp
        have : butils.lli [a, b] [c, d] = .ok none := (C28_none_iff ..).mpr (by
          unfold Parallel at *; linear_combination -hp)
        rw [hl] at this; simp at this
  · cases hl : butils.lli [a, b] [c, d] with
    | error e => simp [butils.lli] at hl
    | ok o =>
      cases o with
      | none =>
        rw [C28_none_iff] at hl ⊢; unfold Parallel at *; linear_combination -hl
      | some q =>
        have := C28_sound a b c d q hl
        refine C28_complete b a c d q ?_ (flip this.1) this.2
        intro hp
        have : butils.lli [a, b] [c, d] = .ok none := (C28_none_iff ..).mpr (by
          unfold Parallel at *; linear_combination -hp)
        rw [hl] at this; simp at this

/-- C28: only the first two points matter, shorter segments raise `IndexError`. -/
theorem C28_domain (l1 l2 : Segment K) :
    (∃ o, butils.lli l1 l2 = .ok o) ↔ 2 ≤ l1.length ∧ 2 ≤ l2.length := by
  have e1 : ∀ a : Pt K, pyGet [a] 1 = .error .indexError := fun a => rfl
  match l1, l2 with
  | [], _ => simp [butils.lli]
  | [a], _ => simp [butils.lli, e1]
  | _ :: _ :: _, [] => simp [butils.lli]
  | _ :: _ :: _, [c] => simp [butils.lli, e1]
  | a :: b :: _, c :: d :: _ => simp [butils.lli]

example : butils.lli [((0:ℚ), 0), (2, 2)] [(0, 2), (2, 0)] = .ok (some (1, 1)) := by decide +kernel
example : ¬ Parallel ((0:ℚ), (0:ℚ)) (2, 2) (0, 2) (2, 0) := by unfold Parallel; decide +kernel

end

/-! ## C29 -/

section
variable {K : Type} [Field K] [LinearOrder K] [IsStrictOrderedRing K]

/-- C29: `lerp` at 0 and 1, on the segment in between. -/
theorem C29_lerp (r : K) (a b : Pt K) :
    butils.lerp 0 a b = a ∧ butils.lerp 1 a b = b ∧ butils.lerp r b a = butils.lerp (1 - r) a b ∧
    OnLine a b (butils.lerp r a b) ∧
    (0 ≤ r → r ≤ 1 → OnSegment a b (butils.lerp r a b) ∧
      InBox (min a.1 b.1) (min a.2 b.2) (max a.1 b.1) (max a.2 b.2) (butils.lerp r a b)) := by
  unfold butils.lerp
  refine ⟨by simp, by simp, ?_, ⟨r, rfl, rfl⟩, ?_⟩
  · ext <;> simp <;> ring
  · intro h0 h1
    refine ⟨⟨r, h0, h1, rfl, rfl⟩, ?_⟩
    have key : ∀ x y : K, min x y ≤ x + r * (y - x) ∧ x + r * (y - x) ≤ max x y := by
      intro x y
      constructor
      · rcases le_total x y with h | h
        · rw [min_eq_left h]; nlinarith
        · rw [min_eq_right h]; nlinarith
      · rcases le_total x y with h | h
        · rw [max_eq_right h]; nlinarith
        · rw [max_eq_left h]; nlinarith
    exact ⟨key _ _, key _ _⟩

/-- C29: `map` raises exactly when the source range is degenerate, and otherwise maps the ends to the
ends, affinely. -/
theorem C29_map (ds de ts te : K) :
    (ds = de → ∀ v, butils.map v ds de ts te = .error .zeroDivisionError) ∧
    (ds ≠ de → butils.map ds ds de ts te = .ok ts ∧ butils.map de ds de ts te = .ok te ∧
      ∀ v, ∃ w, butils.map v ds de ts te = .ok w ∧ (w - ts) * (de - ds) = (v - ds) * (te - ts)) := by
  constructor
  · rintro rfl v; simp [butils.map]
  · intro h
    have h' : de - ds ≠ 0 := sub_ne_zero.mpr (Ne.symm h)
    unfold butils.map
    simp only [pdiv_of_ne _ h', ok_bind, pure_eq_ok, Except.ok.injEq]
    refine ⟨by simp, by field_simp; ring, fun v => ⟨_, rfl, ?_⟩⟩
    field_simp; ring

/-- C29: `map` with swapped ranges is the inverse, and maps are monotone for increasing ranges. -/
theorem C29_map_inverse (v ds de ts te : K) (h1 : ds ≠ de) (h2 : ts ≠ te) :
    (butils.map v ds de ts te >>= fun w => butils.map w ts te ds de) = .ok v := by
  have h1' : de - ds ≠ 0 := sub_ne_zero.mpr (Ne.symm h1)
  have h2' : te - ts ≠ 0 := sub_ne_zero.mpr (Ne.symm h2)
  unfold butils.map
  simp only [pdiv_of_ne _ h1', pdiv_of_ne _ h2', ok_bind, pure_eq_ok, Except.ok.injEq]
  field_simp; ring

/-- C29: points of the source range go to points of the target range, in order. -/
theorem C29_map_range (v v' ds de ts te w w' : K) (h : ds < de) (ht : ts ≤ te)
    (h0 : ds ≤ v) (hv : v ≤ v') (h1 : v' ≤ de)
    (hw : butils.map v ds de ts te = .ok w) (hw' : butils.map v' ds de ts te = .ok w') :
    ts ≤ w ∧ w ≤ w' ∧ w' ≤ te := by
  have hd : 0 < de - ds := sub_pos.mpr h
  unfold butils.map at hw hw'
  simp only [pdiv_of_ne _ hd.ne', ok_bind, pure_eq_ok, Except.ok.injEq] at hw hw'
  subst hw; subst hw'
  have a1 : 0 ≤ (v - ds) / (de - ds) := div_nonneg (by linarith) hd.le
  have a2 : (v - ds) / (de - ds) ≤ (v' - ds) / (de - ds) :=
    div_le_div_of_nonneg_right (by linarith) hd.le
  have a3 : (v' - ds) / (de - ds) ≤ 1 := by rw [div_le_one hd]; linarith
  refine ⟨?_, ?_, ?_⟩ <;> nlinarith

example : butils.map (3:ℚ) 2 4 10 20 = .ok 15 := by decide +kernel

end

/-- C29: `crt` is a cube root. -/
theorem C29_crt_cube (v : ℝ) : butils.crt v ^ 3 = v := by
  have key : ∀ x : ℝ, 0 ≤ x → (Real.rpow x (1 / 3)) ^ 3 = x := by
    intro x hx
    have := Real.rpow_mul_natCast hx (1/3) 3
    rw [← Real.rpow_eq_pow] at this
    change (x ^ (1 / 3 : ℝ)) ^ 3 = x
    rw [← Real.rpow_natCast, ← Real.rpow_mul hx]; norm_num
  unfold butils.crt
  split_ifs with h
  · have := key (-v) (by linarith)
    rw [Odd.neg_pow (by decide), this]; ring
  · exact key v (not_lt.mp h)

/-- C29: `crt` is the only real cube root; hence it is odd and monotone. -/
theorem C29_crt_unique (v w : ℝ) (h : w ^ 3 = v) : butils.crt v = w := by
  have h3 : Odd 3 := by decide
  exact h3.strictMono_pow.injective ((C29_crt_cube v).trans h.symm)

/-- C29: `crt` is odd. -/
theorem C29_crt_odd (v : ℝ) : butils.crt (-v) = -butils.crt v :=
  C29_crt_unique _ _ (by rw [Odd.neg_pow (by decide), C29_crt_cube])

/-- C29: `crt` is strictly increasing. -/
theorem C29_crt_mono (v w : ℝ) (h : v < w) : butils.crt v < butils.crt w := by
  have h3 : Odd 3 := by decide
  rw [← h3.strictMono_pow.lt_iff_lt, C29_crt_cube, C29_crt_cube]; exact h

end PathLib
