import Verif.Model.RoundedIntersect
import Verif.Props.BezierIntersect
import Verif.Props.RoundedBounds

/-!
# Intersections of curves in floating point: C99
-/

set_option linter.unusedSectionVars false
set_option linter.unusedSimpArgs false

namespace PathLib

open Spec Bezier
open Rounded (Part)

/-! ## Without rounding -/

/-- The control points, `_t1` and `_t2` of a curve. -/
def Spec.toPart (b : Bezier) : Part := ⟨b.controlPoints, b.t1, b.t2⟩

private theorem split1_exact (b : Bezier) (hn : QuadOrCubic b) (t : ℝ) : ∃ l r, split1 b t = .ok (l, r, hull b.controlPoints t) ∧
    Rounded.split1 Rounding.exact (toPart b) t = .ok (toPart l, toPart r) ∧ QuadOrCubic l ∧ QuadOrCubic r := by
  obtain ⟨l, r, h, l1, r1, a1, a2, b1, b2, -, -⟩ := split1_spec b hn t
  have hx := (C83_exact b.controlPoints t).2 b l r _ rfl h
  refine ⟨l, r, h, ?_, ?_, ?_⟩
  · unfold Rounded.split1 toPart
    simp only
    rw [hx, ok_bind]
    have m : ∀ v, Rounded.map Rounding.exact v 0 1 b.t1 b.t2 = .ok (b.t1 + (b.t2 - b.t1) * v) := by
      intro v
      unfold Rounded.map Rounded.pdiv
      simp [Rounding.exact, Rounding.sub, Rounding.add, Rounding.mul, Rounding.div]
    simp only [m, ok_bind, pure_eq_ok]
    rw [a1, a2, b1, b2]
    simp
  · unfold QuadOrCubic at *; rw [l1]; exact hn
  · unfold QuadOrCubic at *; rw [r1]; exact hn

private theorem overlaps_exact (a b : Bezier) : Rounded.overlaps Rounding.exact (toPart a) (toPart b) = overlaps a b := by
  unfold Rounded.overlaps overlaps toPart
  simp only [(C93_exact _).2]

private theorem filterM_map {α β : Type} (f : α → β) (p : β → Py Bool) (l : List α) :
    (l.map f).filterM p = (l.filterM fun a => p (f a)).map (List.map f) := by
  unfold List.filterM
  have : ∀ (l acc : List α), List.filterAuxM p (l.map f) (acc.map f) = (List.filterAuxM (fun a => p (f a)) l acc).map (List.map f) := by
    intro l
    induction l with
    | nil => intro acc; rfl
    | cons a l ih =>
      intro acc
      rw [List.map_cons, List.filterAuxM, List.filterAuxM]
      cases p (f a) with
      | error e => rfl
      | ok b =>
        rw [ok_bind, ok_bind]
        cases b
        · exact ih acc
        · exact ih (a :: acc)
  have h := this l []
  rw [List.map_nil] at h
  rw [h]
  cases List.filterAuxM (fun a => p (f a)) l [] with
  | error e => rfl
  | ok r => show Except.ok _ = Except.ok _; rw [List.map_reverse]

private theorem mapM_congr {α β : Type} (f g : α → Py β) (l : List α) (h : ∀ a ∈ l, f a = g a) : l.mapM f = l.mapM g := by
  induction l with
  | nil => rfl
  | cons a l ih => rw [List.mapM_cons, List.mapM_cons, h a (by simp), ih fun a ha => h a (by simp [ha])]

private theorem mapM_map {α β γ : Type} (f : α → β) (g : β → Py γ) (l : List α) : (l.map f).mapM g = l.mapM fun a => g (f a) := by
  induction l with
  | nil => rfl
  | cons a l ih => rw [List.map_cons, List.mapM_cons, List.mapM_cons, ih]

/-- C99: without rounding `pairiteration` and `curveIntersects` are those of the exact model. -/
theorem C99_exact (depth : Nat) (c1 c2 : Bezier) (h1 : QuadOrCubic c1) (h2 : QuadOrCubic c2) (θ : ℝ) :
    Rounded.pairiteration Rounding.exact depth (toPart c1) (toPart c2) θ = pairiteration depth c1 c2 θ := by
  induction depth generalizing c1 c2 with
  | zero => rfl
  | succ depth ih =>
    obtain ⟨l1, r1, s1, s1', ql1, qr1⟩ := split1_exact c1 h1 (1 / 2)
    obtain ⟨l2, r2, s2, s2', ql2, qr2⟩ := split1_exact c2 h2 (1 / 2)
    have hb : ∀ c : Bezier, Rounded.boundsRectangle Rounding.exact (toPart c).points = boundsRectangle c.controlPoints := fun c => (C93_exact _).2
    rw [Rounded.pairiteration, pairiteration, hb, hb]
    cases boundsRectangle c1.controlPoints with
    | error e => rfl
    | ok b1 =>
      rw [ok_bind, ok_bind]
      cases boundsRectangle c2.controlPoints with
      | error e => rfl
      | ok b2 =>
        rw [ok_bind, ok_bind]
        have e : ∀ b : BoundsRectangle ℝ, Rounded.extent Rounding.exact b = b.height + b.width := fun b => rfl
        simp only [e]
        split_ifs with hs
        · rfl
        · rw [s1, s2, s1', s2']
          simp only [ok_bind]
          have hm : [(toPart l1, toPart l2), (toPart l1, toPart r2), (toPart r1, toPart r2), (toPart r1, toPart l2)] =
              [(l1, l2), (l1, r2), (r1, r2), (r1, l2)].map fun (p : Bezier × Bezier) => (toPart p.1, toPart p.2) := rfl
          rw [hm, filterM_map]
          simp only [overlaps_exact]
          cases hf : [(l1, l2), (l1, r2), (r1, r2), (r1, l2)].filterM (fun (pair : Bezier × Bezier) => overlaps pair.1 pair.2) with
          | error e => rfl
          | ok pairs =>
            show (do
              let results ← (pairs.map fun (p : Bezier × Bezier) => (toPart p.1, toPart p.2)).mapM fun (pair : Part × Part) =>
                Rounded.pairiteration Rounding.exact depth pair.1 pair.2 θ
              return butils.removeDuplicates results.flatten) = _
            rw [mapM_map, ok_bind]
            rw [mapM_congr _ (fun (pair : Bezier × Bezier) => pairiteration depth pair.1 pair.2 θ)]
            intro p hp
            have hmem := ((filterM_mem _ _ _ hf p).mp hp).1
            simp only [List.mem_cons, List.not_mem_nil, or_false] at hmem
            rcases hmem with rfl | rfl | rfl | rfl
            · exact ih _ _ ql1 ql2
            · exact ih _ _ ql1 qr2
            · exact ih _ _ qr1 qr2
            · exact ih _ _ qr1 ql2

theorem C99_exact_lists (depth : Nat) (cs1 cs2 : List Bezier) (h1 : ∀ c ∈ cs1, QuadOrCubic c) (h2 : ∀ c ∈ cs2, QuadOrCubic c) (θ : ℝ) :
    Rounded.curveIntersects Rounding.exact depth (cs1.map toPart) (cs2.map toPart) θ = curveIntersects depth cs1 cs2 θ := by
  unfold Rounded.curveIntersects curveIntersects
  have hm : ((cs1.map toPart).flatMap fun (l : Part) => (cs2.map toPart).map fun (r : Part) => (l, r)) =
      (cs1.flatMap fun l => cs2.map fun r => (l, r)).map fun (p : Bezier × Bezier) => (toPart p.1, toPart p.2) := by
    rw [List.flatMap_map, List.map_flatMap]
    simp [Function.comp_def]
  rw [hm, filterM_map]
  simp only [overlaps_exact]
  cases hf : (cs1.flatMap fun l => cs2.map fun r => (l, r)).filterM (fun (pair : Bezier × Bezier) => overlaps pair.1 pair.2) with
  | error e => rfl
  | ok pairs =>
    show (do
      let results ← (pairs.map fun (p : Bezier × Bezier) => (toPart p.1, toPart p.2)).mapM fun (pair : Part × Part) =>
        Rounded.pairiteration Rounding.exact depth pair.1 pair.2 θ
      return results.flatten) = _
    rw [mapM_map, ok_bind]
    rw [mapM_congr _ (fun (pair : Bezier × Bezier) => pairiteration depth pair.1 pair.2 θ)]
    intro p hp
    have hmem := ((filterM_mem _ _ _ hf p).mp hp).1
    simp only [List.mem_flatMap, List.mem_map] at hmem
    obtain ⟨a, ha, b, hb, rfl⟩ := hmem
    exact C99_exact depth a b (h1 a ha) (h2 b hb) θ

/-! ## The box of a curve -/

section box

private theorem fu : float.u = 1 / 2 ^ 53 := by
  show (2:ℝ) ^ (-53 : ℤ) = _
  norm_num [zpow_neg]

private theorem rnd_err (x : ℝ) : |float.rnd x - x| ≤ 1 / 2 ^ 53 * |x| := by
  have := float.error x
  rwa [fu] at this

/-- The extrema in one coordinate: the computation does not fail. -/
private theorem extremaDim_ok (ps : Segment ℝ) (hn : ps.length = 3 ∨ ps.length = 4) (d : Fin 2) :
    ∃ l, Rounded.extremaDim float (order ps) (Rounded.dcPoints float ps) d = .ok l ∧ ∀ t ∈ l, 0 ≤ t ∧ t ≤ 1 := by
  have hdc : ∀ qs : Segment ℝ, 1 < qs.length → Rounded.dcPoints float qs = Rounded.dcStep float qs :: Rounded.dcPoints float (Rounded.dcStep float qs) := by
    intro qs h
    rw [Rounded.dcPoints, if_pos h]
  have hlen := Rounded.dcStep_length float ps
  rw [hdc ps (by omega), hdc (Rounded.dcStep float ps) (by omega)]
  unfold Rounded.extremaDim
  rw [pyGet_zero_cons, pyGet_one_cons]
  simp only [ok_bind, pure_eq_ok]
  split_ifs
  · exact ⟨_, rfl, fun t ht => ((mem_filterMap01 _ t).mp ht).1⟩
  · exact ⟨_, rfl, fun t ht => ((mem_filterMap01 _ t).mp ht).1⟩

private theorem dim_ok (ps : Segment ℝ) (hn : ps.length = 3 ∨ ps.length = 4) (hB : ∀ p ∈ ps, |p.1| ≤ 32768 ∧ |p.2| ≤ 32768) (dim : Fin 2) :
    ∃ l m M, Rounded.extremaDim float (order ps) (Rounded.dcPoints float ps) dim = .ok l ∧
      Rounded.minmaxLoop float ps dim (addEnds l) = .ok (m, M) ∧
      (m ≤ coord dim (curve ps 0) ∧ coord dim (curve ps 0) ≤ M) ∧ (m ≤ coord dim (curve ps 1) ∧ coord dim (curve ps 1) ≤ M) ∧
      (∃ t, 0 ≤ t ∧ t ≤ 1 ∧ |m - coord dim (curve ps t)| ≤ 1 / 10 ^ 10) ∧
      (∃ t, 0 ≤ t ∧ t ≤ 1 ∧ |M - coord dim (curve ps t)| ≤ 1 / 10 ^ 10) := by
  obtain ⟨l, e1, hl⟩ := extremaDim_ok ps hn dim
  have hne : ps ≠ [] := by rintro rfl; simp at hn
  have hr : ∀ t ∈ addEnds l, 0 ≤ t ∧ t ≤ 1 := by
    intro t ht
    rcases (mem_addEnds l t).mp ht with rfl | rfl | ht
    · norm_num
    · norm_num
    · exact hl t ht
  have hget : ∀ t : ℝ, ∃ p, 0 ≤ t → t ≤ 1 → Rounded.get float ps t = .ok p ∧ |coord dim p - coord dim (curve ps t)| ≤ 32768 / 10 ^ 15 := by
    intro t
    by_cases h : 0 ≤ t ∧ t ≤ 1
    · obtain ⟨p, q, a, b, c⟩ := C82_float ps (by omega) (by omega) 32768 hB t h.1 h.2
      rw [get_ok ps hne] at b
      cases b
      refine ⟨p, fun _ _ => ⟨a, ?_⟩⟩
      unfold coord
      split_ifs
      · exact c.1
      · exact c.2
    · exact ⟨(0, 0), fun a b => absurd ⟨a, b⟩ h⟩
  choose g hg' using hget
  obtain ⟨m, M, e2, k1, k2, k3⟩ := minmaxLoop_ok float ps dim g (addEnds l) fun t ht => (hg' t (hr t ht).1 (hr t ht).2).1
  obtain ⟨q0, q1⟩ := C82_ends float ps hne
  have g0 : g 0 = curve ps 0 := by
    have := (hg' 0 le_rfl zero_le_one).1
    rw [q0] at this
    rw [curve_zero ps hne]
    exact (Except.ok.inj this).symm
  have g1 : g 1 = curve ps 1 := by
    have := (hg' 1 zero_le_one le_rfl).1
    rw [q1] at this
    rw [curve_at_one ps hne]
    exact (Except.ok.inj this).symm
  have zero := k1 0 (by simp [mem_addEnds])
  have one := k1 1 (by simp [mem_addEnds])
  rw [g0] at zero
  rw [g1] at one
  have small : |coord dim (curve ps 0)| ≤ 32768 := by
    have := in_range ps hne 32768 hB 0 le_rfl zero_le_one
    unfold coord
    split_ifs
    · exact this.1
    · exact this.2
  refine ⟨l, m, M, e1, e2, zero, one, ?_, ?_⟩
  · rcases k2 with k2 | ⟨t, ht, k2⟩
    · exfalso
      have := zero.1
      rw [k2] at this
      unfold maxSafe at this
      rw [abs_le] at small
      linarith [small.2]
    · exact ⟨t, (hr t ht).1, (hr t ht).2, by rw [k2]; exact (hg' t (hr t ht).1 (hr t ht).2).2.trans (by norm_num)⟩
  · rcases k3 with k3 | ⟨t, ht, k3⟩
    · exfalso
      have := zero.2
      rw [k3] at this
      unfold minSafe at this
      rw [abs_le] at small
      linarith [small.1]
    · exact ⟨t, (hr t ht).1, (hr t ht).2, by rw [k3]; exact (hg' t (hr t ht).1 (hr t ht).2).2.trans (by norm_num)⟩

/-- What is always true of the box: it contains the two ends of the curve, and each side is near the curve. -/
structure Spec.BoxOf (ps : Segment ℝ) (b : BoundsRectangle ℝ) : Prop where
  proper : BoundsRectangle.Proper b
  first : b.enclosesPoint (curve ps 0) = true
  last : b.enclosesPoint (curve ps 1) = true
  left : ∃ t, 0 ≤ t ∧ t ≤ 1 ∧ |b.left - (curve ps t).1| ≤ 1 / 10 ^ 10
  right : ∃ t, 0 ≤ t ∧ t ≤ 1 ∧ |b.right - (curve ps t).1| ≤ 1 / 10 ^ 10
  bottom : ∃ t, 0 ≤ t ∧ t ≤ 1 ∧ |b.bottom - (curve ps t).2| ≤ 1 / 10 ^ 10
  top : ∃ t, 0 ≤ t ∧ t ≤ 1 ∧ |b.top - (curve ps t).2| ≤ 1 / 10 ^ 10

/-- C99: the box of a quadratic or cubic curve in floating point, whatever its control points in the design space: it contains both
ends of the curve and no side is more than `10 ^ -10` beyond the curve. That it contains the whole curve is not true in general
(`C93_counterexample`). -/
theorem C99_box (ps : Segment ℝ) (hn : ps.length = 3 ∨ ps.length = 4) (hB : ∀ p ∈ ps, |p.1| ≤ 32768 ∧ |p.2| ≤ 32768) :
    ∃ b, Rounded.boundsRectangle float ps = .ok b ∧ BoxOf ps b := by
  have hne : ps ≠ [] := by rintro rfl; simp at hn
  obtain ⟨lx, m, M, e1, e2, k1, k1', ⟨ta, a0, a1, a2⟩, ⟨tb, b0, b1, b2⟩⟩ := dim_ok ps hn hB 0
  obtain ⟨ly, n, N, e3, e4, k2, k2', ⟨tc, c0, c1, c2⟩, ⟨td, d0, d1, d2⟩⟩ := dim_ok ps hn hB 1
  simp only [coord, if_pos, one_ne_zero, if_false] at k1 k2 k1' k2' a2 b2 c2 d2
  have hmM := k1.1.trans k1.2
  have hnN := k2.1.trans k2.2
  have hb : Rounded.bbox float ps = .ok ((m, M), (n, N)) := by
    unfold Rounded.bbox Rounded.extrema
    rw [e1, ok_bind, e3, ok_bind]
    simp only [pure_eq_ok, ok_bind]
    rw [e2, ok_bind, e4, ok_bind]
  have cb := in_range ps hne 32768 hB
  have hbox : BoundsRectangle.new [(m, n), (M, N)] = (⟨min 32768 m, min 32768 n, max (-32768) M, max (-32768) N⟩ : BoundsRectangle ℝ) := by
    simp only [BoundsRectangle.new, BoundsRectangle.addPoint, BoundsRectangle.init, List.foldl, pyMin_eq, pyMax_eq, min_assoc, max_assoc,
      min_eq_left hmM, min_eq_left hnN, max_eq_right hmM, max_eq_right hnN]
  have low : ∀ m c : ℝ, |c| ≤ 32768 → |m - c| ≤ 1 / 10 ^ 10 → |min 32768 m - c| ≤ 1 / 10 ^ 10 := by
    intro m c hc h
    rcases le_total 32768 m with h' | h'
    · rw [min_eq_left h']
      rw [abs_le] at *
      constructor <;> linarith [hc.1, hc.2, h.1, h.2]
    · rw [min_eq_right h']; exact h
  have high : ∀ m c : ℝ, |c| ≤ 32768 → |m - c| ≤ 1 / 10 ^ 10 → |max (-32768) m - c| ≤ 1 / 10 ^ 10 := by
    intro m c hc h
    rcases le_total (-32768) m with h' | h'
    · rw [max_eq_right h']; exact h
    · rw [max_eq_left h']
      rw [abs_le] at *
      constructor <;> linarith [hc.1, hc.2, h.1, h.2]
  refine ⟨_, by unfold Rounded.boundsRectangle; rw [hb]; rfl, ?_⟩
  have pr : BoundsRectangle.Proper (BoundsRectangle.new [(m, n), (M, N)]) := BoundsRectangle.proper_new (by simp)
  rw [hbox] at pr ⊢
  refine ⟨pr, ?_, ?_, ⟨ta, a0, a1, low _ _ (cb ta a0 a1).1 a2⟩, ⟨tb, b0, b1, high _ _ (cb tb b0 b1).1 b2⟩,
    ⟨tc, c0, c1, low _ _ (cb tc c0 c1).2 c2⟩, ⟨td, d0, d1, high _ _ (cb td d0 d1).2 d2⟩⟩
  all_goals
    rw [BoundsRectangle.enclosesPoint_iff]
    have q1 := min_le_right (32768:ℝ) m
    have q2 := min_le_right (32768:ℝ) n
    have q3 := le_max_right (-32768:ℝ) M
    have q4 := le_max_right (-32768:ℝ) N
    refine ⟨⟨?_, ?_⟩, ?_, ?_⟩ <;> simp only <;> linarith

/-- The size of a box. -/
private theorem extent_near (b : BoundsRectangle ℝ) (h0 : 0 ≤ b.top - b.bottom) (w0 : 0 ≤ b.right - b.left)
    (h1 : b.top - b.bottom ≤ 65537) (w1 : b.right - b.left ≤ 65537) :
    |Rounded.extent float b - ((b.top - b.bottom) + (b.right - b.left))| ≤ 1 / 10 ^ 10 := by
  unfold Rounded.extent Rounding.add Rounding.sub
  have a := rnd_err (b.top - b.bottom)
  have c := rnd_err (b.right - b.left)
  rw [abs_of_nonneg h0] at a
  rw [abs_of_nonneg w0] at c
  generalize float.rnd (b.top - b.bottom) = x at *
  generalize float.rnd (b.right - b.left) = y at *
  have d := rnd_err (x + y)
  have a' : |x - (b.top - b.bottom)| ≤ 1 / 10 ^ 11 := a.trans (by
    calc _ ≤ (1 / 2 ^ 53 : ℝ) * 65537 := mul_le_mul_of_nonneg_left h1 (by positivity)
      _ ≤ _ := by norm_num)
  have c' : |y - (b.right - b.left)| ≤ 1 / 10 ^ 11 := c.trans (by
    calc _ ≤ (1 / 2 ^ 53 : ℝ) * 65537 := mul_le_mul_of_nonneg_left w1 (by positivity)
      _ ≤ _ := by norm_num)
  have s : |x + y| ≤ 140000 := by
    rw [abs_le] at *
    norm_num at a' c' ⊢
    constructor <;> linarith [a'.1, a'.2, c'.1, c'.2]
  have d' : |float.rnd (x + y) - (x + y)| ≤ 2 / 10 ^ 11 := d.trans (by
    calc _ ≤ (1 / 2 ^ 53 : ℝ) * 140000 := mul_le_mul_of_nonneg_left s (by positivity)
      _ ≤ _ := by norm_num)
  rw [abs_le] at *
  norm_num at a' c' d' ⊢
  constructor <;> linarith [a'.1, a'.2, c'.1, c'.2, d'.1, d'.2]

end box

/-! ## Splitting again and again -/

section tracks

/-- A curve to start with: a quadratic or cubic curve with coordinates up to 32767 and parameters in [0, 1]. -/
structure Spec.Start (c : Part) : Prop where
  len : c.points.length = 3 ∨ c.points.length = 4
  bound : ∀ p ∈ c.points, |p.1| ≤ 32767 ∧ |p.2| ≤ 32767
  t1 : 0 ≤ c.t1 ∧ c.t1 ≤ 1
  t2 : 0 ≤ c.t2 ∧ c.t2 ≤ 1

/-- `p` is about the part of `c` between the parameters `i / 2 ^ k` and `(i + 1) / 2 ^ k`. -/
private structure Tracks (c : Part) (k i : ℕ) (p : Part) : Prop where
  len : p.points.length = c.points.length
  lt : i < 2 ^ k
  bound : ∀ q ∈ p.points, |q.1| ≤ 32767 + k * (1 / (5 * 10 ^ 9)) ∧ |q.2| ≤ 32767 + k * (1 / (5 * 10 ^ 9))
  near : ∀ s, 0 ≤ s → s ≤ 1 → Close (k * (1 / (5 * 10 ^ 9))) (curve p.points s) (curve c.points ((i + s) / 2 ^ k))
  t1 : |p.t1 - (c.t1 + (c.t2 - c.t1) * (i / 2 ^ k))| ≤ k * (1 / 2 ^ 48)
  t2 : |p.t2 - (c.t1 + (c.t2 - c.t1) * ((i + 1) / 2 ^ k))| ≤ k * (1 / 2 ^ 48)

private theorem Tracks.zero {c : Part} (h : Start c) : Tracks c 0 0 c := by
  refine ⟨rfl, by norm_num, by simpa using h.bound, ?_, by simp, by simp⟩
  intro s _ _
  simp [Close]

private theorem rnd_half : float.rnd (1 / 2) = 1 / 2 := by
  have := roundBits_repr 53 (by omega) 1 (-1) (by norm_num)
  norm_num at this
  rw [show (1:ℝ) / 2 = 1 / 2 from rfl]
  exact this

private theorem rnd_zero : float.rnd 0 = 0 := by
  have := rnd_int 0 (by norm_num)
  simpa using this

private theorem rnd_one : float.rnd 1 = 1 := (binary 52).one

private theorem map_near (v T1 T2 : ℝ) (hv : v = 0 ∨ v = 1 / 2 ∨ v = 1) (h1 : |T1| ≤ 2) (h2 : |T2| ≤ 2) :
    ∃ w, Rounded.map float v 0 1 T1 T2 = .ok w ∧ |w - (T1 + (T2 - T1) * v)| ≤ 1 / 2 ^ 48 := by
  have rv : float.rnd v = v := by
    rcases hv with rfl | rfl | rfl
    · exact rnd_zero
    · exact rnd_half
    · exact rnd_one
  have hv0 : 0 ≤ v ∧ v ≤ 1 := by rcases hv with rfl | rfl | rfl <;> norm_num
  refine ⟨float.rnd (T1 + float.rnd (float.rnd (T2 - T1) * v)), ?_, ?_⟩
  · unfold Rounded.map Rounded.pdiv Rounding.add Rounding.sub Rounding.mul Rounding.div
    simp only [sub_zero, rnd_one, rv, one_ne_zero, if_false, div_one, ok_bind, pure_eq_ok]
  · have a := rnd_err (T2 - T1)
    have a1 : |T2 - T1| ≤ 4 := by rw [abs_le] at *; constructor <;> linarith [h1.1, h1.2, h2.1, h2.2]
    have a2 : |float.rnd (T2 - T1) - (T2 - T1)| ≤ 4 / 2 ^ 53 := a.trans (by linarith)
    generalize float.rnd (T2 - T1) = d at *
    have d1 : |d| ≤ 5 := by
      rw [abs_le] at *
      norm_num at a2
      constructor <;> linarith [a1.1, a1.2, a2.1, a2.2]
    have d2 : |d * v| ≤ 5 := by
      rw [abs_mul, abs_of_nonneg hv0.1]
      calc |d| * v ≤ |d| * 1 := mul_le_mul_of_nonneg_left hv0.2 (abs_nonneg _)
        _ ≤ 5 := by linarith
    have d3 : |d * v - (T2 - T1) * v| ≤ 4 / 2 ^ 53 := by
      rw [← sub_mul, abs_mul, abs_of_nonneg hv0.1]
      calc |d - (T2 - T1)| * v ≤ |d - (T2 - T1)| * 1 := mul_le_mul_of_nonneg_left hv0.2 (abs_nonneg _)
        _ ≤ _ := by linarith
    have b := rnd_err (d * v)
    have b2 : |float.rnd (d * v) - d * v| ≤ 5 / 2 ^ 53 := b.trans (by linarith)
    generalize float.rnd (d * v) = m at *
    have m1 : |T1 + m| ≤ 8 := by
      rw [abs_le] at *
      norm_num at b2
      constructor <;> linarith [h1.1, h1.2, d2.1, d2.2, b2.1, b2.2]
    have c := rnd_err (T1 + m)
    have c2 : |float.rnd (T1 + m) - (T1 + m)| ≤ 8 / 2 ^ 53 := c.trans (by linarith)
    generalize float.rnd (T1 + m) = w at *
    rw [abs_le] at *
    norm_num at b2 c2 d3 ⊢
    constructor <;> linarith [b2.1, b2.2, c2.1, c2.2, d3.1, d3.2]

/-- Curves with control points near each other are near each other. -/
private theorem curve_close (e : ℝ) (ps qs : Segment ℝ) (hn : qs.length = 3 ∨ qs.length = 4) (h : List.Forall₂ (Close e) ps qs)
    (s : ℝ) (s0 : 0 ≤ s) (s1 : s ≤ 1) : Close e (curve ps s) (curve qs s) := by
  have h3 : ∀ a b c a' b' c' : ℝ, |a - a'| ≤ e → |b - b'| ≤ e → |c - c'| ≤ e →
      |((1 - s) ^ 2 * a + 2 * (1 - s) * s * b + s ^ 2 * c) - ((1 - s) ^ 2 * a' + 2 * (1 - s) * s * b' + s ^ 2 * c')| ≤ e := by
    intro a b c a' b' c' ha hb hc
    have w0 : 0 ≤ (1 - s) ^ 2 := sq_nonneg _
    have w1 : 0 ≤ 2 * (1 - s) * s := mul_nonneg (by linarith) s0
    have w2 : 0 ≤ s ^ 2 := sq_nonneg _
    rw [abs_le] at *
    constructor
    · nlinarith [mul_nonneg w0 (by linarith [ha.1] : 0 ≤ a - a' + e), mul_nonneg w1 (by linarith [hb.1] : 0 ≤ b - b' + e),
        mul_nonneg w2 (by linarith [hc.1] : 0 ≤ c - c' + e)]
    · nlinarith [mul_nonneg w0 (by linarith [ha.2] : 0 ≤ e - (a - a')), mul_nonneg w1 (by linarith [hb.2] : 0 ≤ e - (b - b')),
        mul_nonneg w2 (by linarith [hc.2] : 0 ≤ e - (c - c'))]
  have h4 : ∀ a b c d a' b' c' d' : ℝ, |a - a'| ≤ e → |b - b'| ≤ e → |c - c'| ≤ e → |d - d'| ≤ e →
      |((1 - s) ^ 3 * a + 3 * (1 - s) ^ 2 * s * b + 3 * (1 - s) * s ^ 2 * c + s ^ 3 * d) -
        ((1 - s) ^ 3 * a' + 3 * (1 - s) ^ 2 * s * b' + 3 * (1 - s) * s ^ 2 * c' + s ^ 3 * d')| ≤ e := by
    intro a b c d a' b' c' d' ha hb hc hd
    have w0 : 0 ≤ (1 - s) ^ 3 := pow_nonneg (by linarith) _
    have w1 : 0 ≤ 3 * (1 - s) ^ 2 * s := mul_nonneg (by positivity) s0
    have w2 : 0 ≤ 3 * (1 - s) * s ^ 2 := mul_nonneg (by linarith) (sq_nonneg _)
    have w3 : 0 ≤ s ^ 3 := pow_nonneg s0 _
    rw [abs_le] at *
    constructor
    · nlinarith [mul_nonneg w0 (by linarith [ha.1] : 0 ≤ a - a' + e), mul_nonneg w1 (by linarith [hb.1] : 0 ≤ b - b' + e),
        mul_nonneg w2 (by linarith [hc.1] : 0 ≤ c - c' + e), mul_nonneg w3 (by linarith [hd.1] : 0 ≤ d - d' + e)]
    · nlinarith [mul_nonneg w0 (by linarith [ha.2] : 0 ≤ e - (a - a')), mul_nonneg w1 (by linarith [hb.2] : 0 ≤ e - (b - b')),
        mul_nonneg w2 (by linarith [hc.2] : 0 ≤ e - (c - c')), mul_nonneg w3 (by linarith [hd.2] : 0 ≤ e - (d - d'))]
  have hl := h.length_eq
  rcases hn with hn | hn
  · rw [hn] at hl
    match ps, qs, hl, hn with
    | [a, b, c], [a', b', c'], _, _ =>
      simp only [List.forall₂_cons, List.forall₂_nil_left_iff, and_true] at h
      obtain ⟨x, y, z⟩ := h
      simp only [curve_three]
      exact ⟨h3 _ _ _ _ _ _ x.1 y.1 z.1, h3 _ _ _ _ _ _ x.2 y.2 z.2⟩
  · rw [hn] at hl
    match ps, qs, hl, hn with
    | [a, b, c, d], [a', b', c', d'], _, _ =>
      simp only [List.forall₂_cons, List.forall₂_nil_left_iff, and_true] at h
      obtain ⟨x, y, z, w⟩ := h
      simp only [curve_four]
      exact ⟨h4 _ _ _ _ _ _ _ _ x.1 y.1 z.1 w.1, h4 _ _ _ _ _ _ _ _ x.2 y.2 z.2 w.2⟩

/-- The control points of the parts stay in any square the curve's are in. -/
private theorem split_bound (b l r : Bezier) (q : Segment ℝ) (t : ℝ) (t0 : 0 ≤ t) (t1 : t ≤ 1) (hn : QuadOrCubic b) (m : ℝ)
    (hm : ∀ p ∈ b.controlPoints, |p.1| ≤ m ∧ |p.2| ≤ m) (h : split1 b t = .ok (l, r, q)) :
    (∀ p ∈ l.controlPoints, |p.1| ≤ m ∧ |p.2| ≤ m) ∧ ∀ p ∈ r.controlPoints, |p.1| ≤ m ∧ |p.2| ≤ m := by
  have hx := (C83_exact b.controlPoints t).2 b l r q rfl h
  have av : ∀ x y : Pt ℝ, (|x.1| ≤ m ∧ |x.2| ≤ m) → (|y.1| ≤ m ∧ |y.2| ≤ m) →
      |(butils.lerp t x y).1| ≤ m ∧ |(butils.lerp t x y).2| ≤ m := by
    have av1 : ∀ x y : ℝ, |x| ≤ m → |y| ≤ m → |x + t * (y - x)| ≤ m := by
      intro x y hx hy
      rw [abs_le] at *
      constructor <;> nlinarith [hx.1, hx.2, hy.1, hy.2]
    intro x y hx hy
    exact ⟨av1 _ _ hx.1 hy.1, av1 _ _ hx.2 hy.2⟩
  unfold Rounded.splitPoints at hx
  rw [(C83_exact b.controlPoints t).1] at hx
  unfold QuadOrCubic at hn
  generalize b.controlPoints = ps at hn hm hx
  rcases hn with hn | hn
  · match ps, hn with
    | [x, y, z], _ =>
      have ho : order [x, y, z] = 2 := rfl
      simp only [hull_three, ho, if_true] at hx
      have hx' := Prod.mk.inj (Except.ok.inj hx)
      simp only [List.mem_cons, List.not_mem_nil, or_false, forall_eq_or_imp, forall_eq] at hm
      obtain ⟨hx1, hy1, hz1⟩ := hm
      rw [← hx'.1, ← hx'.2]
      have := av x y hx1 hy1
      have := av y z hy1 hz1
      have := av _ _ (av x y hx1 hy1) (av y z hy1 hz1)
      constructor <;>
        simp only [List.mem_cons, List.not_mem_nil, or_false, forall_eq_or_imp, forall_eq] <;> tauto
  · match ps, hn with
    | [x, y, z, w], _ =>
      have ho : ¬ order [x, y, z, w] = 2 := by simp [order]
      simp only [hull_four, if_neg ho] at hx
      have hx' := Prod.mk.inj (Except.ok.inj hx)
      simp only [List.mem_cons, List.not_mem_nil, or_false, forall_eq_or_imp, forall_eq] at hm
      obtain ⟨hx1, hy1, hz1, hw1⟩ := hm
      rw [← hx'.1, ← hx'.2]
      have a1 := av x y hx1 hy1
      have a2 := av y z hy1 hz1
      have a3 := av z w hz1 hw1
      have a4 := av _ _ a1 a2
      have a5 := av _ _ a2 a3
      have a6 := av _ _ a4 a5
      constructor <;>
        simp only [List.mem_cons, List.not_mem_nil, or_false, forall_eq_or_imp, forall_eq] <;> tauto

private theorem growth_bound (n : ℕ) (hn : n = 3 ∨ n = 4) : (growth float ^ (n - 1) - 1) * 32768 ≤ 1 / (5 * 10 ^ 9) := by
  have : growth float = 1 + 3 * ((1 + 1 / 2 ^ 53) ^ 3 - 1) := by unfold growth; rw [fu]
  rw [this]
  rcases hn with rfl | rfl <;> norm_num

private theorem Tracks.split {c p : Part} {k i : ℕ} (hc : Start c) (h : Tracks c k i p) (hk : k < 50) :
    ∃ l r, Rounded.split1 float p (1 / 2) = .ok (l, r) ∧ Tracks c (k + 1) (2 * i) l ∧ Tracks c (k + 1) (2 * i + 1) r := by
  have hn : p.points.length = 3 ∨ p.points.length = 4 := by rw [h.len]; exact hc.len
  have k0 : (0:ℝ) ≤ k := Nat.cast_nonneg k
  have k50 : (k:ℝ) ≤ 49 := by exact_mod_cast Nat.le_of_lt_succ hk
  obtain ⟨l, r, q, l', r', hs, hs', cl, cr⟩ := C83_split float ⟨p.points, 0, 1, .mixed, false, true⟩ hn 32768
    (fun q hq => ⟨(h.bound q hq).1.trans (by norm_num; linarith), (h.bound q hq).2.trans (by norm_num; linarith)⟩) (1 / 2) (by norm_num) (by norm_num)
  simp only at hs' cl cr
  have ge := growth_bound p.points.length hn
  have cl' : List.Forall₂ (Close (1 / (5 * 10 ^ 9))) l' l.controlPoints := cl.imp fun _ _ hh => ⟨hh.1.trans ge, hh.2.trans ge⟩
  have cr' : List.Forall₂ (Close (1 / (5 * 10 ^ 9))) r' r.controlPoints := cr.imp fun _ _ hh => ⟨hh.1.trans ge, hh.2.trans ge⟩
  obtain ⟨l2, r2, hs2, ll, lr, -, -, -, -, el, er⟩ := split1_spec ⟨p.points, 0, 1, .mixed, false, true⟩ hn (1 / 2)
  have e2 := hs.symm.trans hs2
  simp only [Except.ok.injEq, Prod.mk.injEq] at e2
  obtain ⟨rfl, rfl, -⟩ := e2
  simp only at ll lr el er
  obtain ⟨bl, br⟩ := split_bound ⟨p.points, 0, 1, .mixed, false, true⟩ l r q (1 / 2) (by norm_num) (by norm_num) hn _ h.bound hs
  have pos : (0:ℝ) < 2 ^ k := by positivity
  have i1 : (i:ℝ) + 1 ≤ 2 ^ k := by exact_mod_cast h.lt
  have i0 : (0:ℝ) ≤ i := Nat.cast_nonneg i
  -- the parameters
  have fr : ∀ x : ℝ, 0 ≤ x → x ≤ 2 ^ k → 0 ≤ x / 2 ^ k ∧ x / 2 ^ k ≤ 1 := fun x x0 x1 => ⟨div_nonneg x0 pos.le, (div_le_one pos).mpr x1⟩
  have base : ∀ y : ℝ, 0 ≤ y → y ≤ 1 → 0 ≤ c.t1 + (c.t2 - c.t1) * y ∧ c.t1 + (c.t2 - c.t1) * y ≤ 1 := by
    intro y y0 y1
    have := hc.t1; have := hc.t2
    constructor <;> nlinarith
  have b1 := base _ (fr i i0 (by linarith)).1 (fr i i0 (by linarith)).2
  have b2 := base _ (fr (i + 1) (by linarith) i1).1 (fr (i + 1) (by linarith) i1).2
  have T1 := h.t1
  have T2 := h.t2
  have small : (k:ℝ) * (1 / 2 ^ 48) ≤ 1 := by norm_num; linarith
  have m1 : |p.t1| ≤ 2 := by rw [abs_le] at *; constructor <;> linarith [T1.1, T1.2, b1.1, b1.2]
  have m2 : |p.t2| ≤ 2 := by rw [abs_le] at *; constructor <;> linarith [T2.1, T2.2, b2.1, b2.2]
  obtain ⟨w0, f0, g0⟩ := map_near 0 p.t1 p.t2 (.inl rfl) m1 m2
  obtain ⟨wh, fh, gh⟩ := map_near (1 / 2) p.t1 p.t2 (.inr (.inl rfl)) m1 m2
  obtain ⟨w1, f1, g1⟩ := map_near 1 p.t1 p.t2 (.inr (.inr rfl)) m1 m2
  have tt : ∀ (v w : ℝ), 0 ≤ v → v ≤ 1 → |w - (p.t1 + (p.t2 - p.t1) * v)| ≤ 1 / 2 ^ 48 →
      |w - (c.t1 + (c.t2 - c.t1) * ((2 * i + 2 * v) / 2 ^ (k + 1)))| ≤ ((k + 1 : ℕ) : ℝ) * (1 / 2 ^ 48) := by
    intro v w v0 v1 hw
    have e : (2 * (i:ℝ) + 2 * v) / 2 ^ (k + 1) = (1 - v) * (i / 2 ^ k) + v * ((i + 1) / 2 ^ k) := by
      rw [pow_succ]; field_simp; ring
    rw [e]
    push_cast
    generalize (1:ℝ) / 2 ^ 48 = η at *
    generalize (i:ℝ) / 2 ^ k = A at *
    generalize ((i:ℝ) + 1) / 2 ^ k = A' at *
    rw [abs_le] at T1 T2 hw ⊢
    have v1' : 0 ≤ 1 - v := by linarith
    constructor
    · nlinarith [mul_nonneg v1' (by linarith [T1.1] : 0 ≤ p.t1 - (c.t1 + (c.t2 - c.t1) * A) + k * η),
        mul_nonneg v0 (by linarith [T2.1] : 0 ≤ p.t2 - (c.t1 + (c.t2 - c.t1) * A') + k * η), hw.1]
    · nlinarith [mul_nonneg v1' (by linarith [T1.2] : 0 ≤ k * η - (p.t1 - (c.t1 + (c.t2 - c.t1) * A))),
        mul_nonneg v0 (by linarith [T2.2] : 0 ≤ k * η - (p.t2 - (c.t1 + (c.t2 - c.t1) * A'))), hw.2]
  have tri : ∀ x y z : Pt ℝ, Close (1 / (5 * 10 ^ 9)) x y → Close (k * (1 / (5 * 10 ^ 9))) y z →
      Close (((k + 1 : ℕ) : ℝ) * (1 / (5 * 10 ^ 9))) x z := by
    intro x y z h1 h2
    push_cast
    constructor
    · have := abs_sub_le x.1 y.1 z.1; linarith [h1.1, h2.1]
    · have := abs_sub_le x.2 y.2 z.2; linarith [h1.2, h2.2]
  have bnd : ∀ (qs qs' : Segment ℝ), List.Forall₂ (Close (1 / (5 * 10 ^ 9))) qs' qs →
      (∀ q ∈ qs, |q.1| ≤ 32767 + k * (1 / (5 * 10 ^ 9)) ∧ |q.2| ≤ 32767 + k * (1 / (5 * 10 ^ 9))) →
      ∀ q ∈ qs', |q.1| ≤ 32767 + ((k + 1 : ℕ) : ℝ) * (1 / (5 * 10 ^ 9)) ∧ |q.2| ≤ 32767 + ((k + 1 : ℕ) : ℝ) * (1 / (5 * 10 ^ 9)) := by
    intro qs qs' hh hb q hq
    obtain ⟨q', hq', hcl⟩ := forall₂_left hh hq
    have hb' := hb q' hq'
    push_cast
    constructor
    · have := abs_sub_abs_le_abs_sub q.1 q'.1; linarith [hcl.1, hb'.1]
    · have := abs_sub_abs_le_abs_sub q.2 q'.2; linarith [hcl.2, hb'.2]
  have qn : ∀ qs : Segment ℝ, qs.length = p.points.length → qs.length = 3 ∨ qs.length = 4 := fun qs e => by rw [e]; exact hn
  have lt := h.lt
  refine ⟨⟨l', w0, wh⟩, ⟨r', wh, w1⟩, ?_, ⟨?_, ?_, bnd _ _ cl' bl, ?_, ?_, ?_⟩, ⟨?_, ?_, bnd _ _ cr' br, ?_, ?_, ?_⟩⟩
  · unfold Rounded.split1
    rw [hs', ok_bind]
    simp only [f0, fh, f1, ok_bind, pure_eq_ok]
  · show l'.length = _
    rw [cl'.length_eq, ll, h.len]
  · rw [pow_succ]; omega
  · intro s s0 s1
    refine tri _ _ _ (curve_close _ _ _ (qn _ ll) cl' s s0 s1) ?_
    rw [el]
    have := h.near (1 / 2 * s) (by linarith) (by linarith)
    convert this using 2
    push_cast
    rw [pow_succ]; field_simp
  · have := tt 0 w0 le_rfl zero_le_one g0
    convert this using 5
    push_cast; ring
  · have := tt (1 / 2) wh (by norm_num) (by norm_num) gh
    convert this using 5
    push_cast; ring
  · show r'.length = _
    rw [cr'.length_eq, lr, h.len]
  · rw [pow_succ]; omega
  · intro s s0 s1
    refine tri _ _ _ (curve_close _ _ _ (qn _ lr) cr' s s0 s1) ?_
    rw [er]
    have := h.near (1 / 2 + s * (1 - 1 / 2)) (by linarith) (by linarith)
    convert this using 2
    push_cast
    rw [pow_succ]; field_simp; ring
  · have := tt (1 / 2) wh (by norm_num) (by norm_num) gh
    convert this using 5
    push_cast; ring
  · have := tt 1 w1 zero_le_one le_rfl g1
    convert this using 5
    push_cast; ring

private theorem Tracks.box {c p : Part} {k i : ℕ} (hc : Start c) (h : Tracks c k i p) (hk : k ≤ 50) :
    ∃ b, Rounded.boundsRectangle float p.points = .ok b ∧ BoxOf p.points b := by
  have k50 : (k:ℝ) ≤ 50 := by exact_mod_cast hk
  refine C99_box _ (by rw [h.len]; exact hc.len) fun q hq => ⟨(h.bound q hq).1.trans ?_, (h.bound q hq).2.trans ?_⟩ <;> norm_num <;> linarith

/-- The sides of a box are not far beyond the curve. -/
private theorem BoxOf.range {ps : Segment ℝ} {b : BoundsRectangle ℝ} (hb : BoxOf ps b) (hne : ps ≠ [])
    (hB : ∀ p ∈ ps, |p.1| ≤ 32768 ∧ |p.2| ≤ 32768) :
    0 ≤ b.top - b.bottom ∧ 0 ≤ b.right - b.left ∧ b.top - b.bottom ≤ 65537 ∧ b.right - b.left ≤ 65537 := by
  have := hb.proper.lr
  have := hb.proper.bt
  obtain ⟨t, t0, t1, l⟩ := hb.left
  have l' := (in_range ps hne 32768 hB t t0 t1).1
  obtain ⟨t, t0, t1, r⟩ := hb.right
  have r' := (in_range ps hne 32768 hB t t0 t1).1
  obtain ⟨t, t0, t1, d⟩ := hb.bottom
  have d' := (in_range ps hne 32768 hB t t0 t1).2
  obtain ⟨t, t0, t1, u⟩ := hb.top
  have u' := (in_range ps hne 32768 hB t t0 t1).2
  rw [abs_le] at *
  norm_num at l r d u
  refine ⟨by linarith, by linarith, by linarith [d.1, u.2, d'.1, u'.2], by linarith [l.1, r.2, l'.1, r'.2]⟩

private theorem Tracks.extent {c p : Part} {k i : ℕ} (hc : Start c) (h : Tracks c k i p) (hk : k ≤ 50) {b : BoundsRectangle ℝ}
    (hb : BoxOf p.points b) : |Rounded.extent float b - ((b.top - b.bottom) + (b.right - b.left))| ≤ 1 / 10 ^ 10 := by
  have k50 : (k:ℝ) ≤ 50 := by exact_mod_cast hk
  obtain ⟨h1, h2, h3, h4⟩ := BoxOf.range hb (by intro e; have := h.len; rw [e] at this; have := hc.len; simp at *; omega)
    fun q hq => ⟨(h.bound q hq).1.trans (by norm_num; linarith), (h.bound q hq).2.trans (by norm_num; linarith)⟩
  exact extent_near b h1 h2 h3 h4

/-- The box of a part gets small. -/
private theorem Tracks.small {c p : Part} {k i : ℕ} (hc : Start c) (h : Tracks c k i p) (hk : k ≤ 50) {b : BoundsRectangle ℝ}
    (hb : BoxOf p.points b) : Rounded.extent float b ≤ 3800000 / 2 ^ k + 1 / 10 ^ 7 := by
  have k50 : (k:ℝ) ≤ 50 := by exact_mod_cast hk
  have ex := h.extent hc hk hb
  have lip := lip_base ⟨c.points, 0, 1, .mixed, false, true⟩ hc.len fun p hp => by
    have := hc.bound p hp
    simp only [abs_le] at this
    exact ⟨⟨by linarith [this.1.1], by linarith [this.1.2]⟩, by linarith [this.2.1], by linarith [this.2.2]⟩
  simp only at lip
  have pos : (0:ℝ) < 2 ^ k := by positivity
  have i1 : (i:ℝ) + 1 ≤ 2 ^ k := by exact_mod_cast h.lt
  have i0 : (0:ℝ) ≤ i := Nat.cast_nonneg i
  have key : ∀ s t : ℝ, 0 ≤ s → s ≤ 1 → 0 ≤ t → t ≤ 1 →
      |(curve p.points s).1 - (curve p.points t).1| ≤ 1900000 / 2 ^ k + 2 / 10 ^ 8 ∧
      |(curve p.points s).2 - (curve p.points t).2| ≤ 1900000 / 2 ^ k + 2 / 10 ^ 8 := by
    intro s t s0 s1 t0 t1
    have q := lip ((i + s) / 2 ^ k) ((i + t) / 2 ^ k) (by positivity) ((div_le_one pos).mpr (by linarith)) (by positivity)
      ((div_le_one pos).mpr (by linarith))
    have e : 1900000 * |(i + s) / 2 ^ k - (i + t) / 2 ^ k| ≤ 1900000 / 2 ^ k := by
      rw [← sub_div, abs_div, abs_of_pos pos, ← mul_div_assoc]
      apply div_le_div_of_nonneg_right _ pos.le
      have : |(i + s) - (i + t)| ≤ 1 := by rw [abs_le]; constructor <;> linarith
      linarith
    have n1 := h.near s s0 s1
    have n2 := h.near t t0 t1
    have small : (k:ℝ) * (1 / (5 * 10 ^ 9)) ≤ 1 / 10 ^ 8 := by norm_num; linarith
    have q1 := q.1.trans e
    have q2 := q.2.trans e
    unfold Close at n1 n2
    generalize (1900000:ℝ) / 2 ^ k = E at *
    simp only [abs_le] at *
    norm_num at small ⊢
    obtain ⟨⟨a1, a2⟩, a3, a4⟩ := n1
    obtain ⟨⟨b1, b2⟩, b3, b4⟩ := n2
    norm_num at a1 a2 a3 a4 b1 b2 b3 b4
    refine ⟨⟨?_, ?_⟩, ?_, ?_⟩ <;> linarith [q1.1, q1.2, q2.1, q2.2]
  obtain ⟨ta, a0, a1, l⟩ := hb.left
  obtain ⟨tb, b0, b1, r⟩ := hb.right
  obtain ⟨tc, c0, c1, d⟩ := hb.bottom
  obtain ⟨td, d0, d1, u⟩ := hb.top
  have kx := (key tb ta b0 b1 a0 a1).1
  have ky := (key td tc d0 d1 c0 c1).2
  have e : (3800000:ℝ) / 2 ^ k = 1900000 / 2 ^ k + 1900000 / 2 ^ k := by ring
  rw [e]
  generalize (1900000:ℝ) / 2 ^ k = E at *
  simp only [abs_le] at *
  norm_num at *
  linarith [kx.2, ky.2, l.1, r.2, d.1, u.2, ex.2]

/-- One level of `pairiteration`. -/
private theorem step {c1 c2 p q : Part} {k i j : ℕ} (h1 : Start c1) (h2 : Start c2) (hp : Tracks c1 k i p) (hq : Tracks c2 k j q)
    (hk : k < 50) (θ : ℝ) :
    ∃ b1 b2 l1 r1 l2 r2 pairs, Rounded.boundsRectangle float p.points = .ok b1 ∧ BoxOf p.points b1 ∧
      Rounded.boundsRectangle float q.points = .ok b2 ∧ BoxOf q.points b2 ∧
      Tracks c1 (k + 1) (2 * i) l1 ∧ Tracks c1 (k + 1) (2 * i + 1) r1 ∧ Tracks c2 (k + 1) (2 * j) l2 ∧ Tracks c2 (k + 1) (2 * j + 1) r2 ∧
      [(l1, l2), (l1, r2), (r1, r2), (r1, l2)].filterM (fun (pair : Part × Part) => Rounded.overlaps float pair.1 pair.2) = .ok pairs ∧
      (Rounded.extent float b1 < θ ∧ Rounded.extent float b2 < θ → ∀ depth,
        Rounded.pairiteration float (depth + 1) p q θ = .ok [(Rounded.middle float p, Rounded.middle float q)]) ∧
      (¬ (Rounded.extent float b1 < θ ∧ Rounded.extent float b2 < θ) → ∀ depth,
        Rounded.pairiteration float (depth + 1) p q θ = (do
          let results ← pairs.mapM fun (pair : Part × Part) => Rounded.pairiteration float depth pair.1 pair.2 θ
          return butils.removeDuplicates results.flatten)) := by
  obtain ⟨b1, e1, x1⟩ := hp.box h1 hk.le
  obtain ⟨b2, e2, x2⟩ := hq.box h2 hk.le
  obtain ⟨l1, r1, s1, sl1, sr1⟩ := hp.split h1 hk
  obtain ⟨l2, r2, s2, sl2, sr2⟩ := hq.split h2 hk
  have ov : ∀ {x y : Part} {m n : ℕ}, Tracks c1 (k + 1) m x → Tracks c2 (k + 1) n y → ∃ o, Rounded.overlaps float x y = .ok o := by
    intro x y m n hx hy
    obtain ⟨bx, ex, -⟩ := hx.box h1 hk
    obtain ⟨by', ey, -⟩ := hy.box h2 hk
    refine ⟨(bx.intersection by').isSome, ?_⟩
    unfold Rounded.overlaps
    rw [ex, ok_bind, ey, ok_bind]; rfl
  have hf : ∃ pairs, [(l1, l2), (l1, r2), (r1, r2), (r1, l2)].filterM (fun (pair : Part × Part) => Rounded.overlaps float pair.1 pair.2) =
      .ok pairs := by
    classical
    refine ⟨_, filterM_ok _ (fun p => decide (Rounded.overlaps float p.1 p.2 = .ok true)) _ ?_⟩
    intro x hx
    have : ∃ o, Rounded.overlaps float x.1 x.2 = .ok o := by
      simp only [List.mem_cons, List.not_mem_nil, or_false] at hx
      rcases hx with rfl | rfl | rfl | rfl
      · exact ov sl1 sl2
      · exact ov sl1 sr2
      · exact ov sr1 sr2
      · exact ov sr1 sl2
    obtain ⟨o, ho⟩ := this
    rw [ho]; cases o <;> simp
  obtain ⟨pairs, hpairs⟩ := hf
  refine ⟨b1, b2, l1, r1, l2, r2, pairs, e1, x1, e2, x2, sl1, sr1, sl2, sr2, hpairs, ?_, ?_⟩
  · intro hs depth
    rw [Rounded.pairiteration]
    simp only [e1, e2, ok_bind]
    rw [if_pos hs]
    rfl
  · intro hs depth
    rw [Rounded.pairiteration]
    simp only [e1, e2, ok_bind]
    rw [if_neg hs]
    simp only [s1, s2, ok_bind]
    rw [hpairs, ok_bind]

private theorem mapM_same {α β : Type} (l : List α) (f : Nat → α → Py β) (m : Nat) (h : ∀ a ∈ l, ∃ b, ∀ d, m ≤ d → f d a = .ok b) :
    ∃ r, ∀ d, m ≤ d → l.mapM (f d) = .ok r := by
  induction l with
  | nil => exact ⟨[], fun _ _ => rfl⟩
  | cons a l ih =>
    obtain ⟨b, hb⟩ := h a (by simp)
    obtain ⟨r, hr⟩ := ih fun a ha => h a (by simp [ha])
    refine ⟨b :: r, fun d hd => ?_⟩
    rw [List.mapM_cons, hb d hd, ok_bind, hr d hd, ok_bind]
    rfl

private theorem ends {c1 c2 p q : Part} {k i j : ℕ} (h1 : Start c1) (h2 : Start c2) (hp : Tracks c1 k i p) (hq : Tracks c2 k j q)
    (m : ℕ) (hm : k + m ≤ 40) (θ : ℝ) (hθ : 4000000 < θ * 2 ^ (k + m)) :
    ∃ l, ∀ depth, m + 1 ≤ depth → Rounded.pairiteration float depth p q θ = .ok l := by
  induction m generalizing k i j p q with
  | zero =>
    obtain ⟨b1, b2, l1, r1, l2, r2, pairs, -, x1, -, x2, -, -, -, -, -, k1, -⟩ := step h1 h2 hp hq (by omega) θ
    have pos : (0:ℝ) < 2 ^ k := by positivity
    have big : (2:ℝ) ^ k ≤ 2 ^ 40 := pow_le_pow_right₀ (by norm_num) (by omega)
    have hlt : (3800000:ℝ) / 2 ^ k + 1 / 10 ^ 7 < θ := by
      have a : (4000000:ℝ) / 2 ^ k < θ := by rw [div_lt_iff₀ pos]; exact hθ
      have b : (1:ℝ) / 10 ^ 7 ≤ 200000 / 2 ^ k := by
        rw [le_div_iff₀ pos]
        norm_num at big ⊢
        linarith
      have e : (4000000:ℝ) / 2 ^ k = 3800000 / 2 ^ k + 200000 / 2 ^ k := by ring
      linarith
    refine ⟨[(Rounded.middle float p, Rounded.middle float q)], fun depth hd => ?_⟩
    obtain ⟨d, rfl⟩ : ∃ d, depth = d + 1 := ⟨depth - 1, by omega⟩
    exact k1 ⟨lt_of_le_of_lt (hp.small h1 (by omega) x1) hlt, lt_of_le_of_lt (hq.small h2 (by omega) x2) hlt⟩ d
  | succ m ih =>
    obtain ⟨b1, b2, l1, r1, l2, r2, pairs, -, x1, -, x2, t1, t2, t3, t4, hf, k1, k2⟩ := step h1 h2 hp hq (by omega) θ
    by_cases hs : Rounded.extent float b1 < θ ∧ Rounded.extent float b2 < θ
    · refine ⟨[(Rounded.middle float p, Rounded.middle float q)], fun depth hd => ?_⟩
      obtain ⟨d, rfl⟩ : ∃ d, depth = d + 1 := ⟨depth - 1, by omega⟩
      exact k1 hs d
    · have e : k + (m + 1) = k + 1 + m := by omega
      rw [e] at hθ hm
      obtain ⟨r, hr⟩ := mapM_same pairs (fun d (pair : Part × Part) => Rounded.pairiteration float d pair.1 pair.2 θ) (m + 1) (by
        intro x hx
        have hmem := ((filterM_mem _ _ _ hf x).mp hx).1
        simp only [List.mem_cons, List.not_mem_nil, or_false] at hmem
        rcases hmem with rfl | rfl | rfl | rfl
        · exact ih t1 t3 hm hθ
        · exact ih t1 t4 hm hθ
        · exact ih t2 t4 hm hθ
        · exact ih t2 t3 hm hθ)
      refine ⟨butils.removeDuplicates r.flatten, fun depth hd => ?_⟩
      obtain ⟨d, rfl⟩ : ∃ d, depth = d + 1 := ⟨depth - 1, by omega⟩
      rw [k2 hs d, hr d (by omega), ok_bind]
      rfl

/-- C99: in floating point `pairiteration` ends with a result after at most `k + 1` nested calls if `4000000 / 2 ^ k` is below the
threshold (`k` up to 40), whatever the two curves, and the result does not depend on the number of calls allowed. -/
theorem C99_terminates (c1 c2 : Part) (h1 : Start c1) (h2 : Start c2) (k : ℕ) (hk : k ≤ 40) (θ : ℝ) (hθ : 4000000 < θ * 2 ^ k) :
    ∃ l, ∀ depth, k + 1 ≤ depth → Rounded.pairiteration float depth c1 c2 θ = .ok l := by
  have := ends h1 h2 (Tracks.zero h1) (Tracks.zero h2) k (by omega) θ (by rwa [zero_add])
  exact this

/-- C99: the same for `curveIntersects`. -/
theorem C99_terminates_lists (cs1 cs2 : List Part) (h1 : ∀ c ∈ cs1, Start c) (h2 : ∀ c ∈ cs2, Start c) (k : ℕ) (hk : k ≤ 40) (θ : ℝ)
    (hθ : 4000000 < θ * 2 ^ k) :
    ∃ l, ∀ depth, k + 1 ≤ depth → Rounded.curveIntersects float depth cs1 cs2 θ = .ok l := by
  have hmem : ∀ x ∈ (cs1.flatMap fun (l : Part) => cs2.map fun (r : Part) => (l, r)), Start x.1 ∧ Start x.2 := by
    intro x hx
    simp only [List.mem_flatMap, List.mem_map] at hx
    obtain ⟨a, ha, b, hb, rfl⟩ := hx
    exact ⟨h1 a ha, h2 b hb⟩
  have hf : ∃ pairs, (cs1.flatMap fun (l : Part) => cs2.map fun (r : Part) => (l, r)).filterM
      (fun (pair : Part × Part) => Rounded.overlaps float pair.1 pair.2) = .ok pairs := by
    classical
    refine ⟨_, filterM_ok _ (fun p => decide (Rounded.overlaps float p.1 p.2 = .ok true)) _ ?_⟩
    intro x hx
    obtain ⟨s1, s2⟩ := hmem x hx
    obtain ⟨b1, e1, -⟩ := (Tracks.zero s1).box s1 (by omega)
    obtain ⟨b2, e2, -⟩ := (Tracks.zero s2).box s2 (by omega)
    have : Rounded.overlaps float x.1 x.2 = .ok (b1.intersection b2).isSome := by
      unfold Rounded.overlaps
      rw [e1, ok_bind, e2, ok_bind]; rfl
    rw [this]; cases (b1.intersection b2).isSome <;> simp
  obtain ⟨pairs, hf⟩ := hf
  obtain ⟨r, hr⟩ := mapM_same pairs (fun d (pair : Part × Part) => Rounded.pairiteration float d pair.1 pair.2 θ) (k + 1) (by
    intro x hx
    obtain ⟨s1, s2⟩ := hmem x ((filterM_mem _ _ _ hf x).mp hx).1
    exact C99_terminates x.1 x.2 s1 s2 k hk θ hθ)
  refine ⟨r.flatten, fun depth hd => ?_⟩
  unfold Rounded.curveIntersects
  rw [hf, ok_bind, hr depth hd, ok_bind]
  rfl

/-- C99: with the default threshold of 0.5, 24 nested calls are enough. -/
theorem C99_default_threshold (cs1 cs2 : List Part) (h1 : ∀ c ∈ cs1, Start c) (h2 : ∀ c ∈ cs2, Start c) :
    ∃ l, ∀ depth, 24 ≤ depth → Rounded.curveIntersects float depth cs1 cs2 (1 / 2) = .ok l :=
  C99_terminates_lists cs1 cs2 h1 h2 23 (by norm_num) _ (by norm_num)

/-! ## What is reported -/

private theorem middle_near (p : Part) (h1 : |p.t1| ≤ 2) (h2 : |p.t2| ≤ 2) : |Rounded.middle float p - (p.t1 + p.t2) / 2| ≤ 1 / 2 ^ 47 := by
  unfold Rounded.middle Rounding.add Rounding.mul Rounding.div
  have a := rnd_err (p.t1 + p.t2)
  have a1 : |p.t1 + p.t2| ≤ 4 := by rw [abs_le] at *; constructor <;> linarith [h1.1, h1.2, h2.1, h2.2]
  have a2 : |float.rnd (p.t1 + p.t2) - (p.t1 + p.t2)| ≤ 4 / 2 ^ 53 := a.trans (by linarith)
  generalize float.rnd (p.t1 + p.t2) = x at *
  have x1 : |100000 * x| ≤ 500000 := by
    rw [abs_le] at *
    norm_num at a2
    constructor <;> linarith [a1.1, a1.2, a2.1, a2.2]
  have b := (rnd_err (100000 * x)).trans (mul_le_mul_of_nonneg_left x1 (by positivity))
  generalize float.rnd (100000 * x) = y at *
  have y1 : |y / 2| ≤ 300000 := by
    rw [abs_le] at *
    norm_num at b
    constructor <;> linarith [x1.1, x1.2, b.1, b.2]
  have c := (rnd_err (y / 2)).trans (mul_le_mul_of_nonneg_left y1 (by positivity))
  generalize float.rnd (y / 2) = z at *
  have z1 : |z / 100000| ≤ 4 := by
    rw [abs_le] at *
    norm_num at c
    constructor <;> linarith [y1.1, y1.2, c.1, c.2]
  have d := (rnd_err (z / 100000)).trans (mul_le_mul_of_nonneg_left z1 (by positivity))
  generalize float.rnd (z / 100000) = w at *
  rw [abs_le] at *
  norm_num at a2 b c d ⊢
  constructor <;> linarith [a2.1, a2.2, b.1, b.2, c.1, c.2, d.1, d.2]

private theorem Tracks.middle {c p : Part} {k i : ℕ} (hc : Start c) (h : Tracks c k i p) (hk : k ≤ 50) :
    |Rounded.middle float p - (c.t1 + (c.t2 - c.t1) * ((i + 1 / 2) / 2 ^ k))| ≤ 1 / 10 ^ 12 := by
  have k50 : (k:ℝ) ≤ 50 := by exact_mod_cast hk
  have pos : (0:ℝ) < 2 ^ k := by positivity
  have i1 : (i:ℝ) + 1 ≤ 2 ^ k := by exact_mod_cast h.lt
  have i0 : (0:ℝ) ≤ i := Nat.cast_nonneg i
  have base : ∀ y : ℝ, 0 ≤ y → y ≤ 1 → 0 ≤ c.t1 + (c.t2 - c.t1) * y ∧ c.t1 + (c.t2 - c.t1) * y ≤ 1 := by
    intro y y0 y1
    have := hc.t1; have := hc.t2
    constructor <;> nlinarith
  have b1 := base (i / 2 ^ k) (by positivity) ((div_le_one pos).mpr (by linarith))
  have b2 := base ((i + 1) / 2 ^ k) (by positivity) ((div_le_one pos).mpr i1)
  have T1 := h.t1
  have T2 := h.t2
  have small : (k:ℝ) * (1 / 2 ^ 48) ≤ 1 / (5 * 10 ^ 12) := by norm_num; linarith
  have m1 : |p.t1| ≤ 2 := by rw [abs_le] at *; norm_num at small; constructor <;> linarith [T1.1, T1.2, b1.1, b1.2]
  have m2 : |p.t2| ≤ 2 := by rw [abs_le] at *; norm_num at small; constructor <;> linarith [T2.1, T2.2, b2.1, b2.2]
  have m := middle_near p m1 m2
  have e : c.t1 + (c.t2 - c.t1) * (((i:ℝ) + 1 / 2) / 2 ^ k) =
      ((c.t1 + (c.t2 - c.t1) * (i / 2 ^ k)) + (c.t1 + (c.t2 - c.t1) * ((i + 1) / 2 ^ k))) / 2 := by
    field_simp; ring
  rw [e]
  generalize c.t1 + (c.t2 - c.t1) * ((i:ℝ) / 2 ^ k) = A at *
  generalize c.t1 + (c.t2 - c.t1) * (((i:ℝ) + 1) / 2 ^ k) = B at *
  rw [abs_le] at *
  norm_num at *
  constructor <;> linarith [T1.1, T1.2, T2.1, T2.2, m.1, m.2]

private theorem box_dist {r : BoundsRectangle ℝ} {p z : Pt ℝ} (h1 : r.enclosesPoint p = true)
    (h2 : r.enclosesPoint z = true) : dist1 p z ≤ (r.top - r.bottom) + (r.right - r.left) := by
  rw [BoundsRectangle.enclosesPoint_iff] at h1 h2
  obtain ⟨⟨a, b⟩, c, d⟩ := h1
  obtain ⟨⟨a', b'⟩, c', d'⟩ := h2
  unfold dist1
  have e1 : |p.1 - z.1| ≤ r.right - r.left := abs_le.mpr ⟨by linarith, by linarith⟩
  have e2 : |p.2 - z.2| ≤ r.top - r.bottom := abs_le.mpr ⟨by linarith, by linarith⟩
  linarith

private theorem dist1_comm (p q : Pt ℝ) : dist1 p q = dist1 q p := by
  unfold dist1; rw [abs_sub_comm, abs_sub_comm p.2]

private theorem dist1_triangle (p q r : Pt ℝ) : dist1 p r ≤ dist1 p q + dist1 q r := by
  unfold dist1
  have := abs_sub_le p.1 q.1 r.1
  have := abs_sub_le p.2 q.2 r.2
  linarith

/-- What a reported pair of numbers means: there are a part of each curve, `2 ^ k` of them making up the curve, such that the numbers
are the parameters of the middles of the parts, and the ends of each part are about the threshold apart at most, and the ends of the one
are about twice the threshold from those of the other at most. -/
structure Spec.Report (c1 c2 : Part) (θ : ℝ) (st : Pt ℝ) (k i j : ℕ) : Prop where
  hi : i < 2 ^ k
  hj : j < 2 ^ k
  first : |st.1 - (c1.t1 + (c1.t2 - c1.t1) * ((i + 1 / 2) / 2 ^ k))| ≤ 1 / 10 ^ 12
  second : |st.2 - (c2.t1 + (c2.t2 - c2.t1) * ((j + 1 / 2) / 2 ^ k))| ≤ 1 / 10 ^ 12
  short1 : dist1 (curve c1.points (i / 2 ^ k)) (curve c1.points ((i + 1) / 2 ^ k)) ≤ θ + 1 / 10 ^ 7
  short2 : dist1 (curve c2.points (j / 2 ^ k)) (curve c2.points ((j + 1) / 2 ^ k)) ≤ θ + 1 / 10 ^ 7
  close : ∀ a b : ℝ, (a = i ∨ a = i + 1) → (b = j ∨ b = j + 1) →
    dist1 (curve c1.points (a / 2 ^ k)) (curve c2.points (b / 2 ^ k)) ≤ 2 * θ + 1 / 10 ^ 7

private theorem reported {c1 c2 p q : Part} {k i j : ℕ} (h1 : Start c1) (h2 : Start c2) (hp : Tracks c1 k i p) (hq : Tracks c2 k j q)
    (hk : k ≤ 50) (θ : ℝ) {b1 b2 : BoundsRectangle ℝ} (e1 : Rounded.boundsRectangle float p.points = .ok b1) (x1 : BoxOf p.points b1)
    (e2 : Rounded.boundsRectangle float q.points = .ok b2) (x2 : BoxOf q.points b2)
    (hs : Rounded.extent float b1 < θ ∧ Rounded.extent float b2 < θ) (ho : Rounded.overlaps float p q = .ok true) :
    Report c1 c2 θ (Rounded.middle float p, Rounded.middle float q) k i j := by
  have k50 : (k:ℝ) ≤ 50 := by exact_mod_cast hk
  have hz : ∃ z, b1.enclosesPoint z = true ∧ b2.enclosesPoint z = true := by
    have hn := C11_intersection_none_iff b1 b2 x1.proper x2.proper
    by_contra hc
    rw [← hn] at hc
    unfold Rounded.overlaps at ho
    rw [e1, ok_bind, e2, ok_bind, hc] at ho
    cases ho
  obtain ⟨z, z1, z2⟩ := hz
  have d1 := hp.extent h1 hk x1
  have d2 := hq.extent h2 hk x2
  have small : (k:ℝ) * (1 / (5 * 10 ^ 9)) ≤ 1 / 10 ^ 8 := by norm_num; linarith
  have g1 : (b1.top - b1.bottom) + (b1.right - b1.left) ≤ θ + 1 / 10 ^ 10 := by rw [abs_le] at d1; linarith [d1.1, hs.1]
  have g2 : (b2.top - b2.bottom) + (b2.right - b2.left) ≤ θ + 1 / 10 ^ 10 := by rw [abs_le] at d2; linarith [d2.1, hs.2]
  -- the ends of the parts
  have end1 : ∀ a : ℝ, (a = i ∨ a = i + 1) → ∃ y, b1.enclosesPoint y = true ∧ dist1 (curve c1.points (a / 2 ^ k)) y ≤ 2 / 10 ^ 8 := by
    have cl : ∀ x y, Close (k * (1 / (5 * 10 ^ 9))) x y → dist1 y x ≤ 2 / 10 ^ 8 := by
      intro x y h
      rw [dist1_comm]
      unfold dist1
      have := h.1.trans small; have := h.2.trans small
      norm_num at *
      linarith
    rintro a (rfl | rfl)
    · have := hp.near 0 le_rfl zero_le_one
      rw [add_zero] at this
      exact ⟨_, x1.first, cl _ _ this⟩
    · exact ⟨_, x1.last, cl _ _ (hp.near 1 zero_le_one le_rfl)⟩
  have end2 : ∀ a : ℝ, (a = j ∨ a = j + 1) → ∃ y, b2.enclosesPoint y = true ∧ dist1 (curve c2.points (a / 2 ^ k)) y ≤ 2 / 10 ^ 8 := by
    have cl : ∀ x y, Close (k * (1 / (5 * 10 ^ 9))) x y → dist1 y x ≤ 2 / 10 ^ 8 := by
      intro x y h
      rw [dist1_comm]
      unfold dist1
      have := h.1.trans small; have := h.2.trans small
      norm_num at *
      linarith
    rintro a (rfl | rfl)
    · have := hq.near 0 le_rfl zero_le_one
      rw [add_zero] at this
      exact ⟨_, x2.first, cl _ _ this⟩
    · exact ⟨_, x2.last, cl _ _ (hq.near 1 zero_le_one le_rfl)⟩
  refine ⟨hp.lt, hq.lt, hp.middle h1 hk, hq.middle h2 hk, ?_, ?_, ?_⟩
  · obtain ⟨y, hy, dy⟩ := end1 i (.inl rfl)
    obtain ⟨y', hy', dy'⟩ := end1 (i + 1) (.inr rfl)
    have t1 := dist1_triangle (curve c1.points (i / 2 ^ k)) y (curve c1.points ((i + 1) / 2 ^ k))
    have t2 := dist1_triangle y y' (curve c1.points ((i + 1) / 2 ^ k))
    rw [dist1_comm y'] at t2
    have := box_dist hy hy'
    norm_num at *
    linarith
  · obtain ⟨y, hy, dy⟩ := end2 j (.inl rfl)
    obtain ⟨y', hy', dy'⟩ := end2 (j + 1) (.inr rfl)
    have t1 := dist1_triangle (curve c2.points (j / 2 ^ k)) y (curve c2.points ((j + 1) / 2 ^ k))
    have t2 := dist1_triangle y y' (curve c2.points ((j + 1) / 2 ^ k))
    rw [dist1_comm y'] at t2
    have := box_dist hy hy'
    norm_num at *
    linarith
  · intro a b ha hb
    obtain ⟨y, hy, dy⟩ := end1 a ha
    obtain ⟨y', hy', dy'⟩ := end2 b hb
    have t1 := dist1_triangle (curve c1.points (a / 2 ^ k)) y (curve c2.points (b / 2 ^ k))
    have t2 := dist1_triangle y z (curve c2.points (b / 2 ^ k))
    have t3 := dist1_triangle z y' (curve c2.points (b / 2 ^ k))
    rw [dist1_comm y'] at t3
    have q1 := box_dist hy z1
    have q2 := box_dist z2 hy'
    norm_num at *
    linarith

private theorem close_pairs (depth : ℕ) {c1 c2 p q : Part} {k i j : ℕ} (h1 : Start c1) (h2 : Start c2) (hp : Tracks c1 k i p)
    (hq : Tracks c2 k j q) (hk : k + depth ≤ 50) (θ : ℝ) (ho : Rounded.overlaps float p q = .ok true) (l : List (Pt ℝ))
    (hl : Rounded.pairiteration float depth p q θ = .ok l) :
    ∀ st ∈ l, ∃ k' i' j', k' < k + depth ∧ Report c1 c2 θ st k' i' j' := by
  induction depth generalizing k i j p q l with
  | zero => simp [Rounded.pairiteration] at hl
  | succ depth ih =>
    obtain ⟨b1, b2, l1, r1, l2, r2, pairs, e1, x1, e2, x2, t1, t2, t3, t4, hf, k1, k2⟩ := step h1 h2 hp hq (by omega) θ
    by_cases hs : Rounded.extent float b1 < θ ∧ Rounded.extent float b2 < θ
    · rw [k1 hs depth] at hl
      cases hl
      intro st hst
      rw [List.mem_singleton] at hst
      rw [hst]
      exact ⟨k, i, j, by omega, reported h1 h2 hp hq (by omega) θ e1 x1 e2 x2 hs ho⟩
    · rw [k2 hs depth] at hl
      obtain ⟨results, hr, hl⟩ := bind_eq_ok.mp hl
      cases hl
      intro st hst
      rw [C26_mem, mem_flatten_mapM _ _ _ hr] at hst
      obtain ⟨x, hx, y, hy, hst⟩ := hst
      obtain ⟨hmem, hov⟩ := (filterM_mem _ _ _ hf x).mp hx
      have e : k + (depth + 1) = k + 1 + depth := by omega
      rw [e]
      simp only [List.mem_cons, List.not_mem_nil, or_false] at hmem
      rcases hmem with rfl | rfl | rfl | rfl
      · exact ih t1 t3 (by omega) hov y hy st hst
      · exact ih t1 t4 (by omega) hov y hy st hst
      · exact ih t2 t4 (by omega) hov y hy st hst
      · exact ih t2 t3 (by omega) hov y hy st hst

/-- C99: every pair of numbers `curveIntersects` returns in floating point with a threshold of at least `4 / 10 ^ 6` belongs to a part
of a curve of each list, cut out by halving at most 40 times, that are about as near as the threshold says. -/
theorem C99_close (depth : ℕ) (cs1 cs2 : List Part) (h1 : ∀ c ∈ cs1, Start c) (h2 : ∀ c ∈ cs2, Start c) (θ : ℝ) (hθ : 4 / 10 ^ 6 ≤ θ)
    (l : List (Pt ℝ)) (hl : Rounded.curveIntersects float depth cs1 cs2 θ = .ok l) :
    ∀ st ∈ l, ∃ c1 ∈ cs1, ∃ c2 ∈ cs2, ∃ k i j, k ≤ 40 ∧ Report c1 c2 θ st k i j := by
  intro st hst
  unfold Rounded.curveIntersects at hl
  obtain ⟨pairs, hf, hl⟩ := bind_eq_ok.mp hl
  obtain ⟨results, hr, hl⟩ := bind_eq_ok.mp hl
  cases hl
  rw [mem_flatten_mapM _ _ _ hr] at hst
  obtain ⟨⟨c1, c2⟩, hx, y, hy, hst⟩ := hst
  obtain ⟨hmem, hov⟩ := (filterM_mem _ _ _ hf (c1, c2)).mp hx
  simp only [List.mem_flatMap, List.mem_map, Prod.mk.injEq] at hmem
  obtain ⟨_, ha, _, hb, rfl, rfl⟩ := hmem
  simp only at hy hov
  rename_i c1 c2
  have hy' : ∃ d, d ≤ 41 ∧ Rounded.pairiteration float d c1 c2 θ = .ok y := by
    rcases le_total depth 41 with hd | hd
    · exact ⟨depth, hd, hy⟩
    · obtain ⟨l', hl'⟩ := C99_terminates c1 c2 (h1 c1 ha) (h2 c2 hb) 40 le_rfl θ (by norm_num at hθ ⊢; linarith)
      rw [hl' depth hd] at hy
      exact ⟨41, le_rfl, by rw [hl' 41 le_rfl, hy]⟩
  obtain ⟨d, hd, hy'⟩ := hy'
  obtain ⟨k, i, j, hk, hrep⟩ := close_pairs d (h1 c1 ha) (h2 c2 hb) (Tracks.zero (h1 c1 ha)) (Tracks.zero (h2 c2 hb)) (by omega) θ hov y hy' st hst
  exact ⟨c1, ha, c2, hb, k, i, j, by omega, hrep⟩

end tracks

/-! ## What does not hold -/

section counterexamples

/-- A box found from the ends of the curve alone. -/
private theorem box_of_ends (ps : Segment ℝ) (h : ps ≠ []) (lx ly : List ℝ) (hlx : lx = [] ∨ lx = [0]) (hly : ly = [] ∨ ly = [0])
    (hx : Rounded.extremaDim float (order ps) (Rounded.dcPoints float ps) 0 = .ok lx)
    (hy : Rounded.extremaDim float (order ps) (Rounded.dcPoints float ps) 1 = .ok ly)
    (p q : Pt ℝ) (hp : ps.head h = p) (hq : ps.getLast h = q) (hpq : p.1 ≤ q.1 ∧ p.2 ≤ q.2)
    (b : 0 ≤ p.1 ∧ 0 ≤ p.2 ∧ q.1 ≤ 1000 ∧ q.2 ≤ 1000) :
    Rounded.boundsRectangle float ps = .ok ⟨p.1, p.2, q.1, q.2⟩ := by
  obtain ⟨g0, g1⟩ := C82_ends float ps h
  rw [hp] at g0
  rw [hq] at g1
  have e : ∀ l : List ℝ, l = [] ∨ l = [0] → addEnds l = [0, 1] := by
    rintro l (rfl | rfl) <;> simp [addEnds]
  unfold Rounded.boundsRectangle Rounded.bbox Rounded.extrema
  rw [hx, ok_bind, hy, ok_bind]
  simp only [pure_eq_ok, ok_bind, e lx hlx, e ly hly, Rounded.minmaxLoop, List.foldlM, g0, g1, coord, maxSafe, minSafe]
  obtain ⟨a, c⟩ := p
  obtain ⟨d, f⟩ := q
  simp only at *
  obtain ⟨a0, c0, d1, f1⟩ := b
  have t : ∀ x y : ℝ, 0 ≤ x → x ≤ y → y ≤ 1000 →
      (if y < if x < 9007199254740991 then x else 9007199254740991 then y else if x < 9007199254740991 then x else 9007199254740991) = x ∧
      (if y > if x > -9007199254740991 then x else -9007199254740991 then y else if x > -9007199254740991 then x else -9007199254740991) = y := by
    intro x y x0 xy y1
    rw [if_pos (by linarith : x < 9007199254740991), if_neg (by linarith : ¬ y < x), if_pos (by linarith : x > -9007199254740991)]
    refine ⟨rfl, ?_⟩
    split_ifs with h
    · rfl
    · exact le_antisymm xy (not_lt.mp h)
  obtain ⟨u1, u2⟩ := t a d a0 hpq.1 d1
  obtain ⟨u3, u4⟩ := t c f c0 hpq.2 f1
  simp only [if_true, one_ne_zero, if_false, u1, u2, u3, u4]
  simp only [BoundsRectangle.new, BoundsRectangle.addPoint, BoundsRectangle.init, List.foldl, pyMin_eq, pyMax_eq]
  rw [min_eq_right (by linarith : a ≤ 32768), min_eq_left hpq.1, min_eq_right (by linarith : c ≤ 32768), min_eq_left hpq.2,
    max_eq_right (by linarith : -32768 ≤ a), max_eq_right hpq.1, max_eq_right (by linarith : -32768 ≤ c), max_eq_right hpq.2]

/-- C99: an intersection can be missed. The cubic curve of `C93_counterexample` crosses the line at height 5, drawn as a quadratic curve;
its box ends at height 1, so `curveIntersects` returns nothing. -/
theorem C99_missed_counterexample (depth : ℕ) :
    Rounded.curveIntersects float depth [⟨[(0, 1), (1, 8631899285793451 / 2 ^ 50), (2, 8256599316845909 / 2 ^ 50), (3, 0)], 0, 1⟩]
      [⟨[(0, 5), (1, 5), (2, 5)], 0, 1⟩] (1 / 2) = .ok [] ∧
    ∃ s t : ℝ, 0 < s ∧ s < 1 ∧ 0 < t ∧ t < 1 ∧
      curve [((0:ℝ), (1:ℝ)), (1, 8631899285793451 / 2 ^ 50), (2, 8256599316845909 / 2 ^ 50), (3, 0)] s =
        curve [((0:ℝ), (5:ℝ)), (1, 5), (2, 5)] t := by
  constructor
  · obtain ⟨b, e, hb⟩ := C99_box [((0:ℝ), (5:ℝ)), (1, 5), (2, 5)] (.inl rfl) (by
      intro p hp
      simp only [List.mem_cons, List.not_mem_nil, or_false] at hp
      rcases hp with rfl | rfl | rfl <;> norm_num [abs_le])
    obtain ⟨c1, -⟩ := C93_counterexample
    obtain ⟨t, -, -, ht⟩ := hb.bottom
    rw [curve_three] at ht
    have hc : b.bottom > 1 := by
      rw [abs_le] at ht
      have : (1 - t) ^ 2 * 5 + 2 * (1 - t) * t * 5 + t ^ 2 * 5 = 5 := by ring
      simp only at ht
      norm_num [this] at ht
      linarith [ht.1]
    have hn : (⟨0, 0, 3, 1⟩ : BoundsRectangle ℝ).intersection b = none := by
      rw [C11_intersection_none_iff _ _ ⟨by norm_num, by norm_num, by norm_num, by norm_num, by norm_num, by norm_num⟩ hb.proper]
      rintro ⟨p, h1, h2⟩
      rw [BoundsRectangle.enclosesPoint_iff] at h1 h2
      have := h1.2.2
      have := h2.2.1
      simp only at *
      linarith
    have ho : Rounded.overlaps float ⟨[(0, 1), (1, 8631899285793451 / 2 ^ 50), (2, 8256599316845909 / 2 ^ 50), (3, 0)], 0, 1⟩
        ⟨[(0, 5), (1, 5), (2, 5)], 0, 1⟩ = .ok false := by
      unfold Rounded.overlaps
      simp only
      rw [c1, ok_bind, e, ok_bind, hn]
      rfl
    unfold Rounded.curveIntersects
    simp only [List.flatMap_cons, List.flatMap_nil, List.map_cons, List.map_nil, List.append_nil]
    rw [filterM_ok _ (fun _ => false) _ (by
      intro x hx
      rw [List.mem_singleton] at hx
      rw [hx]
      exact ho)]
    rfl
  · have cont : ContinuousOn (fun s : ℝ => (curve [((0:ℝ), (1:ℝ)), (1, 8631899285793451 / 2 ^ 50), (2, 8256599316845909 / 2 ^ 50), (3, 0)] s).2)
        (Set.Icc 0 (1 / 2)) := by
      simp only [curve_four]
      fun_prop
    obtain ⟨s, ⟨s0, s1⟩, hs⟩ := intermediate_value_Icc (by norm_num) cont (show (5:ℝ) ∈ _ by
      simp only [curve_four]
      constructor <;> norm_num)
    simp only [curve_four] at hs
    have s0' : s ≠ 0 := by rintro rfl; norm_num at hs
    have s0'' : 0 < s := lt_of_le_of_ne s0 (Ne.symm s0')
    refine ⟨s, 3 * s / 2, s0'', by linarith, by linarith, by linarith, ?_⟩
    rw [curve_four, curve_three]
    simp only [Prod.mk.injEq]
    constructor
    · ring
    · rw [hs]; ring

private theorem tall_box : Rounded.boundsRectangle float [(0, 0), (1 / 32, 8), (1 / 16, 4544648061474133 / 2 ^ 49), (3 / 32, 7 / 32)] =
    .ok ⟨0, 0, 3 / 32, 7 / 32⟩ := by
  have es : ([(0, 0), (1 / 32, 8), (1 / 16, 4544648061474133 / 2 ^ 49), (3 / 32, 7 / 32)] : Segment ℝ) =
      Flt.seg [(0, 0), (1 / 32, 8), (1 / 16, 4544648061474133 / 2 ^ 49), (3 / 32, 7 / 32)] := by
    simp [Flt.seg, Flt.pt]
  have hx : Rounded.extremaDim float (order (Flt.seg [(0, 0), (1 / 32, 8), (1 / 16, 4544648061474133 / 2 ^ 49), (3 / 32, 7 / 32)]))
      (Rounded.dcPoints float (Flt.seg [(0, 0), (1 / 32, 8), (1 / 16, 4544648061474133 / 2 ^ 49), (3 / 32, 7 / 32)])) 0 = .ok [] := by
    rw [Flt.dcPoints_run 3 _ rfl, Flt.order_seg, Flt.extremaDim_run]
    have : Flt.extremaDim (order ([(0, 0), (1 / 32, 8), (1 / 16, 4544648061474133 / 2 ^ 49), (3 / 32, 7 / 32)] : Segment ℚ))
        (Flt.dcPoints 3 [(0, 0), (1 / 32, 8), (1 / 16, 4544648061474133 / 2 ^ 49), (3 / 32, 7 / 32)]) 0 = .ok [] := by decide +kernel
    rw [this]; rfl
  have hy : Rounded.extremaDim float (order (Flt.seg [(0, 0), (1 / 32, 8), (1 / 16, 4544648061474133 / 2 ^ 49), (3 / 32, 7 / 32)]))
      (Rounded.dcPoints float (Flt.seg [(0, 0), (1 / 32, 8), (1 / 16, 4544648061474133 / 2 ^ 49), (3 / 32, 7 / 32)])) 1 = .ok [0] := by
    rw [Flt.dcPoints_run 3 _ rfl, Flt.order_seg, Flt.extremaDim_run]
    have : Flt.extremaDim (order ([(0, 0), (1 / 32, 8), (1 / 16, 4544648061474133 / 2 ^ 49), (3 / 32, 7 / 32)] : Segment ℚ))
        (Flt.dcPoints 3 [(0, 0), (1 / 32, 8), (1 / 16, 4544648061474133 / 2 ^ 49), (3 / 32, 7 / 32)]) 1 = .ok [0] := by decide +kernel
    rw [this]; simp [Except.map, Flt.num]
  rw [← es] at hx hy
  exact box_of_ends _ (by simp) _ _ (.inl rfl) (.inr rfl) hx hy (0, 0) (3 / 32, 7 / 32) rfl rfl (by norm_num) (by norm_num)

private theorem short_box : Rounded.boundsRectangle float [(0, 0), (1 / 16, 1 / 16), (1 / 8, 1 / 8)] = .ok ⟨0, 0, 1 / 8, 1 / 8⟩ := by
  have es : ([(0, 0), (1 / 16, 1 / 16), (1 / 8, 1 / 8)] : Segment ℝ) = Flt.seg [(0, 0), (1 / 16, 1 / 16), (1 / 8, 1 / 8)] := by
    simp [Flt.seg, Flt.pt]
  have h : ∀ d, Rounded.extremaDim float (order (Flt.seg [(0, 0), (1 / 16, 1 / 16), (1 / 8, 1 / 8)]))
      (Rounded.dcPoints float (Flt.seg [(0, 0), (1 / 16, 1 / 16), (1 / 8, 1 / 8)])) d = .ok [] := by
    intro d
    rw [Flt.dcPoints_run 2 _ rfl, Flt.order_seg, Flt.extremaDim_run]
    have : Flt.extremaDim (order ([(0, 0), (1 / 16, 1 / 16), (1 / 8, 1 / 8)] : Segment ℚ))
        (Flt.dcPoints 2 [(0, 0), (1 / 16, 1 / 16), (1 / 8, 1 / 8)]) d = .ok [] := by
      revert d; decide +kernel
    rw [this]; rfl
  rw [← es] at h
  exact box_of_ends _ (by simp) _ _ (.inl rfl) (.inl rfl) (h 0) (h 1) (0, 0) (1 / 8, 1 / 8) rfl rfl (by norm_num) (by norm_num)

private theorem rnd_repr (m e : ℤ) (h : |m| ≤ 2 ^ 53) : float.rnd (m * 2 ^ e) = m * 2 ^ e := roundBits_repr 53 (by omega) m e h

private theorem middle_whole (ps : Segment ℝ) : Rounded.middle float ⟨ps, 0, 1⟩ = 1 / 2 := by
  unfold Rounded.middle Rounding.add Rounding.mul Rounding.div
  have a := rnd_int 100000 (by norm_num)
  have b := rnd_int 50000 (by norm_num)
  norm_num at a b
  norm_num [rnd_one, a, b]
  have := rnd_half
  norm_num at this
  exact this

private theorem extent_repr (b : BoundsRectangle ℝ) (h w s : ℤ) (hh : |h| ≤ 2 ^ 53) (hw : |w| ≤ 2 ^ 53) (hs : h + w = s) (hs' : |s| ≤ 2 ^ 53)
    (e : ℤ) (e1 : b.top - b.bottom = h * 2 ^ e) (e2 : b.right - b.left = w * 2 ^ e) : Rounded.extent float b = s * 2 ^ e := by
  unfold Rounded.extent Rounding.add Rounding.sub
  rw [e1, e2, rnd_repr h e hh, rnd_repr w e hw, ← add_mul]
  have : (h:ℝ) + w = s := by exact_mod_cast hs
  rw [this, rnd_repr s e hs']

/-- C99: the points at the reported parameters themselves can be far apart. Of this cubic curve only the ends are near the small
quadratic curve; in the middle it is more than 5.9 away, but its box is computed too small and the middle of both curves is reported. -/
theorem C99_far_counterexample (depth : ℕ) :
    Rounded.curveIntersects float (depth + 1) [⟨[(0, 0), (1 / 32, 8), (1 / 16, 4544648061474133 / 2 ^ 49), (3 / 32, 7 / 32)], 0, 1⟩]
      [⟨[(0, 0), (1 / 16, 1 / 16), (1 / 8, 1 / 8)], 0, 1⟩] (1 / 2) = .ok [(1 / 2, 1 / 2)] ∧
    59 / 10 < dist1 (curve [((0:ℝ), (0:ℝ)), (1 / 32, 8), (1 / 16, 4544648061474133 / 2 ^ 49), (3 / 32, 7 / 32)] (1 / 2))
      (curve [((0:ℝ), (0:ℝ)), (1 / 16, 1 / 16), (1 / 8, 1 / 8)] (1 / 2)) := by
  constructor
  · have hz : ((⟨0, 0, 3 / 32, 7 / 32⟩ : BoundsRectangle ℝ).intersection ⟨0, 0, 1 / 8, 1 / 8⟩).isSome = true := by
      by_contra hc
      rw [Bool.not_eq_true, Option.isSome_eq_false_iff, Option.isNone_iff_eq_none,
        C11_intersection_none_iff _ _ ⟨by norm_num, by norm_num, by norm_num, by norm_num, by norm_num, by norm_num⟩
          ⟨by norm_num, by norm_num, by norm_num, by norm_num, by norm_num, by norm_num⟩] at hc
      apply hc
      refine ⟨(0, 0), ?_, ?_⟩ <;> rw [BoundsRectangle.enclosesPoint_iff] <;> refine ⟨⟨?_, ?_⟩, ?_, ?_⟩ <;> norm_num
    unfold Rounded.curveIntersects
    simp only [List.flatMap_cons, List.flatMap_nil, List.map_cons, List.map_nil, List.append_nil]
    rw [filterM_ok _ (fun _ => true) _ (by
      intro x hx
      rw [List.mem_singleton] at hx
      rw [hx]
      unfold Rounded.overlaps
      simp only
      rw [tall_box, ok_bind, short_box, ok_bind, hz]
      rfl)]
    rw [ok_bind]
    have e1 := extent_repr ⟨0, 0, 3 / 32, 7 / 32⟩ 7 3 10 (by norm_num) (by norm_num) (by norm_num) (by norm_num) (-5) (by norm_num) (by norm_num)
    have e2 := extent_repr ⟨0, 0, 1 / 8, 1 / 8⟩ 1 1 2 (by norm_num) (by norm_num) (by norm_num) (by norm_num) (-3) (by norm_num) (by norm_num)
    simp only [List.filter_cons, if_true, List.filter_nil, List.mapM_cons, List.mapM_nil, Rounded.pairiteration]
    rw [tall_box, short_box]
    simp only [ok_bind, e1, e2]
    rw [if_pos (by norm_num)]
    simp only [middle_whole, pure_eq_ok, ok_bind]
    rfl
  · unfold dist1
    rw [curve_four, curve_three]
    norm_num

/-- The point 1 as a quadratic curve, and the curve from 1 to the next floating point number. -/
private noncomputable def P : Segment ℝ := [(1, 0), (1, 0), (1, 0)]
private noncomputable def S : Segment ℝ := [(1, 0), (1, 0), (1 + 1 / 2 ^ 52, 0)]

private theorem P_box : Rounded.boundsRectangle float P = .ok ⟨1, 0, 1, 0⟩ := by
  have es : P = Flt.seg [(1, 0), (1, 0), (1, 0)] := by
    simp [P, Flt.seg, Flt.pt]
  have h : ∀ d, Rounded.extremaDim float (order (Flt.seg [(1, 0), (1, 0), (1, 0)])) (Rounded.dcPoints float (Flt.seg [(1, 0), (1, 0), (1, 0)])) d =
      .ok [] := by
    intro d
    rw [Flt.dcPoints_run 2 _ rfl, Flt.order_seg, Flt.extremaDim_run]
    have : Flt.extremaDim (order ([(1, 0), (1, 0), (1, 0)] : Segment ℚ)) (Flt.dcPoints 2 [(1, 0), (1, 0), (1, 0)]) d = .ok [] := by
      revert d; decide +kernel
    rw [this]; rfl
  rw [← es] at h
  exact box_of_ends _ (by simp [P]) _ _ (.inl rfl) (.inl rfl) (h 0) (h 1) (1, 0) (1, 0) rfl rfl (by norm_num) (by norm_num)

private theorem S_box : Rounded.boundsRectangle float S = .ok ⟨1, 0, 1 + 1 / 2 ^ 52, 0⟩ := by
  have es : S = Flt.seg [(1, 0), (1, 0), (1 + 1 / 2 ^ 52, 0)] := by
    simp [S, Flt.seg, Flt.pt]
  have hx : Rounded.extremaDim float (order (Flt.seg [(1, 0), (1, 0), (1 + 1 / 2 ^ 52, 0)]))
      (Rounded.dcPoints float (Flt.seg [(1, 0), (1, 0), (1 + 1 / 2 ^ 52, 0)])) 0 = .ok [0] := by
    rw [Flt.dcPoints_run 2 _ rfl, Flt.order_seg, Flt.extremaDim_run]
    have : Flt.extremaDim (order ([(1, 0), (1, 0), (1 + 1 / 2 ^ 52, 0)] : Segment ℚ)) (Flt.dcPoints 2 [(1, 0), (1, 0), (1 + 1 / 2 ^ 52, 0)]) 0 =
        .ok [0] := by decide +kernel
    rw [this]; simp [Except.map, Flt.num]
  have hy : Rounded.extremaDim float (order (Flt.seg [(1, 0), (1, 0), (1 + 1 / 2 ^ 52, 0)]))
      (Rounded.dcPoints float (Flt.seg [(1, 0), (1, 0), (1 + 1 / 2 ^ 52, 0)])) 1 = .ok [] := by
    rw [Flt.dcPoints_run 2 _ rfl, Flt.order_seg, Flt.extremaDim_run]
    have : Flt.extremaDim (order ([(1, 0), (1, 0), (1 + 1 / 2 ^ 52, 0)] : Segment ℚ)) (Flt.dcPoints 2 [(1, 0), (1, 0), (1 + 1 / 2 ^ 52, 0)]) 1 =
        .ok [] := by decide +kernel
    rw [this]; rfl
  rw [← es] at hx hy
  exact box_of_ends _ (by simp [S]) _ _ (.inr rfl) (.inl rfl) hx hy (1, 0) (1 + 1 / 2 ^ 52, 0) rfl rfl (by norm_num) (by norm_num)

private theorem map_ok (v T1 T2 : ℝ) : ∃ w, Rounded.map float v 0 1 T1 T2 = .ok w := by
  unfold Rounded.map Rounded.pdiv Rounding.sub
  simp only [sub_zero, rnd_one, one_ne_zero, if_false, ok_bind, pure_eq_ok]
  exact ⟨_, rfl⟩

private theorem split_of {l r ps : Segment ℝ} (h : Rounded.splitPoints float ps (1 / 2) = .ok (l, r)) (a b : ℝ) :
    ∃ x y z w, Rounded.split1 float ⟨ps, a, b⟩ (1 / 2) = .ok (⟨l, x, y⟩, ⟨r, z, w⟩) := by
  obtain ⟨w0, f0⟩ := map_ok 0 a b
  obtain ⟨wh, fh⟩ := map_ok (1 / 2) a b
  obtain ⟨w1, f1⟩ := map_ok 1 a b
  refine ⟨w0, wh, wh, w1, ?_⟩
  unfold Rounded.split1
  simp only
  rw [h, ok_bind]
  simp only [f0, fh, f1, ok_bind, pure_eq_ok]

private theorem S_split : Rounded.splitPoints float S (1 / 2) = .ok (P, S) := by
  have es : S = Flt.seg [(1, 0), (1, 0), (1 + 1 / 2 ^ 52, 0)] := by simp [S, Flt.seg, Flt.pt]
  have ep : P = Flt.seg [(1, 0), (1, 0), (1, 0)] := by simp [P, Flt.seg, Flt.pt]
  have h := Flt.splitPoints_run [(1, 0), (1, 0), (1 + 1 / 2 ^ 52, 0)] (1 / 2) (by simp)
  have : Flt.splitPoints [(1, 0), (1, 0), (1 + 1 / 2 ^ 52, 0)] (1 / 2) = .ok ([(1, 0), (1, 0), (1, 0)], [(1, 0), (1, 0), (1 + 1 / 2 ^ 52, 0)]) := by
    decide +kernel
  rw [this] at h
  rw [es, ep]
  have e : (((1 / 2 : ℚ)) : ℝ) = 1 / 2 := by norm_num
  rw [e] at h
  exact h

private theorem P_split : Rounded.splitPoints float P (1 / 2) = .ok (P, P) := by
  have ep : P = Flt.seg [(1, 0), (1, 0), (1, 0)] := by simp [P, Flt.seg, Flt.pt]
  have h := Flt.splitPoints_run [(1, 0), (1, 0), (1, 0)] (1 / 2) (by simp)
  have : Flt.splitPoints [(1, 0), (1, 0), (1, 0)] (1 / 2) = .ok ([(1, 0), (1, 0), (1, 0)], [(1, 0), (1, 0), (1, 0)]) := by decide +kernel
  rw [this] at h
  rw [ep]
  have e : (((1 / 2 : ℚ)) : ℝ) = 1 / 2 := by norm_num
  rw [e] at h
  exact h

/-- C99: a threshold below the distance of two floating point numbers is never reached. Here the one curve is a point and the other goes
from there to the next floating point number; the right half of this is the curve itself, and Python's recursion limit is hit, whatever
it is. Without rounding every positive threshold is reached (`C47_terminates_exists`). -/
theorem C99_endless_counterexample (depth : ℕ) (a b c d θ : ℝ) (h0 : 0 < θ) (h1 : θ ≤ 1 / 2 ^ 52) :
    Rounded.pairiteration float depth ⟨[(1, 0), (1, 0), (1 + 1 / 2 ^ 52, 0)], a, b⟩ ⟨[(1, 0), (1, 0), (1, 0)], c, d⟩ θ = .error .recursionError := by
  show Rounded.pairiteration float depth ⟨S, a, b⟩ ⟨P, c, d⟩ θ = _
  induction depth generalizing a b c d with
  | zero => rfl
  | succ depth ih =>
    have eS := extent_repr ⟨1, 0, 1 + 1 / 2 ^ 52, 0⟩ 0 1 1 (by norm_num) (by norm_num) (by norm_num) (by norm_num) (-52) (by norm_num) (by norm_num)
    have eP := extent_repr ⟨1, 0, 1, 0⟩ 0 0 0 (by norm_num) (by norm_num) (by norm_num) (by norm_num) 0 (by norm_num) (by norm_num)
    obtain ⟨x1, y1, z1, w1, s1⟩ := split_of S_split a b
    obtain ⟨x2, y2, z2, w2, s2⟩ := split_of P_split c d
    have pp : (⟨1, 0, 1, 0⟩ : BoundsRectangle ℝ).Proper := ⟨by norm_num, by norm_num, by norm_num, by norm_num, by norm_num, by norm_num⟩
    have ps : (⟨1, 0, 1 + 1 / 2 ^ 52, 0⟩ : BoundsRectangle ℝ).Proper := ⟨by norm_num, by norm_num, by norm_num, by norm_num, by norm_num, by norm_num⟩
    have some_of : ∀ u v : BoundsRectangle ℝ, u.Proper → v.Proper → u.enclosesPoint (1, 0) = true → v.enclosesPoint (1, 0) = true →
        (u.intersection v).isSome = true := by
      intro u v hu hv h1 h2
      by_contra hc
      rw [Bool.not_eq_true, Option.isSome_eq_false_iff, Option.isNone_iff_eq_none, C11_intersection_none_iff _ _ hu hv] at hc
      exact hc ⟨(1, 0), h1, h2⟩
    have i1 : (⟨1, 0, 1, 0⟩ : BoundsRectangle ℝ).enclosesPoint (1, 0) = true := by
      rw [BoundsRectangle.enclosesPoint_iff]; refine ⟨⟨?_, ?_⟩, ?_, ?_⟩ <;> norm_num
    have i2 : (⟨1, 0, 1 + 1 / 2 ^ 52, 0⟩ : BoundsRectangle ℝ).enclosesPoint (1, 0) = true := by
      rw [BoundsRectangle.enclosesPoint_iff]; refine ⟨⟨?_, ?_⟩, ?_, ?_⟩ <;> norm_num
    have o1 : ∀ e f g h, Rounded.overlaps float ⟨P, e, f⟩ ⟨P, g, h⟩ = .ok true := by
      intro e f g h
      unfold Rounded.overlaps
      simp only
      rw [P_box, ok_bind, ok_bind, some_of _ _ pp pp i1 i1]
      rfl
    have o2 : ∀ e f g h, Rounded.overlaps float ⟨S, e, f⟩ ⟨P, g, h⟩ = .ok true := by
      intro e f g h
      unfold Rounded.overlaps
      simp only
      rw [P_box, S_box, ok_bind, ok_bind, some_of _ _ ps pp i2 i1]
      rfl
    rw [Rounded.pairiteration]
    simp only [S_box, P_box, ok_bind, eS, eP]
    rw [if_neg (by
      rintro ⟨h, -⟩
      norm_num [zpow_neg] at h h1
      linarith)]
    simp only [s1, s2, ok_bind]
    rw [filterM_ok _ (fun _ => true) _ (by
      intro x hx
      simp only [List.mem_cons, List.not_mem_nil, or_false] at hx
      rcases hx with rfl | rfl | rfl | rfl
      · exact o1 _ _ _ _
      · exact o1 _ _ _ _
      · exact o2 _ _ _ _
      · exact o2 _ _ _ _)]
    simp only [ok_bind, List.filter_cons, if_true, List.filter_nil, List.mapM_cons]
    have first : ∀ e f g h, (∃ r, Rounded.pairiteration float depth ⟨P, e, f⟩ ⟨P, g, h⟩ θ = .ok r) ∨
        Rounded.pairiteration float depth ⟨P, e, f⟩ ⟨P, g, h⟩ θ = .error .recursionError := by
      intro e f g h
      cases depth with
      | zero => exact .inr rfl
      | succ depth =>
        left
        rw [Rounded.pairiteration]
        simp only [P_box, ok_bind, eP]
        rw [if_pos (by norm_num; exact h0)]
        exact ⟨_, rfl⟩
    rw [ih]
    rcases first x1 y1 x2 y2 with ⟨r, hr⟩ | hr
    · rw [hr]
      rcases first x1 y1 z2 w2 with ⟨r', hr'⟩ | hr'
      · rw [hr']; rfl
      · rw [hr']; rfl
    · rw [hr]; rfl

/-- Curves the theorems apply to. -/
example : Start ⟨[(0, 0), (100, 700), (400, 650), (500, -200)], 0, 1⟩ ∧ Start ⟨[(0, 100), (250, 300), (500, 100)], 1 / 3, 0.7⟩ := by
  constructor
  · refine ⟨.inr rfl, ?_, by norm_num, by norm_num⟩
    intro p hp
    simp only [List.mem_cons, List.not_mem_nil, or_false] at hp
    rcases hp with rfl | rfl | rfl | rfl <;> norm_num [abs_le]
  · refine ⟨.inl rfl, ?_, by norm_num, by norm_num⟩
    intro p hp
    simp only [List.mem_cons, List.not_mem_nil, or_false] at hp
    rcases hp with rfl | rfl | rfl <;> norm_num [abs_le]

end counterexamples

end PathLib
