import Verif.Props.BezierReduce
import Verif.Props.BezierIntersect
import Mathlib.Analysis.Calculus.LocalExtr.Rolle

set_option linter.unusedSectionVars false
set_option linter.unusedSimpArgs false

/-!
# Intersections of whole curves and of a curve with itself: C45, C46, C47
-/

namespace PathLib
open Spec Bezier

private theorem tile_mem {ps : Segment ℝ} {a e : ℝ} {l : List Bezier} (h : TilesFrom ps a e l) :
    ∀ p ∈ l, a ≤ p.t1 ∧ p.t1 < p.t2 ∧ p.t2 ≤ e ∧ p.controlPoints.length = ps.length ∧
      ∀ s, curve p.controlPoints s = curve ps (p.t1 + s * (p.t2 - p.t1)) := by
  have le : ∀ (l : List Bezier) (a : ℝ), TilesFrom ps a e l → a ≤ e := by
    intro l
    induction l with
    | nil => intro a h; exact le_of_eq h
    | cons p l ih =>
      rintro a ⟨a1, a2, a3, a4, a5⟩
      have := ih _ a5
      linarith
  induction l generalizing a with
  | nil => simp
  | cons p l ih =>
    obtain ⟨a1, a2, a3, a4, a5⟩ := h
    intro q hq
    rcases List.mem_cons.mp hq with rfl | hq
    · exact ⟨a1.ge, a2, le _ _ a5, a3, a4⟩
    · obtain ⟨b1, b2⟩ := ih a5 q hq
      exact ⟨by linarith, b2⟩

/-- The parts `reduce()` returns, whether or not there are any. -/
private theorem part (b : Bezier) (hb : QuadOrCubic b) (r : List Bezier) (h : reduce b = .ok r) :
    ∀ p ∈ r, QuadOrCubic p ∧ 0 ≤ p.t1 ∧ p.t1 < p.t2 ∧ p.t2 ≤ 1 ∧
      ∀ s, curve p.controlPoints s = curve b.controlPoints (p.t1 + s * (p.t2 - p.t1)) := by
  intro p hp
  obtain ⟨a1, a2, a3, a4, a5⟩ := tile_mem (C48_tiles b hb r h (List.ne_nil_of_mem hp)) p hp
  exact ⟨by unfold QuadOrCubic; rw [a4]; exact hb, a1, a2, a3, a5⟩

private theorem part_param {b p : Bezier} (h0 : 0 ≤ p.t1) (hlt : p.t1 < p.t2) (h1 : p.t2 ≤ 1)
    (hc : ∀ s, curve p.controlPoints s = curve b.controlPoints (p.t1 + s * (p.t2 - p.t1))) {u : ℝ} (u0 : 0 ≤ u) (u1 : u ≤ 1) :
    0 ≤ param p u ∧ param p u ≤ 1 ∧ p.t1 ≤ param p u ∧ param p u ≤ p.t2 ∧
      curve p.controlPoints u = curve b.controlPoints (param p u) := by
  unfold param
  refine ⟨by nlinarith, by nlinarith, by nlinarith, by nlinarith, ?_⟩
  rw [hc]; congr 1; ring

private theorem part_good {b p : Bezier} (hq : QuadOrCubic p) (h0 : 0 ≤ p.t1) (hlt : p.t1 < p.t2) (h1 : p.t2 ≤ 1)
    (hc : ∀ s, curve p.controlPoints s = curve b.controlPoints (p.t1 + s * (p.t2 - p.t1))) {M : ℝ} (hM : 0 ≤ M)
    (hg : Good b M) : Good p M := by
  obtain ⟨g1, g2, g3⟩ := hg
  refine ⟨hq, ?_, ?_⟩
  · intro s t s0 s1 t0 t1
    have := g2 (p.t1 + s * (p.t2 - p.t1)) (p.t1 + t * (p.t2 - p.t1)) (by nlinarith) (by nlinarith) (by nlinarith) (by nlinarith)
    rw [hc, hc]
    have e : |p.t1 + s * (p.t2 - p.t1) - (p.t1 + t * (p.t2 - p.t1))| ≤ |s - t| := by
      rw [show p.t1 + s * (p.t2 - p.t1) - (p.t1 + t * (p.t2 - p.t1)) = (s - t) * (p.t2 - p.t1) by ring, abs_mul]
      have : |p.t2 - p.t1| ≤ 1 := abs_le.mpr ⟨by linarith, by linarith⟩
      have := abs_nonneg (s - t)
      nlinarith
    have := mul_le_mul_of_nonneg_left e hM
    constructor <;> linarith
  · intro t t0 t1
    rw [hc]
    exact g3 _ (by nlinarith) (by nlinarith)

/-- C45: every pair returned by `intersects(curve)` consists of parameters in [0, 1] of points of the two curves closer to each other
than twice the threshold. -/
theorem C45_intersects (depth : Nat) (b c : Bezier) (hb : QuadOrCubic b) (hc : QuadOrCubic c) (θ : ℝ) (l : List (Pt ℝ))
    (hl : intersects depth b (some c) θ = .ok l) :
    ∀ st ∈ l, 0 ≤ st.1 ∧ st.1 ≤ 1 ∧ 0 ≤ st.2 ∧ st.2 ≤ 1 ∧
      dist1 (curve b.controlPoints st.1) (curve c.controlPoints st.2) < 2 * θ := by
  simp only [intersects] at hl
  obtain ⟨rb, hrb, hl⟩ := bind_eq_ok.mp hl
  obtain ⟨rc, hrc, hl⟩ := bind_eq_ok.mp hl
  intro st hst
  obtain ⟨p, hp, q, hq, u, v, u0, u1, v0, v1, rfl, hd⟩ := C45_curveIntersects depth rb rc
    (fun c h => (part b hb rb hrb c h).1) (fun d h => (part c hc rc hrc d h).1) θ l hl st hst
  obtain ⟨_, a1, a2, a3, a4⟩ := part b hb rb hrb p hp
  obtain ⟨_, b1, b2, b3, b4⟩ := part c hc rc hrc q hq
  obtain ⟨c1, c2, _, _, c3⟩ := part_param a1 a2 a3 a4 u0 u1
  obtain ⟨d1, d2, _, _, d3⟩ := part_param b1 b2 b3 b4 v0 v1
  rw [c3, d3] at hd
  exact ⟨c1, c2, d1, d2, hd⟩

/-- C46: `intersects(curve)` finds every meeting point of the two curves, provided the reduction of neither failed. -/
theorem C46_intersects (depth : Nat) (b c : Bezier) (hb : QuadOrCubic b) (hc : QuadOrCubic c) (θ : ℝ) (l : List (Pt ℝ))
    (hl : intersects depth b (some c) θ = .ok l) (h1 : reduce b ≠ .ok []) (h2 : reduce c ≠ .ok []) (s t : ℝ) (s0 : 0 ≤ s)
    (s1 : s ≤ 1) (t0 : 0 ≤ t) (t1 : t ≤ 1) (hm : curve b.controlPoints s = curve c.controlPoints t) :
    ∃ st ∈ l, dist1 (curve b.controlPoints st.1) (curve b.controlPoints s) < θ ∧
      dist1 (curve c.controlPoints st.2) (curve c.controlPoints t) < θ := by
  simp only [intersects] at hl
  obtain ⟨rb, hrb, hl⟩ := bind_eq_ok.mp hl
  obtain ⟨rc, hrc, hl⟩ := bind_eq_ok.mp hl
  obtain ⟨p, hp, u, u0, u1, eu, _⟩ := C48_covers b hb rb hrb (by rintro rfl; exact h1 hrb) s s0 s1
  obtain ⟨q, hq, v, v0, v1, ev, _⟩ := C48_covers c hc rc hrc (by rintro rfl; exact h2 hrc) t t0 t1
  obtain ⟨_, a1, a2, a3, a4⟩ := part b hb rb hrb p hp
  obtain ⟨_, b1, b2, b3, b4⟩ := part c hc rc hrc q hq
  obtain ⟨u', v', w1, w2, w3, w4, hin, hd1, hd2⟩ := C46_curveIntersects depth rb rc
    (fun c h => (part b hb rb hrb c h).1) (fun d h => (part c hc rc hrc d h).1) θ l hl p q hp hq u v u0 u1 v0 v1
    (by rw [a4, b4, eu, ev]; exact hm)
  obtain ⟨_, _, _, _, c3⟩ := part_param a1 a2 a3 a4 w1 w2
  obtain ⟨_, _, _, _, d3⟩ := part_param b1 b2 b3 b4 w3 w4
  rw [c3, a4, eu] at hd1
  rw [d3, b4, ev] at hd2
  exact ⟨_, hin, hd1, hd2⟩

/-- C46: when the reduction of one of the curves fails, `intersects(curve)` reports no intersection, whatever the curves are. -/
theorem C46_no_reduction (depth : Nat) (b c : Bezier) (θ : ℝ) (l : List (Pt ℝ))
    (hl : intersects depth b (some c) θ = .ok l) (h : reduce b = .ok [] ∨ reduce c = .ok []) : l = [] := by
  simp only [intersects] at hl
  obtain ⟨rb, hrb, hl⟩ := bind_eq_ok.mp hl
  obtain ⟨rc, hrc, hl⟩ := bind_eq_ok.mp hl
  rcases h with h | h
  · rw [hrb] at h; cases h
    have : Except.ok [] = (Except.ok l : Py _) := hl
    cases this; rfl
  · rw [hrc] at h; cases h
    have : rb.flatMap (fun l => ([] : List Bezier).map fun r => (l, r)) = [] := by simp
    unfold curveIntersects at hl
    rw [this] at hl
    have : Except.ok [] = (Except.ok l : Py _) := hl
    cases this; rfl

/-- C47: for curves in the design space and a positive threshold `intersects(curve)` returns a result unless `reduce()` raises. -/
theorem C47_intersects (k depth : Nat) (b c : Bezier) (hb : QuadOrCubic b) (hc : QuadOrCubic c)
    (d1 : ∀ p ∈ b.controlPoints, InDesignSpace p) (d2 : ∀ p ∈ c.controlPoints, InDesignSpace p) (θ : ℝ)
    (hk : 3800000 < θ * 2 ^ k) (hd : k + 1 ≤ depth) (rb rc : List Bezier) (hrb : reduce b = .ok rb) (hrc : reduce c = .ok rc) :
    ∃ l, intersects depth b (some c) θ = .ok l := by
  simp only [intersects, hrb, hrc, ok_bind]
  refine good_curveIntersects rb rc 1900000 (by norm_num) ?_ ?_ k depth θ (by linarith) hd
  · intro p hp
    obtain ⟨a0, a1, a2, a3, a4⟩ := part b hb rb hrb p hp
    exact part_good a0 a1 a2 a3 a4 (by norm_num) (good_base b hb d1)
  · intro p hp
    obtain ⟨a0, a1, a2, a3, a4⟩ := part c hc rc hrc p hp
    exact part_good a0 a1 a2 a3 a4 (by norm_num) (good_base c hc d2)

/-! ## Self intersections -/

private theorem mem_self {depth : Nat} {b : Bezier} {θ : ℝ} {l : List (Pt ℝ)} {r : List Bezier} (hr : reduce b = .ok r)
    (hl : selfIntersects depth b θ = .ok l) (st : Pt ℝ) :
    st ∈ l ↔ ∃ i, i < r.length - 2 ∧ ∃ y, curveIntersects depth ((r.drop i).take 1) (r.drop (i + 2)) θ = .ok y ∧ st ∈ y := by
  unfold selfIntersects at hl
  rw [hr, ok_bind] at hl
  obtain ⟨results, hres, hl⟩ := bind_eq_ok.mp hl
  cases hl
  rw [mem_flatten_mapM _ _ _ hres]
  simp only [List.mem_range]

private theorem mem_take_one {r : List Bezier} {i : Nat} (hi : i < r.length) : (r.drop i).take 1 = [r[i]] := by
  rw [List.drop_eq_getElem_cons hi, List.take_succ_cons, List.take_zero]

private theorem tiles_get {ps : Segment ℝ} {a e : ℝ} {l : List Bezier} (h : TilesFrom ps a e l) (i j : Nat) (hij : i < j)
    (hj : j < l.length) : (l[i]'(by omega)).t2 ≤ (l[j]).t1 := by
  induction l generalizing a i j with
  | nil => simp at hj
  | cons p l ih =>
    obtain ⟨a1, a2, a3, a4, a5⟩ := h
    cases j with
    | zero => omega
    | succ j =>
      cases i with
      | zero =>
        simp only [List.getElem_cons_zero, List.getElem_cons_succ]
        exact (tile_mem a5 _ (List.getElem_mem _)).1
      | succ i =>
        simp only [List.getElem_cons_succ]
        exact ih a5 i j (by omega) (by simpa using hj)

private theorem tiles_adj {ps : Segment ℝ} {a e : ℝ} {l : List Bezier} (h : TilesFrom ps a e l) (i : Nat)
    (hi : i + 1 < l.length) : (l[i]'(by omega)).t2 = (l[i + 1]).t1 := by
  induction l generalizing a i with
  | nil => simp at hi
  | cons p l ih =>
    obtain ⟨a1, a2, a3, a4, a5⟩ := h
    cases i with
    | zero =>
      cases l with
      | nil => simp at hi
      | cons q l => exact a5.1.symm
    | succ i =>
      simp only [List.getElem_cons_succ]
      exact ih a5 i (by simpa using hi)

/-- C45: every pair returned by `intersects(None)` consists of parameters `s < t` in [0, 1] of two points of the curve closer to each
other than twice the threshold. -/
theorem C45_selfIntersects (depth : Nat) (b : Bezier) (hb : QuadOrCubic b) (θ : ℝ) (l : List (Pt ℝ))
    (hl : intersects depth b none θ = .ok l) :
    ∀ st ∈ l, 0 ≤ st.1 ∧ st.1 < st.2 ∧ st.2 ≤ 1 ∧
      dist1 (curve b.controlPoints st.1) (curve b.controlPoints st.2) < 2 * θ := by
  simp only [intersects] at hl
  intro st hst
  obtain ⟨r, hr⟩ : ∃ r, reduce b = .ok r := by
    unfold selfIntersects at hl
    obtain ⟨r, hr, _⟩ := bind_eq_ok.mp hl
    exact ⟨r, hr⟩
  obtain ⟨i, hi, y, hy, hin⟩ := (mem_self hr hl st).mp hst
  rw [mem_take_one (by omega)] at hy
  obtain ⟨p, hp, q, hq, u, v, u0, u1, v0, v1, rfl, hd⟩ := C45_curveIntersects depth _ _
    (fun c h => (part b hb r hr c (by rw [List.mem_singleton] at h; rw [h]; exact List.getElem_mem _)).1)
    (fun d h => (part b hb r hr d (List.mem_of_mem_drop h)).1) θ y hy st hin
  rw [List.mem_singleton] at hp
  subst hp
  obtain ⟨j, hj, rfl⟩ := List.getElem_of_mem hq
  rw [List.getElem_drop] at hd ⊢
  have hj' : i + 2 + j < r.length := by rw [List.length_drop] at hj; omega
  have hne : r ≠ [] := by rintro rfl; simp at hi
  have ht := C48_tiles b hb r hr hne
  have hmid : i + 1 < r.length := by omega
  have k1 := tiles_get ht i (i + 1) (by omega) hmid
  have k2 := tiles_get ht (i + 1) (i + 2 + j) (by omega) hj'
  have k3 := (tile_mem ht _ (List.getElem_mem hmid)).2.1
  obtain ⟨_, a1, a2, a3, a4⟩ := part b hb r hr _ (List.getElem_mem (by omega : i < r.length))
  obtain ⟨_, b1, b2, b3, b4⟩ := part b hb r hr _ (List.getElem_mem hj')
  obtain ⟨c1, c2, _, c5, c3⟩ := part_param a1 a2 a3 a4 u0 u1
  obtain ⟨d1, d2, d5, _, d3⟩ := part_param b1 b2 b3 b4 v0 v1
  rw [c3, d3] at hd
  exact ⟨c1, by simp only; linarith, d2, hd⟩

/-- Two points of the curve in parts that are not neighbours. -/
private theorem self_found (depth : Nat) (b : Bezier) (hb : QuadOrCubic b) (θ : ℝ) (l : List (Pt ℝ))
    (hl : intersects depth b none θ = .ok l) (r : List Bezier) (hr : reduce b = .ok r) (i j : Nat) (hij : i + 2 ≤ j)
    (hj : j < r.length) (s t : ℝ) (hs : (r[i]'(by omega)).t1 ≤ s ∧ s ≤ (r[i]'(by omega)).t2)
    (ht : (r[j]).t1 ≤ t ∧ t ≤ (r[j]).t2)
    (hm : curve b.controlPoints s = curve b.controlPoints t) :
    ∃ st ∈ l, dist1 (curve b.controlPoints st.1) (curve b.controlPoints s) < θ ∧
      dist1 (curve b.controlPoints st.2) (curve b.controlPoints t) < θ := by
  simp only [intersects] at hl
  have hi : i < r.length := by omega
  obtain ⟨_, a1, a2, a3, a4⟩ := part b hb r hr _ (List.getElem_mem hi)
  obtain ⟨_, b1, b2, b3, b4⟩ := part b hb r hr _ (List.getElem_mem hj)
  obtain ⟨y, hy⟩ : ∃ y, curveIntersects depth ((r.drop i).take 1) (r.drop (i + 2)) θ = .ok y := by
    unfold selfIntersects at hl
    rw [hr, ok_bind] at hl
    obtain ⟨results, hres, hl⟩ := bind_eq_ok.mp hl
    obtain ⟨y, _, hy⟩ := forall₂_left ((mapM_eq_ok_iff _ _ _).mp hres) (a := i) (by rw [List.mem_range]; omega)
    exact ⟨y, hy⟩
  have hy' := hy
  rw [mem_take_one hi] at hy'
  have inv : ∀ p : Bezier, p.t1 < p.t2 → ∀ x, p.t1 + (x - p.t1) / (p.t2 - p.t1) * (p.t2 - p.t1) = x := by
    intro p hp x
    have : p.t2 - p.t1 ≠ 0 := by linarith
    field_simp; ring
  have rng : ∀ p : Bezier, p.t1 < p.t2 → ∀ x, p.t1 ≤ x → x ≤ p.t2 → 0 ≤ (x - p.t1) / (p.t2 - p.t1) ∧
      (x - p.t1) / (p.t2 - p.t1) ≤ 1 := by
    intro p hp x h1 h2
    have : 0 < p.t2 - p.t1 := by linarith
    exact ⟨div_nonneg (by linarith) this.le, by rw [div_le_one this]; linarith⟩
  obtain ⟨u0, u1⟩ := rng _ a2 s hs.1 hs.2
  obtain ⟨v0, v1⟩ := rng _ b2 t ht.1 ht.2
  obtain ⟨u', v', w1, w2, w3, w4, hin, hd1, hd2⟩ := C46_curveIntersects depth _ _
    (fun c h => (part b hb r hr c (by rw [List.mem_singleton] at h; rw [h]; exact List.getElem_mem _)).1)
    (fun d h => (part b hb r hr d (List.mem_of_mem_drop h)).1) θ y hy' _ r[j] (List.mem_singleton_self _)
    (by rw [List.mem_iff_getElem]; exact ⟨j - (i + 2), by rw [List.length_drop]; omega, by
          rw [List.getElem_drop]; congr 1; omega⟩)
    _ _ u0 u1 v0 v1 (by rw [a4, b4, inv _ a2, inv _ b2]; exact hm)
  obtain ⟨_, _, _, _, c3⟩ := part_param a1 a2 a3 a4 w1 w2
  obtain ⟨_, _, _, _, d3⟩ := part_param b1 b2 b3 b4 w3 w4
  rw [c3, a4, inv _ a2] at hd1
  rw [d3, b4, inv _ b2] at hd2
  exact ⟨_, (mem_self hr hl _).mpr ⟨i, by omega, y, hy, hin⟩, hd1, hd2⟩

/-- Rolle's theorem for a coordinate. -/
private theorem rolle (f f' : ℝ → ℝ) (hf : ∀ t, HasDerivAt f (f' t) t) {s t : ℝ} (h : s < t) (e : f s = f t) :
    ∃ c, s < c ∧ c < t ∧ HasDerivAt f 0 c := by
  obtain ⟨c, hc, hz⟩ := exists_hasDerivAt_eq_zero h (fun x _ => (hf x).continuousAt.continuousWithinAt) e (fun x _ => hf x)
  refine ⟨c, hc.1, hc.2, ?_⟩
  have := hf c
  rwa [hz] at this

/-- C46: `intersects(None)` finds every point where the curve meets itself, provided its reduction did not fail. (The code only
compares parts that are not neighbours; this shows that nothing is lost.) -/
theorem C46_selfIntersects (depth : Nat) (b : Bezier) (hb : QuadOrCubic b) (θ : ℝ) (l : List (Pt ℝ))
    (hl : intersects depth b none θ = .ok l) (hne : reduce b ≠ .ok []) (s t : ℝ) (s0 : 0 ≤ s) (hst : s < t) (t1 : t ≤ 1)
    (hm : curve b.controlPoints s = curve b.controlPoints t) :
    ∃ st ∈ l, dist1 (curve b.controlPoints st.1) (curve b.controlPoints s) < θ ∧
      dist1 (curve b.controlPoints st.2) (curve b.controlPoints t) < θ := by
  obtain ⟨r, hr⟩ : ∃ r, reduce b = .ok r := by
    simp only [intersects] at hl
    unfold selfIntersects at hl
    obtain ⟨r, hr, _⟩ := bind_eq_ok.mp hl
    exact ⟨r, hr⟩
  have hrn : r ≠ [] := by rintro rfl; exact hne hr
  have hstop := C48_stops b hb r hr hrn
  obtain ⟨e, he, hz⟩ := zero_mem_extrema b.controlPoints hb
  have hd := hasDerivAt_curve_step b.controlPoints (by rcases hb with h | h <;> omega)
  obtain ⟨c, c1, c2, hc⟩ := rolle _ _ (fun t => (hd t).1) hst (by simp only [hm])
  obtain ⟨d, d1, d2, hd'⟩ := rolle _ _ (fun t => (hd t).2) hst (by simp only [hm])
  have hcd : c ≠ d := by
    rintro rfl
    exact hstop c (by linarith) (by linarith) ⟨hc, hd'⟩
  have hcm : c ∈ e.all := by
    refine (hz c (by linarith) (by linarith)).1 hc ?_
    by_contra hh
    push Not at hh
    exact hstop d (by linarith) (by linarith) ⟨hh d, hd'⟩
  have hdm : d ∈ e.all := by
    refine (hz d (by linarith) (by linarith)).2 hd' ?_
    by_contra hh
    push Not at hh
    exact hstop c (by linarith) (by linarith) ⟨hc, hh c⟩
  have hex := C48_extrema b hb r hr e he
  have ht := C48_tiles b hb r hr hrn
  obtain ⟨p, hp, u, u0, u1, eu, -⟩ := C48_covers b hb r hr hrn s s0 (by linarith)
  obtain ⟨q, hq, v, v0, v1, ev, -⟩ := C48_covers b hb r hr hrn t (by linarith) t1
  obtain ⟨i, hi, rfl⟩ := List.getElem_of_mem hp
  obtain ⟨j, hj, rfl⟩ := List.getElem_of_mem hq
  obtain ⟨_, a1, a2, a3, a4⟩ := part b hb r hr _ hp
  obtain ⟨_, b1, b2, b3, b4⟩ := part b hb r hr _ hq
  have ps : (r[i]).t1 ≤ s ∧ s ≤ (r[i]).t2 := by constructor <;> nlinarith
  have qs : (r[j]).t1 ≤ t ∧ t ≤ (r[j]).t2 := by constructor <;> nlinarith
  -- two extrema lie between the two points, so there is a part between theirs
  have key : ∀ x y, s < x → x < y → y < t → x ∈ e.all → y ∈ e.all → i + 2 ≤ j := by
    intro x y sx xy yt hx hy
    have e1 : (r[i]).t2 ≤ x := by
      rcases hex _ hp x hx with h | h
      · linarith [ps.1]
      · exact h
    have e2 : y ≤ (r[j]).t1 := by
      rcases hex _ hq y hy with h | h
      · exact h
      · linarith [qs.2]
    by_contra hlt
    have hcases : j < i ∨ j = i ∨ j = i + 1 := by omega
    rcases hcases with h | h | h
    · have := tiles_get ht j i h hi
      linarith
    · subst h; linarith
    · subst h
      have : (r[i]).t2 = (r[i + 1]).t1 := tiles_adj ht i hj
      linarith
  have hij : i + 2 ≤ j := by
    rcases lt_or_gt_of_ne hcd with h | h
    · exact key c d c1 h d2 hcm hdm
    · exact key d c d1 h c2 hdm hcm
  exact self_found depth b hb θ l hl r hr i j hij hj s t ps qs hm

/-- C46: when the reduction fails, `intersects(None)` reports nothing. -/
theorem C46_self_no_reduction (depth : Nat) (b : Bezier) (θ : ℝ) (h : reduce b = .ok []) :
    intersects depth b none θ = .ok [] := by
  simp [intersects, selfIntersects, h]

/-- C47: for a curve in the design space and a positive threshold `intersects(None)` returns a result unless `reduce()` raises. -/
theorem C47_selfIntersects (k depth : Nat) (b : Bezier) (hb : QuadOrCubic b) (d1 : ∀ p ∈ b.controlPoints, InDesignSpace p)
    (θ : ℝ) (hk : 3800000 < θ * 2 ^ k) (hd : k + 1 ≤ depth) (r : List Bezier) (hr : reduce b = .ok r) :
    ∃ l, intersects depth b none θ = .ok l := by
  simp only [intersects]
  unfold selfIntersects
  rw [hr, ok_bind]
  have good : ∀ p ∈ r, Good p 1900000 := by
    intro p hp
    obtain ⟨a0, a1, a2, a3, a4⟩ := part b hb r hr p hp
    exact part_good a0 a1 a2 a3 a4 (by norm_num) (good_base b hb d1)
  obtain ⟨x, hx⟩ := mapM_exists (fun (i : Nat) => curveIntersects depth ((r.drop i).take 1) (r.drop (i + 2)) θ)
    (List.range (r.length - 2)) (by
      intro i _
      exact good_curveIntersects _ _ 1900000 (by norm_num) (fun c h => good c (List.mem_of_mem_drop (List.mem_of_mem_take h)))
        (fun c h => good c (List.mem_of_mem_drop h)) k depth θ (by linarith) hd)
  rw [hx]
  exact ⟨_, rfl⟩

/-! ### A loop

The cubic (0,0), (3,1), (-2,1), (1,0) crosses itself. Its derivative at `(1 - w) / 2` is three times `(4 w² - 1, w)`. -/

private theorem loop_angle {w v : ℝ} (h1 : v < w) (h2 : w - v ≤ 1 / 50) (hw : w ≤ 1) (hv : -1 ≤ v) (k : ℝ) (hk : 0 < k) :
    √((k * (4 * w ^ 2 - 1)) ^ 2 + (k * w) ^ 2) * √((k * (4 * v ^ 2 - 1)) ^ 2 + (k * v) ^ 2) <
      2 * (k * (4 * w ^ 2 - 1) * (k * (4 * v ^ 2 - 1)) + k * w * (k * v)) := by
  have lw : 3 / 16 ≤ (4 * w ^ 2 - 1) ^ 2 + w ^ 2 := by nlinarith [sq_nonneg (w ^ 2 - 7 / 32)]
  have lv : 3 / 16 ≤ (4 * v ^ 2 - 1) ^ 2 + v ^ 2 := by nlinarith [sq_nonneg (v ^ 2 - 7 / 32)]
  -- the difference of the two directions is small
  have hx : |(4 * w ^ 2 - 1) - (4 * v ^ 2 - 1)| ≤ 4 / 25 := by
    rw [show (4 * w ^ 2 - 1) - (4 * v ^ 2 - 1) = 4 * (w - v) * (w + v) by ring, abs_le]
    constructor <;> nlinarith
  have hy : |w - v| ≤ 1 / 50 := by rw [abs_le]; constructor <;> linarith
  generalize 4 * w ^ 2 - 1 = x at *
  generalize 4 * v ^ 2 - 1 = y at *
  have hx2 : (x - y) ^ 2 ≤ (4 / 25) ^ 2 := sq_le_sq' (by linarith [(abs_le.mp hx).1]) (abs_le.mp hx).2
  have hy2 : (w - v) ^ 2 ≤ (1 / 50) ^ 2 := sq_le_sq' (by linarith [(abs_le.mp hy).1]) (abs_le.mp hy).2
  have e1 : (k * x) ^ 2 + (k * w) ^ 2 = k ^ 2 * (x ^ 2 + w ^ 2) := by ring
  have e2 : (k * y) ^ 2 + (k * v) ^ 2 = k ^ 2 * (y ^ 2 + v ^ 2) := by ring
  have amgm : ∀ a b : ℝ, 0 ≤ a → 0 ≤ b → √a * √b ≤ (a + b) / 2 := by
    intro a b ha hb
    nlinarith [sq_nonneg (√a - √b), Real.sq_sqrt ha, Real.sq_sqrt hb]
  have := amgm ((k * x) ^ 2 + (k * w) ^ 2) ((k * y) ^ 2 + (k * v) ^ 2) (by positivity) (by positivity)
  have key : (x ^ 2 + w ^ 2 + (y ^ 2 + v ^ 2)) / 2 < 2 * (x * y + w * v) := by nlinarith
  have := mul_lt_mul_of_pos_left key (by positivity : 0 < k ^ 2)
  rw [e1, e2] at *
  nlinarith

private theorem loop_left {w v : ℝ} (h1 : v < w) (h2 : w - v ≤ 1 / 50) (k : ℝ) (hk : 0 < k)
    (he : k = (w - v) / 2) :
    k * (4 * (w ^ 2 + w * v + v ^ 2) - 3) * (k * w) - k * (3 * (w + v) / 2) * (k * (4 * w ^ 2 - 1)) < 0 := by
  have : k * (4 * (w ^ 2 + w * v + v ^ 2) - 3) * (k * w) - k * (3 * (w + v) / 2) * (k * (4 * w ^ 2 - 1)) =
      -(k ^ 3 * (4 * w * (w + 2 * v) + 3)) := by rw [he]; ring
  rw [this]
  have : 0 < 4 * w * (w + 2 * v) + 3 := by nlinarith [sq_nonneg (w + v)]
  have := mul_pos (pow_pos hk 3) this
  linarith

private theorem loop_right {w v : ℝ} (h1 : v < w) (h2 : w - v ≤ 1 / 50) (k : ℝ) (hk : 0 < k)
    (he : k = (w - v) / 2) :
    k * (4 * (w ^ 2 + w * v + v ^ 2) - 3) * (k * (3 * (w + v) / 2) - k * v) -
      k * (3 * (w + v) / 2) * (k * (4 * (w ^ 2 + w * v + v ^ 2) - 3) - k * (4 * v ^ 2 - 1)) < 0 := by
  have : k * (4 * (w ^ 2 + w * v + v ^ 2) - 3) * (k * (3 * (w + v) / 2) - k * v) -
      k * (3 * (w + v) / 2) * (k * (4 * (w ^ 2 + w * v + v ^ 2) - 3) - k * (4 * v ^ 2 - 1)) =
      -(k ^ 3 * (4 * v * (v + 2 * w) + 3)) := by rw [he]; ring
  rw [this]
  have : 0 < 4 * v * (v + 2 * w) + 3 := by nlinarith [sq_nonneg (w + v)]
  have := mul_pos (pow_pos hk 3) this
  linarith

/-- For this curve `intersects(None)` returns a pair of parameters near the crossing. -/
example (b : Bezier) (hb : b.controlPoints = [(0, 0), (3, 1), (-2, 1), (1, 0)]) (depth : Nat) (hd : 24 ≤ depth) :
    ∃ l, intersects depth b none (1 / 2) = .ok l ∧ ∃ st ∈ l, dist1 (curve b.controlPoints st.1) (1 / 2, 3 / 16) < 1 / 2 := by
  have hq : QuadOrCubic b := by unfold QuadOrCubic; rw [hb]; simp
  obtain ⟨r, hr, hne⟩ : ∃ r, reduce b = .ok r ∧ r ≠ [] := by
    apply C48_success b hq
    · intro t t0 t1 ht
      have h1 := (hasDerivAt_curve_step b.controlPoints (by rw [hb]; simp) t).1.unique ht.1
      have h2 := (hasDerivAt_curve_step b.controlPoints (by rw [hb]; simp) t).2.unique ht.2
      rw [hb] at h1 h2
      simp [dcStep, curve_three] at h1 h2
      have : t = 1 / 2 := by linarith
      subst this
      norm_num at h1
    · rintro α β a0 ab b1 hl ⟨qs, hlen, hc, hs⟩
      rw [hb] at hlen hc
      match qs, hlen with
      | [p, q, r, u], _ =>
        have h0 := hc 0
        have h1 := hc 1
        have h2 := hc (1 / 2)
        have h3 := hc (-1)
        simp only [curve_four, Prod.mk.injEq] at h0 h1 h2 h3
        have u1 : q.1 - p.1 = (β - α) * (4 * (1 - 2 * α) ^ 2 - 1) := by linarith
        have u2 : q.2 - p.2 = (β - α) * (1 - 2 * α) := by linarith
        have v1 : u.1 - r.1 = (β - α) * (4 * (1 - 2 * β) ^ 2 - 1) := by linarith
        have v2 : u.2 - r.2 = (β - α) * (1 - 2 * β) := by linarith
        have w1 : u.1 - p.1 = (β - α) * (4 * ((1 - 2 * α) ^ 2 + (1 - 2 * α) * (1 - 2 * β) + (1 - 2 * β) ^ 2) - 3) := by linarith
        have w2 : u.2 - p.2 = (β - α) * (3 * ((1 - 2 * α) + (1 - 2 * β)) / 2) := by linarith
        have x1 : r.1 - p.1 = (u.1 - p.1) - (u.1 - r.1) := by ring
        have x2 : r.2 - p.2 = (u.2 - p.2) - (u.2 - r.2) := by ring
        rw [v1, w1] at x1
        rw [v2, w2] at x2
        have hd : 0 < β - α := by linarith
        rw [C71_simple _ (.inr rfl), if_neg, if_neg] at hs
        · simp only [legs, vec, u1, u2, v1, v2, dot, norm2, Except.ok.injEq, decide_eq_false_iff_not] at hs
          exact hs (loop_angle (w := 1 - 2 * α) (v := 1 - 2 * β) (by linarith) (by linarith) (by linarith) (by linarith) _ hd)
        · simp only [legs, vec, u1, u2, v1, v2, Prod.mk.injEq, not_or, not_and, mul_eq_zero, hd.ne', false_or]
          constructor <;> · intro e1 e2; rw [e2] at e1; norm_num at e1
        · simp only [SShaped, LeftOf, RightOf, cross, dot, vec, u1, u2, x1, x2, w1, w2]
          have c1 := loop_left (w := 1 - 2 * α) (v := 1 - 2 * β) (by linarith) (by linarith) _ hd
            (by ring)
          have c2 := loop_right (w := 1 - 2 * α) (v := 1 - 2 * β) (by linarith) (by linarith) _ hd
            (by ring)
          rintro (⟨(h | ⟨h, -⟩), -⟩ | ⟨-, (h | ⟨h, -⟩)⟩) <;> linarith
  obtain ⟨l, hl⟩ := C47_selfIntersects 23 depth b hq (by
    rw [hb]; simp [InDesignSpace]; norm_num) (1 / 2) (by norm_num) (by omega) r hr
  refine ⟨l, hl, ?_⟩
  have h3 : √3 ^ 2 = 3 := Real.sq_sqrt (by norm_num)
  have h3p : 0 < √3 := Real.sqrt_pos.mpr (by norm_num)
  have h3l : √3 ≤ 2 := by nlinarith
  have cs : curve b.controlPoints ((1 - √3 / 2) / 2) = (1 / 2, 3 / 16) := by
    rw [hb, curve_four]
    have h33 : √3 ^ 3 = 3 * √3 := by rw [pow_succ, h3]
    refine Prod.ext ?_ ?_ <;> simp only <;> ring_nf <;> simp only [h33, h3] <;> ring
  have ct : curve b.controlPoints ((1 + √3 / 2) / 2) = (1 / 2, 3 / 16) := by
    rw [hb, curve_four]
    have h33 : √3 ^ 3 = 3 * √3 := by rw [pow_succ, h3]
    refine Prod.ext ?_ ?_ <;> simp only <;> ring_nf <;> simp only [h33, h3] <;> ring
  obtain ⟨st, h1, h2, _⟩ := C46_selfIntersects depth b hq (1 / 2) l hl (by rw [hr]; simpa using hne) ((1 - √3 / 2) / 2)
    ((1 + √3 / 2) / 2) (by linarith) (by linarith) (by linarith) (by rw [cs, ct])
  exact ⟨st, h1, by rw [cs] at h2; exact h2⟩

end PathLib
