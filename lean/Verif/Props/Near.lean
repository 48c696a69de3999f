import Verif.Props.SamePoints
import Verif.Props.BezierLength

/-!
# Small changes of the control points: C108
-/

set_option linter.unusedSectionVars false
set_option linter.unusedSimpArgs false

namespace PathLib
open Spec Bezier

/-- Two lists of points: as many, and each at most `δ` away from its partner. -/
def Spec.Near (δ : ℝ) (ps qs : Segment ℝ) : Prop := List.Forall₂ (fun p q => Spec.dist p q ≤ δ) ps qs

namespace Nearby

/-- From the points of the first list to those of the second. -/
def gap (ps qs : Segment ℝ) : Segment ℝ := List.zipWith (fun p q => (q.1 - p.1, q.2 - p.2)) ps qs

theorem gap_length {ps qs : Segment ℝ} (h : ps.length = qs.length) : (gap ps qs).length = ps.length := by simp [gap, h]

theorem near_length {δ : ℝ} {ps qs : Segment ℝ} (h : Near δ ps qs) : ps.length = qs.length := List.Forall₂.length_eq h

theorem gap_le {δ : ℝ} {ps qs : Segment ℝ} (h : Near δ ps qs) : ∀ d ∈ gap ps qs, vlen d ≤ δ := by
  induction h with
  | nil => simp [gap]
  | cons hab _ ih =>
    intro d hd
    simp only [gap, List.zipWith_cons_cons, List.mem_cons] at hd
    rcases hd with rfl | hd
    · exact hab
    · exact ih d hd

theorem bernList_sub (l m : List ℝ) (h : l.length = m.length) (t : ℝ) : bernList (List.zipWith (fun a b => b - a) l m) t = bernList m t - bernList l t := by
  unfold bernList bernSum
  rw [List.length_zipWith, ← h, min_self, ← Finset.sum_sub_distrib]
  refine Finset.sum_congr rfl fun i _ => ?_
  rw [← mul_sub]
  congr 1
  simp only [List.getD_eq_getElem?_getD, List.getElem?_zipWith]
  by_cases hi : i < l.length
  · rw [List.getElem?_eq_getElem hi, List.getElem?_eq_getElem (h ▸ hi)]
    rfl
  · rw [List.getElem?_eq_none (by omega), List.getElem?_eq_none (by omega)]
    simp

theorem curve_gap (ps qs : Segment ℝ) (h : ps.length = qs.length) (t : ℝ) : curve (gap ps qs) t = ((curve qs t).1 - (curve ps t).1, (curve qs t).2 - (curve ps t).2) := by
  unfold curve gap
  simp only
  rw [← bernList_sub _ _ (by simp [h]), ← bernList_sub _ _ (by simp [h]), List.zipWith_map, List.zipWith_map, List.map_zipWith, List.map_zipWith]

/-- The points of a curve are no farther from the origin than its control points. -/
theorem curve_le {δ : ℝ} (ds : Segment ℝ) (hne : ds ≠ []) (h : ∀ d ∈ ds, vlen d ≤ δ) (t : ℝ) (h0 : 0 ≤ t) (h1 : t ≤ 1) : vlen (curve ds t) ≤ δ := by
  have hm : 0 ≤ δ := (vlen_nonneg _).trans (h _ (List.head_mem hne))
  rcases (vlen_nonneg (curve ds t)).eq_or_lt with e | e
  · rw [← e]; exact hm
  have hb := in_range (ds.map (affineMap (curve ds t).1 0 (curve ds t).2 0 0 0)) (by simpa using hne) (δ * vlen (curve ds t)) (by
    intro p hp
    obtain ⟨d, hd, rfl⟩ := List.mem_map.mp hp
    have k1 := dot_le d (curve ds t)
    have k2 := dot_le (-d.1, -d.2) (curve ds t)
    have k3 : vlen (-d.1, -d.2) = vlen d := by unfold vlen; simp
    rw [k3] at k2
    have k4 := mul_le_mul_of_nonneg_right (h d hd) e.le
    constructor
    · simp only [affineMap]
      rw [abs_le]
      simp only at k2
      constructor <;> linarith
    · simp only [affineMap]
      simp
      positivity) t h0 h1
  rw [curve_affine _ _ _ _ _ _ _ hne] at hb
  have hc := (abs_le.mp hb.1).2
  simp only [affineMap] at hc
  have := vlen_sq (curve ds t)
  by_contra hlt
  have := mul_lt_mul_of_pos_right (not_le.mp hlt) e
  linarith

theorem near_curve {δ : ℝ} {ps qs : Segment ℝ} (h : Near δ ps qs) (hne : ps ≠ []) (t : ℝ) (h0 : 0 ≤ t) (h1 : t ≤ 1) : Spec.dist (curve ps t) (curve qs t) ≤ δ := by
  have := curve_le (gap ps qs) (by intro e; have k := gap_length (near_length h); rw [e] at k; exact hne (List.length_eq_zero_iff.mp k.symm)) (gap_le h) t h0 h1
  rw [curve_gap _ _ (near_length h)] at this
  exact this

theorem near_ne {δ : ℝ} {ps qs : Segment ℝ} (h : Near δ ps qs) (hne : ps ≠ []) : qs ≠ [] := by
  rintro rfl
  have := near_length h
  exact hne (List.length_eq_zero_iff.mp this)

theorem near_lerp {δ t : ℝ} (h0 : 0 ≤ t) (h1 : t ≤ 1) {a b a' b' : Pt ℝ} (ha : Spec.dist a a' ≤ δ) (hb : Spec.dist b b' ≤ δ) :
    Spec.dist (butils.lerp t a b) (butils.lerp t a' b') ≤ δ := by
  have := near_curve (ps := [a, b]) (qs := [a', b']) (.cons ha (.cons hb .nil)) (by simp) t h0 h1
  rw [curve_two, curve_two] at this
  have e : ∀ u v : Pt ℝ, butils.lerp t u v = ((1 - t) * u.1 + t * v.1, (1 - t) * u.2 + t * v.2) := by
    intro u v
    unfold butils.lerp
    ext <;> simp only <;> ring
  rw [e, e]
  exact this

theorem near_hullStep {δ t : ℝ} (h0 : 0 ≤ t) (h1 : t ≤ 1) {ps qs : Segment ℝ} (h : Near δ ps qs) : Near δ (hullStep t ps) (hullStep t qs) := by
  induction h with
  | nil => exact .nil
  | cons hab hr ih =>
    cases hr with
    | nil => exact .nil
    | cons hab' hr' => exact .cons (near_lerp h0 h1 hab hab') ih

theorem near_hullLoop {δ t : ℝ} (h0 : 0 ≤ t) (h1 : t ≤ 1) (n : ℕ) : ∀ ps qs : Segment ℝ, ps.length = n → Near δ ps qs → Near δ (hullLoop t ps) (hullLoop t qs) := by
  induction n with
  | zero =>
    intro ps qs hl h
    rw [hullLoop.eq_def t ps, hullLoop.eq_def t qs, if_neg (by omega), if_neg (by rw [← near_length h]; omega)]
    exact .nil
  | succ n ih =>
    intro ps qs hl h
    rw [hullLoop.eq_def t ps, hullLoop.eq_def t qs]
    by_cases h' : ps.length > 1
    · rw [if_pos h', if_pos (by rw [← near_length h]; omega)]
      exact List.rel_append (near_hullStep h0 h1 h) (ih _ _ (by rw [hullStep_length, hl]; rfl) (near_hullStep h0 h1 h))
    · rw [if_neg h', if_neg (by rw [← near_length h]; omega)]
      exact .nil

theorem near_hull {δ t : ℝ} (h0 : 0 ≤ t) (h1 : t ≤ 1) {ps qs : Segment ℝ} (h : Near δ ps qs) : Near δ (hull ps t) (hull qs t) :=
  List.rel_append h (near_hullLoop h0 h1 _ ps qs rfl h)

theorem near_getElem {δ : ℝ} {ps qs : Segment ℝ} (h : Near δ ps qs) (i : ℕ) (hi : i < ps.length) (hi' : i < qs.length) : Spec.dist ps[i] qs[i] ≤ δ := by
  induction h generalizing i with
  | nil => simp at hi
  | cons hab _ ih => cases i with
    | zero => exact hab
    | succ i => exact ih i (by simpa using hi) (by simpa using hi')

theorem gap_dcStep (ps qs : Segment ℝ) (h : ps.length = qs.length) : gap (dcStep ps) (dcStep qs) = dcStep (gap ps qs) := by
  unfold dcStep
  rw [gap_length h, ← h]
  refine List.ext_getElem (by simp [gap, h]) fun i hi hi' => ?_
  simp only [gap, List.getElem_zipWith, List.getElem_tail]
  ext <;> simp only <;> ring

theorem vlen_sub_le (p q : Pt ℝ) : vlen (q.1 - p.1, q.2 - p.2) ≤ vlen p + vlen q := by
  have := vlen_add q (-p.1, -p.2)
  have e : vlen (-p.1, -p.2) = vlen p := by unfold vlen; simp
  rw [e] at this
  simp only [← sub_eq_add_neg] at this
  linarith

theorem polygon_gap {δ : ℝ} : ∀ ds : Segment ℝ, (∀ d ∈ ds, vlen d ≤ δ) → ds ≠ [] → polygonLength ds ≤ 2 * ((ds.length : ℝ) - 1) * δ
  | [], _, h => absurd rfl h
  | [d], _, _ => by simp [polygonLength]
  | d :: d' :: ds, hd, _ => by
    have ih := polygon_gap (d' :: ds) (fun x m => hd x (List.mem_cons_of_mem _ m)) (by simp)
    have k := vlen_sub_le d d'
    have k1 := hd d (by simp)
    have k2 := hd d' (by simp)
    unfold polygonLength
    have : Spec.dist d d' ≤ 2 * δ := by unfold Spec.dist; linarith
    simp only [List.length_cons] at ih ⊢
    push_cast at ih ⊢
    nlinarith

end Nearby

open Nearby

/-- C108: control points moved by at most `δ` move every point of the curve by at most `δ`. -/
theorem C108_get (δ : ℝ) (ps qs : Segment ℝ) (h : Near δ ps qs) (hne : ps ≠ []) (t : ℝ) (h0 : 0 ≤ t) (h1 : t ≤ 1) :
    ∃ p q, Bezier.get ps t = .ok p ∧ Bezier.get qs t = .ok q ∧ Spec.dist p q ≤ δ :=
  ⟨_, _, get_ok _ hne t, get_ok _ (near_ne h hne) t, near_curve h hne t h0 h1⟩

/-- C108: and every point of the look-up table. -/
theorem C108_table (δ : ℝ) (ps qs : Segment ℝ) (h : Near δ ps qs) (hne : ps ≠ []) (n : ℕ) (hn : 2 ≤ n) :
    ∃ l m, lutOf ps n = .ok l ∧ lutOf qs n = .ok m ∧ Near δ l m := by
  obtain ⟨l, e1, l1, g1⟩ := C40_samples ps hne n hn
  obtain ⟨m, e2, l2, g2⟩ := C40_samples qs (near_ne h hne) n hn
  refine ⟨l, m, e1, e2, List.forall₂_iff_get.mpr ⟨by omega, fun i hi hi' => ?_⟩⟩
  have a := g1 i hi
  have b := g2 i hi'
  rw [get_ok _ hne, Except.ok.injEq] at a
  rw [get_ok _ (near_ne h hne), Except.ok.injEq] at b
  rw [List.get_eq_getElem, List.get_eq_getElem, ← a, ← b]
  have : (0:ℝ) < (n - 1 : ℕ) := by exact_mod_cast (by omega : 0 < n - 1)
  refine near_curve h hne _ (by positivity) ?_
  rw [div_le_one this]
  exact_mod_cast (by omega : i ≤ n - 1)

/-- C108: and every point of the hull. -/
theorem C108_hull (δ : ℝ) (ps qs : Segment ℝ) (h : Near δ ps qs) (t : ℝ) (h0 : 0 ≤ t) (h1 : t ≤ 1) : Near δ (hull ps t) (hull qs t) := near_hull h0 h1 h

/-- C108: and the control points of the parts. -/
theorem C108_split (δ : ℝ) (b c : Bezier) (hb : QuadOrCubic b) (h : Near δ b.controlPoints c.controlPoints) (t : ℝ) (h0 : 0 ≤ t) (h1 : t ≤ 1) :
    ∃ l r q l' r' q', split b t none = .ok (.parts l r q) ∧ split c t none = .ok (.parts l' r' q') ∧
      Near δ l.controlPoints l'.controlPoints ∧ Near δ r.controlPoints r'.controlPoints ∧ Near δ q q' := by
  have hh := near_hull h0 h1 h
  have hl := near_length h
  obtain ⟨l, r, e1, _⟩ := split1_spec b hb t
  obtain ⟨l', r', e2, _⟩ := split1_spec c (by unfold QuadOrCubic at hb; omega) t
  refine ⟨l, r, hull b.controlPoints t, l', r', hull c.controlPoints t, by unfold split; simp only [e1, ok_bind, pure_eq_ok],
    by unfold split; simp only [e2, ok_bind, pure_eq_ok], ?_⟩
  suffices H : Near δ l.controlPoints l'.controlPoints ∧ Near δ r.controlPoints r'.controlPoints from ⟨H.1, H.2, hh⟩
  have key : ∀ (i : Int) (x y : Pt ℝ), pyGet (hull b.controlPoints t) i = .ok x → pyGet (hull c.controlPoints t) i = .ok y → Spec.dist x y ≤ δ := by
    intro i x y hx hy
    unfold pyGet at hx hy
    rw [← near_length hh] at hy
    simp only at hx hy
    have g : ∀ j : ℕ, (hull b.controlPoints t)[j]? = some x → (hull c.controlPoints t)[j]? = some y → Spec.dist x y ≤ δ := by
      intro j hx hy
      obtain ⟨k1, rfl⟩ := List.getElem?_eq_some_iff.mp hx
      obtain ⟨k2, rfl⟩ := List.getElem?_eq_some_iff.mp hy
      exact near_getElem hh j k1 k2
    split_ifs at hx hy
    all_goals
      split at hx
      · next a ha =>
        cases hx
        split at hy
        · next b hb => cases hy; exact g _ ha hb
        · cases hy
      · cases hx
  have ho : order b.controlPoints = order c.controlPoints := by unfold order; rw [hl]
  unfold split1 at e1 e2
  rw [← ho] at e2
  obtain ⟨⟨l1, r1⟩, g1, e1⟩ := bind_eq_ok.mp e1
  obtain ⟨⟨l2, r2⟩, g2, e2⟩ := bind_eq_ok.mp e2
  simp only [map01, ok_bind, pure_eq_ok, Except.ok.injEq, Prod.mk.injEq] at e1 e2
  obtain ⟨rfl, rfl, -⟩ := e1
  obtain ⟨rfl, rfl, -⟩ := e2
  simp only
  split_ifs at g1 g2
  all_goals
    simp only [bind_eq_ok, pure_eq_ok, Except.ok.injEq, Prod.mk.injEq] at g1 g2
  · obtain ⟨_, a1, _, a2, _, a3, _, al, _, a4, _, a5, _, a6, _, ar, rfl, rfl⟩ := g1
    obtain ⟨_, b1, _, b2, _, b3, _, bl, _, b4, _, b5, _, b6, _, br, rfl, rfl⟩ := g2
    rw [(new_controlPoints al).1, (new_controlPoints ar).1, (new_controlPoints bl).1, (new_controlPoints br).1]
    exact ⟨.cons (key _ _ _ a1 b1) (.cons (key _ _ _ a2 b2) (.cons (key _ _ _ a3 b3) .nil)), .cons (key _ _ _ a4 b4) (.cons (key _ _ _ a5 b5) (.cons (key _ _ _ a6 b6) .nil))⟩
  · obtain ⟨_, a1, _, a2, _, a3, _, a4, _, al, _, a5, _, a6, _, a7, _, a8, _, ar, rfl, rfl⟩ := g1
    obtain ⟨_, b1, _, b2, _, b3, _, b4, _, bl, _, b5, _, b6, _, b7, _, b8, _, br, rfl, rfl⟩ := g2
    rw [(new_controlPoints al).1, (new_controlPoints ar).1, (new_controlPoints bl).1, (new_controlPoints br).1]
    exact ⟨.cons (key _ _ _ a1 b1) (.cons (key _ _ _ a2 b2) (.cons (key _ _ _ a3 b3) (.cons (key _ _ _ a4 b4) .nil))),
      .cons (key _ _ _ a5 b5) (.cons (key _ _ _ a6 b6) (.cons (key _ _ _ a7 b7) (.cons (key _ _ _ a8 b8) .nil)))⟩

/-- C108: the derivative of a curve of order `n` changes by at most `2 n δ`. -/
theorem C108_derivative (δ : ℝ) (ps qs : Segment ℝ) (hn : ps.length = 3 ∨ ps.length = 4) (h : Near δ ps qs) (t : ℝ) (h0 : 0 ≤ t) (h1 : t ≤ 1) :
    ∃ u v, derivative ps t = .ok u ∧ derivative qs t = .ok v ∧ Spec.dist u v ≤ 2 * ((ps.length : ℝ) - 1) * δ := by
  have hl := near_length h
  refine ⟨_, _, derivative_ok ps hn t, derivative_ok qs (by omega) t, ?_⟩
  have hg := gap_length hl
  have hd := gap_le h
  have e := curve_gap (dcStep ps) (dcStep qs) (by rw [dcStep_length, dcStep_length, hl]) t
  unfold Spec.dist
  rw [← e, gap_dcStep _ _ hl]
  refine curve_le _ ?_ ?_ t h0 h1
  · intro e
    have := dcStep_length (gap ps qs)
    rw [e, hg] at this
    simp at this
    omega
  · intro d hd'
    unfold dcStep at hd'
    obtain ⟨i, hi, rfl⟩ := List.getElem_of_mem hd'
    simp only [List.getElem_zipWith, List.getElem_tail]
    have hi1 : i + 1 < (gap ps qs).length := by simp at hi; omega
    have a := hd _ (List.getElem_mem (l := gap ps qs) (n := i) (by simp at hi; omega))
    have b := hd _ (List.getElem_mem (l := gap ps qs) (n := i + 1) (by simp at hi; omega))
    have c := vlen_sub_le (gap ps qs)[i] (gap ps qs)[i + 1]
    have s := vlen_smul (((gap ps qs).length - 1 : ℕ) : ℝ) ((gap ps qs)[i + 1].1 - (gap ps qs)[i].1, (gap ps qs)[i + 1].2 - (gap ps qs)[i].2)
    simp only at s
    have hk : (((gap ps qs).length - 1 : ℕ) : ℝ) = (ps.length : ℝ) - 1 := by rw [hg, Nat.cast_sub (by omega), Nat.cast_one]
    rw [s]
    simp only [hk]
    have hp : (0:ℝ) ≤ (ps.length : ℝ) - 1 := by
      have : (1:ℝ) ≤ ps.length := by exact_mod_cast (by omega : 1 ≤ ps.length)
      linarith
    rw [abs_of_nonneg hp]
    nlinarith

/-- C108: the length of a curve of order `n` changes by at most `2 n δ`, up to a relative error of 1e-35. -/
theorem C108_length (δ : ℝ) (ps qs : Segment ℝ) (hn : ps.length = 3 ∨ ps.length = 4) (h : Near δ ps qs) :
    ∃ l m, lengthOf ps = .ok l ∧ lengthOf qs = .ok m ∧ |l - m| ≤ (1 + 1e-35) * (2 * ((ps.length : ℝ) - 1) * δ) := by
  have hl := near_length h
  have hg := gap_length hl
  refine ⟨_, _, lengthOf_curve ps hn, lengthOf_curve qs (by omega), ?_⟩
  obtain ⟨g, eg, -, hg2⟩ := C51_chord_polygon (gap ps qs) (by omega) (by intro e; rw [e] at hg; simp at hg; omega)
  rw [lengthOf_curve _ (by omega)] at eg
  cases eg
  have hp := polygon_gap (gap ps qs) (gap_le h) (by intro e; rw [e] at hg; simp at hg; omega)
  rw [hg] at hp
  have c : ∀ t, curve (dcStep (gap ps qs)) t = ((curve (dcStep qs) t).1 - (curve (dcStep ps) t).1, (curve (dcStep qs) t).2 - (curve (dcStep ps) t).2) := by
    intro t
    rw [← gap_dcStep _ _ hl, curve_gap _ _ (by rw [dcStep_length, dcStep_length, hl])]
  have k1 := quad_mono (fun t => vlen (curve (dcStep qs) t)) (fun t => vlen (curve (dcStep ps) t) + vlen (curve (dcStep (gap ps qs)) t)) (by
    intro t _ _
    rw [c]
    have := vlen_add (curve (dcStep ps) t) ((curve (dcStep qs) t).1 - (curve (dcStep ps) t).1, (curve (dcStep qs) t).2 - (curve (dcStep ps) t).2)
    simpa using this)
  have k2 := quad_mono (fun t => vlen (curve (dcStep ps) t)) (fun t => vlen (curve (dcStep qs) t) + vlen (curve (dcStep (gap ps qs)) t)) (by
    intro t _ _
    have := vlen_add (curve (dcStep qs) t) ((curve (dcStep ps) t).1 - (curve (dcStep qs) t).1, (curve (dcStep ps) t).2 - (curve (dcStep qs) t).2)
    have e : vlen ((curve (dcStep ps) t).1 - (curve (dcStep qs) t).1, (curve (dcStep ps) t).2 - (curve (dcStep qs) t).2) = vlen (curve (dcStep (gap ps qs)) t) := by
      rw [c]
      unfold vlen
      congr 1
      simp only
      ring
    rw [e] at this
    simpa using this)
  rw [quad_add] at k1 k2
  have k3 : (1 + 1e-35) * polygonLength (gap ps qs) ≤ (1 + 1e-35) * (2 * ((ps.length : ℝ) - 1) * δ) := mul_le_mul_of_nonneg_left hp (by norm_num)
  rw [abs_le]
  constructor <;> linarith

namespace Nearby

theorem coord_le {δ : ℝ} {p q : Pt ℝ} (h : Spec.dist p q ≤ δ) : |q.1 - p.1| ≤ δ ∧ |q.2 - p.2| ≤ δ := by
  have hs := vlen_sq (q.1 - p.1, q.2 - p.2)
  have hn := vlen_nonneg (q.1 - p.1, q.2 - p.2)
  unfold Spec.dist at h
  simp only at hs
  constructor <;> refine (abs_le_of_sq_le_sq ?_ hn).trans h <;>
    nlinarith [mul_self_nonneg (q.1 - p.1), mul_self_nonneg (q.2 - p.2)]

theorem dist_comm' (p q : Pt ℝ) : Spec.dist p q = Spec.dist q p := by
  unfold Spec.dist vlen
  congr 1
  simp only
  ring

theorem near_symm {δ : ℝ} {ps qs : Segment ℝ} (h : Near δ ps qs) : Near δ qs ps := by
  refine List.Forall₂.flip ?_
  exact h.imp fun p q k => by show Spec.dist q p ≤ δ; rw [dist_comm']; exact k

/-- The sides of two rectangles differ by at most `δ`. -/
def Close (δ : ℝ) (r r' : BoundsRectangle ℝ) : Prop :=
  |r.left - r'.left| ≤ δ ∧ |r.bottom - r'.bottom| ≤ δ ∧ |r.right - r'.right| ≤ δ ∧ |r.top - r'.top| ≤ δ

theorem box_near {δ : ℝ} {S T : Set (Pt ℝ)} {r r' : BoundsRectangle ℝ} (hST : ∀ p ∈ S, ∃ q ∈ T, Spec.dist p q ≤ δ) (h : Touched S r) (h' : ∀ p ∈ T, r'.enclosesPoint p = true) :
    r'.left ≤ r.left + δ ∧ r'.bottom ≤ r.bottom + δ ∧ r.right ≤ r'.right + δ ∧ r.top ≤ r'.top + δ := by
  obtain ⟨⟨p1, m1, e1⟩, ⟨p2, m2, e2⟩, ⟨p3, m3, e3⟩, ⟨p4, m4, e4⟩⟩ := h
  obtain ⟨q1, n1, d1⟩ := hST p1 m1
  obtain ⟨q2, n2, d2⟩ := hST p2 m2
  obtain ⟨q3, n3, d3⟩ := hST p3 m3
  obtain ⟨q4, n4, d4⟩ := hST p4 m4
  have k1 := (BoundsRectangle.enclosesPoint_iff _ _).mp (h' q1 n1)
  have k2 := (BoundsRectangle.enclosesPoint_iff _ _).mp (h' q2 n2)
  have k3 := (BoundsRectangle.enclosesPoint_iff _ _).mp (h' q3 n3)
  have k4 := (BoundsRectangle.enclosesPoint_iff _ _).mp (h' q4 n4)
  unfold InBox at k1 k2 k3 k4
  have c1 := (abs_le.mp (coord_le d1).1).2
  have c2 := (abs_le.mp (coord_le d2).1).1
  have c3 := (abs_le.mp (coord_le d3).2).2
  have c4 := (abs_le.mp (coord_le d4).2).1
  rw [← e1, ← e2, ← e3, ← e4]
  exact ⟨by linarith [k1.1.1], by linarith [k3.2.1], by linarith [k2.1.2], by linarith [k4.2.2]⟩

theorem box_close {δ : ℝ} {r r' : BoundsRectangle ℝ} (h : r'.left ≤ r.left + δ ∧ r'.bottom ≤ r.bottom + δ ∧ r.right ≤ r'.right + δ ∧ r.top ≤ r'.top + δ)
    (h' : r.left ≤ r'.left + δ ∧ r.bottom ≤ r'.bottom + δ ∧ r'.right ≤ r.right + δ ∧ r'.top ≤ r.top + δ) : Close δ r r' := by
  unfold Close
  simp only [abs_le]
  refine ⟨⟨?_, ?_⟩, ⟨?_, ?_⟩, ⟨?_, ?_⟩, ?_, ?_⟩ <;> linarith [h.1, h.2.1, h.2.2.1, h.2.2.2, h'.1, h'.2.1, h'.2.2.1, h'.2.2.2]

theorem points_near {δ : ℝ} {c c' : Contour ℝ} (h : List.Forall₂ (Near δ) c c') (hc : ∀ s ∈ c, s ≠ []) : ∀ p ∈ curvePoints c, ∃ q ∈ curvePoints c', Spec.dist p q ≤ δ := by
  rintro p ⟨s, hs, t, h0, h1, hp⟩
  obtain ⟨i, hi, rfl⟩ := List.getElem_of_mem hs
  have hl := h.length_eq
  have hn : Near δ c[i] c'[i] := (List.forall₂_iff_get.mp h).2 i hi (hl ▸ hi)
  obtain ⟨p', q, e1, e2, hd⟩ := C108_get δ _ _ hn (hc _ hs) t h0 h1
  rw [e1] at hp
  cases hp
  exact ⟨q, ⟨_, List.getElem_mem _, t, h0, h1, e2⟩, hd⟩

theorem contour_symm {δ : ℝ} {c c' : Contour ℝ} (h : List.Forall₂ (Near δ) c c') : List.Forall₂ (Near δ) c' c := (h.imp fun _ _ => near_symm).flip

theorem ordinary_ne {c : Contour ℝ} (h : PlainContour c) : ∀ s ∈ c, s ≠ [] := by
  rintro s hs rfl
  have := (h _ hs).1.1
  simp at this

end Nearby

/-- C108: in the design space the sides of the rectangle of a curve move by at most `δ`. -/
theorem C108_bounds (δ : ℝ) (ps qs : Segment ℝ) (h : Near δ ps qs) (hn : 2 ≤ ps.length ∧ ps.length ≤ 4) (hp : ∀ p ∈ ps, InDesignSpace p) (hq : ∀ p ∈ qs, InDesignSpace p) :
    ∃ r r', boundsRectangle ps = .ok r ∧ boundsRectangle qs = .ok r' ∧
      |r.left - r'.left| ≤ δ ∧ |r.bottom - r'.bottom| ≤ δ ∧ |r.right - r'.right| ≤ δ ∧ |r.top - r'.top| ≤ δ := by
  have hl := near_length h
  have hne : ps ≠ [] := by rintro rfl; simp at hn
  obtain ⟨r, e1, _, t1, i1⟩ := SamePoints.rectangle_spec ps hn.1 hn.2 hp
  obtain ⟨r', e2, _, t2, i2⟩ := SamePoints.rectangle_spec qs (by omega) (by omega) hq
  have n1 : List.Forall₂ (Near δ) [ps] [qs] := .cons h .nil
  exact ⟨r, r', e1, e2, box_close (box_near (points_near n1 (by simpa using hne)) t1 i2) (box_near (points_near (contour_symm n1) (by simpa using near_ne h hne)) t2 i1)⟩

/-- C108: and those of the bounds of a contour. -/
theorem C108_contour (δ : ℝ) (c c' : Contour ℝ) (h : List.Forall₂ (Near δ) c c') (hc : PlainContour c) (hc' : PlainContour c') (bc bc' : BContour)
    (e : BContour.new c = .ok bc) (e' : BContour.new c' = .ok bc') :
    |bc.bounds.left - bc'.bounds.left| ≤ δ ∧ |bc.bounds.bottom - bc'.bounds.bottom| ≤ δ ∧ |bc.bounds.right - bc'.bounds.right| ≤ δ ∧ |bc.bounds.top - bc'.bounds.top| ≤ δ := by
  refine box_close (box_near (points_near h (ordinary_ne hc)) (C53_contour_tight c bc e fun s m => (hc s m).2) ?_)
    (box_near (points_near (contour_symm h) (ordinary_ne hc')) (C53_contour_tight c' bc' e' fun s m => (hc' s m).2) ?_)
  · rintro p ⟨s, m, t, h0, h1, hp⟩
    exact C53_contour c' bc' e' s m (hc' s m).1.2 t h0 h1 p hp
  · rintro p ⟨s, m, t, h0, h1, hp⟩
    exact C53_contour c bc e s m (hc s m).1.2 t h0 h1 p hp

/-- C108: and those of the bounds of an outline. -/
theorem C108_outline (δ : ℝ) (cs cs' : List (Contour ℝ)) (h : List.Forall₂ (List.Forall₂ (Near δ)) cs cs') (hne : cs ≠ []) (hc : ∀ c ∈ cs, c ≠ [] ∧ PlainContour c)
    (hc' : ∀ c ∈ cs', PlainContour c) (o o' : BOutline) (e : BOutline.new cs = .ok o) (e' : BOutline.new cs' = .ok o') :
    |o.bounds.left - o'.bounds.left| ≤ δ ∧ |o.bounds.bottom - o'.bounds.bottom| ≤ δ ∧ |o.bounds.right - o'.bounds.right| ≤ δ ∧ |o.bounds.top - o'.bounds.top| ≤ δ := by
  have key : ∀ (cs cs' : List (Contour ℝ)) (_ : List.Forall₂ (List.Forall₂ (Near δ)) cs cs') (_ : ∀ c ∈ cs, c ≠ [] ∧ PlainContour c) (_ : ∀ c ∈ cs', c ≠ [] ∧ PlainContour c) (_ : cs ≠ [])
      (o o' : BOutline) (_ : BOutline.new cs = .ok o) (_ : BOutline.new cs' = .ok o'),
      o'.bounds.left ≤ o.bounds.left + δ ∧ o'.bounds.bottom ≤ o.bounds.bottom + δ ∧ o.bounds.right ≤ o'.bounds.right + δ ∧ o.bounds.top ≤ o'.bounds.top + δ := by
    intro cs cs' h hc hc' hne o o' e e'
    refine box_near ?_ (C53_outline_tight cs o e hne fun c m s ms => ((hc c m).2 s ms).2) (T := { p | ∃ c ∈ cs', p ∈ curvePoints c }) ?_
    · rintro p ⟨c, m, hp⟩
      obtain ⟨i, hi, rfl⟩ := List.getElem_of_mem m
      obtain ⟨q, hq, hd⟩ := points_near ((List.forall₂_iff_get.mp h).2 i hi (h.length_eq ▸ hi)) (ordinary_ne (hc _ m).2) p hp
      exact ⟨q, ⟨_, List.getElem_mem _, hq⟩, hd⟩
    · rintro p ⟨c, m, s, ms, t, h0, h1, hp⟩
      exact C53_outline cs' o' e' c m (fun c m => ⟨(hc' c m).1, fun s ms => ((hc' c m).2 s ms).1.1⟩) s ms ((hc' c m).2 s ms).1.2 t h0 h1 p hp
  have hc'' : ∀ c ∈ cs', c ≠ [] ∧ PlainContour c := by
    intro c m
    refine ⟨?_, hc' c m⟩
    rintro rfl
    obtain ⟨i, hi, ei⟩ := List.getElem_of_mem m
    have hi' : i < cs.length := h.length_eq ▸ hi
    have k : List.Forall₂ (Near δ) cs[i] cs'[i] := (List.forall₂_iff_get.mp h).2 i hi' hi
    rw [ei, List.forall₂_nil_right_iff] at k
    exact (hc _ (List.getElem_mem hi')).1 k
  refine box_close (key cs cs' h hc hc'' hne o o' e e') (key cs' cs ((h.imp fun _ _ => contour_symm).flip) hc'' hc ?_ o' o e' e)
  rintro rfl
  exact hne (List.length_eq_zero_iff.mp h.length_eq)

/-- An arch whose second control point is moved by 5: the rectangle changes by at most 5. -/
example : ∃ r r', boundsRectangle [(0, 0), (0, 300), (300, 300), (300, 0)] = .ok r ∧ boundsRectangle [(0, 0), (3, 304), (300, 300), (300, 0)] = .ok r' ∧
    |r.left - r'.left| ≤ 5 ∧ |r.bottom - r'.bottom| ≤ 5 ∧ |r.right - r'.right| ≤ 5 ∧ |r.top - r'.top| ≤ 5 := by
  refine C108_bounds 5 _ _ ?_ (by simp) ?_ ?_
  · have z : ∀ p : Pt ℝ, Spec.dist p p ≤ 5 := by intro p; simp [Spec.dist, vlen]
    refine .cons (z _) (.cons ?_ (.cons (z _) (.cons (z _) .nil)))
    unfold Spec.dist vlen
    rw [Real.sqrt_le_left (by norm_num)]
    norm_num
  · intro p hp
    simp only [List.mem_cons, List.not_mem_nil, or_false] at hp
    rcases hp with rfl | rfl | rfl | rfl <;> norm_num [InDesignSpace]
  · intro p hp
    simp only [List.mem_cons, List.not_mem_nil, or_false] at hp
    rcases hp with rfl | rfl | rfl | rfl <;> norm_num [InDesignSpace]

end PathLib
