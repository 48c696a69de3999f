import Verif.Lemmas.Bezier
import Verif.Lemmas.Bounds
import Mathlib.Analysis.Convex.Combination

/-!
# Property theorems about evaluation and subdivision of Bézier curves (C07, C30-C35)

`Spec.curve ps t` is the Bernstein sum over the control points, defined in `Verif/Spec/Bernstein.lean` without
reference to the model.
-/

set_option linter.unusedSectionVars false
set_option linter.unusedSimpArgs false

namespace PathLib
open Spec Bezier

section field
variable {K : Type} [Field K] [LinearOrder K]

/-! ## C30 -/

/-- C30: for every order (one or more control points) and every `t`, `get(t)` is the Bernstein sum. -/
theorem C30_get (ps : Segment K) (h : ps ≠ []) (t : K) : Bezier.get ps t = .ok (curve ps t) :=
  get_ok ps h t

/-- C30: `get(0)` and `get(1)` are the first and last control points themselves. -/
theorem C30_ends (ps : Segment K) (h : ps ≠ []) :
    Bezier.get ps 0 = .ok (ps.head h) ∧ Bezier.get ps 1 = .ok (ps.getLast h) := by
  rw [get_ok ps h, get_ok ps h, curve_zero ps h, curve_at_one ps h]
  exact ⟨rfl, rfl⟩

/-- C30: an empty control polygon raises `IndexError`. -/
theorem C30_empty (t : K) : Bezier.get ([] : Segment K) t = .error .indexError := get_nil t

example : Bezier.get [((0:ℚ), 0), (1, 2), (3, 3), (4, 0), (6, -1), (7, 7)] (1/2) =
    .ok (7/2, 21/16) := by
  rw [C30_get _ (by simp)]
  decide +kernel

/-! ## C07 -/

/-- C07: transforming the control points and evaluating is the same as evaluating and transforming, for every affine
matrix, every order and every `t`. -/
theorem C07_affine_invariance (T : Transform K) (hT : IsAffine T.transform) (ps : Segment K)
    (h : ps ≠ []) (t : K) :
    ∃ qs p q, T.applyToSegment ps = .ok qs ∧ Bezier.get ps t = .ok p ∧
      Bezier.get qs t = .ok q ∧ T.applyToPoint p = .ok q := by
  obtain ⟨M⟩ := T
  obtain ⟨a, b, c, d, m, n, rfl⟩ := hT
  have hp : ∀ p, Transform.applyToPoint ⟨affineMat a b c d m n⟩ p
      = .ok (affineMap a b c d m n p) := fun p => Transform.applyToPoint_affine a b c d m n p
  refine ⟨ps.map (affineMap a b c d m n), curve ps t, affineMap a b c d m n (curve ps t), ?_,
    get_ok ps h t, ?_, hp _⟩
  · exact mapM_ok _ _ _ fun p _ => hp p
  · rw [get_ok _ (by simpa using h), curve_affine _ _ _ _ _ _ _ h]

example : IsAffine (affineMat (2:ℚ) 0 1 3 5 7) := ⟨_, _, _, _, _, _, rfl⟩

/-! ## C31 -/

/-- The other form of de Casteljau's step: the curve with control points `p0 … pn+1` is the interpolation between the
curves of `p0 … pn` and `p1 … pn+1`. -/
private theorem bernSum_lerp (n : ℕ) (c : ℕ → K) (t : K) :
    bernSum (n + 1) c t =
      bernSum n c t + t * (bernSum n (fun i => c (i + 1)) t - bernSum n c t) := by
  rw [bernSum_succ, bernSum_add]
  have : ∀ i, (c (i + 1) - c i) * t = t * (c (i + 1) + (-1) * c i) := fun i => by ring
  simp only [this]
  rw [bernSum_smul, bernSum_add, bernSum_smul]
  ring

/-- The `k`-th level of de Casteljau's pyramid at `t`: its `i`-th point is the point at `t` of the curve with control
points `p_i … p_{i+k}`. -/
def Spec.level (ps : Segment K) (t : K) (k : ℕ) : Segment K :=
  (List.range (ps.length - k)).map fun i => curve ((ps.drop i).take (k + 1)) t

private theorem bernList_slice (l : List K) (i k : ℕ) (h : i + k < l.length) (t : K) :
    bernList ((l.drop i).take (k + 1)) t = bernSum k (fun j => l.getD (i + j) 0) t := by
  unfold bernList
  have e : ((l.drop i).take (k + 1)).length - 1 = k := by simp; omega
  rw [e]
  apply bernSum_congr
  intro j hj
  simp only [List.getD_eq_getElem?_getD, List.getElem?_take, List.getElem?_drop]
  rw [if_pos (by omega)]

private theorem curve_slice (ps : Segment K) (i k : ℕ) (h : i + k < ps.length) (t : K) :
    curve ((ps.drop i).take (k + 1)) t =
      (bernSum k (fun j => (ps.map Prod.fst).getD (i + j) 0) t,
       bernSum k (fun j => (ps.map Prod.snd).getD (i + j) 0) t) := by
  unfold curve
  rw [List.map_take, List.map_drop, bernList_slice _ _ _ (by simpa using h), List.map_take,
    List.map_drop, bernList_slice _ _ _ (by simpa using h)]

private theorem hullStep_level (ps : Segment K) (t : K) (k : ℕ) :
    hullStep t (level ps t k) = level ps t (k + 1) := by
  unfold hullStep level
  apply List.ext_getElem
  · simp; omega
  · intro i h1 h2
    simp at h1 h2
    simp only [List.getElem_zipWith, List.getElem_tail, List.getElem_map, List.getElem_range]
    rw [curve_slice _ _ _ (by omega), curve_slice _ _ _ (by omega), curve_slice _ _ _ (by omega)]
    unfold butils.lerp
    simp only
    rw [bernSum_lerp, bernSum_lerp]
    simp only [show ∀ j, i + 1 + j = i + (j + 1) from fun j => by omega]

private theorem level_zero (ps : Segment K) (t : K) : level ps t 0 = ps := by
  unfold level
  apply List.ext_getElem
  · simp
  · intro i h1 h2
    simp only [List.getElem_map, List.getElem_range]
    rw [show (ps.drop i).take (0 + 1) = [ps[i]] by
      rw [zero_add, List.drop_eq_getElem_cons h2]; rfl, curve_one]

private theorem hullLoop_level (ps : Segment K) (t : K) (m k : ℕ) (h : k + m + 1 = ps.length) :
    hullLoop t (level ps t k) = (List.range m).flatMap fun j => level ps t (k + 1 + j) := by
  induction m generalizing k with
  | zero =>
    rw [hullLoop, if_neg (by simp [level]; omega)]
    rfl
  | succ m ih =>
    rw [hullLoop, if_pos (by simp [level]; omega), hullStep_level, ih (k + 1) (by omega),
      List.range_succ_eq_map, List.flatMap_cons, List.flatMap_map]
    simp only [Nat.succ_eq_add_one, add_zero, show ∀ j, k + 1 + 1 + j = k + 1 + (j + 1) from fun j => by omega]

/-- C31: `hull(t)` is de Casteljau's pyramid, level by level, the control points first. -/
theorem C31_pyramid (ps : Segment K) (t : K) :
    hull ps t = (List.range ps.length).flatMap (level ps t) := by
  unfold hull
  rcases Nat.eq_zero_or_pos ps.length with h | h
  · have : ps = [] := List.length_eq_zero_iff.mp h
    subst this
    rw [hullLoop]; simp
  · obtain ⟨m, hm⟩ : ∃ m, ps.length = m + 1 := ⟨ps.length - 1, by omega⟩
    rw [hm, List.range_succ_eq_map, List.flatMap_cons, List.flatMap_map, level_zero]
    congr 1
    have := hullLoop_level ps t m 0 (by omega)
    rw [level_zero] at this
    rw [this]
    simp [Nat.add_comm]

/-- C31: it starts with the control points. -/
theorem C31_prefix (ps : Segment K) (t : K) : ps <+: hull ps t := ⟨_, rfl⟩

/-- C31: `n` control points give `n (n + 1) / 2` points. -/
theorem C31_length (ps : Segment K) (t : K) :
    2 * (hull ps t).length = ps.length * (ps.length + 1) := by
  rw [C31_pyramid, List.length_flatMap]
  have : ∀ n m, n ≤ m → 2 * ((List.range n).map fun k => (level ps t k).length).sum
      + 0 = 2 * ((List.range n).map fun k => ps.length - k).sum := by
    intro n m _; simp [level]
  rw [← add_zero (2 * _), this _ _ le_rfl]
  have key : ∀ n m, n ≤ m → 2 * ((List.range n).map fun k => m - k).sum + n * (n - 1)
      = 2 * (n * m) := by
    intro n
    induction n with
    | zero => intros; simp
    | succ n ih =>
      intro m hm
      have := ih m (by omega)
      rw [List.range_succ, List.map_append, List.sum_append]
      simp only [List.map_cons, List.map_nil, List.sum_cons, List.sum_nil]
      obtain ⟨d, rfl⟩ : ∃ d, m = n + d := ⟨m - n, by omega⟩
      rcases n with _ | n
      · simp at this ⊢
      · have e1 : n + 1 - 1 = n := by omega
        have e2 : n + 1 + 1 - 1 = n + 1 := by omega
        have e3 : n + 1 + d - (n + 1) = d := by omega
        rw [e1] at this
        rw [e2, e3]
        nlinarith
  have := key ps.length ps.length le_rfl
  rcases h : ps.length with _ | n
  · simp
  · rw [h] at this
    have e1 : n + 1 - 1 = n := by omega
    rw [e1] at this
    nlinarith

/-- C31: the last point is the curve point. -/
theorem C31_last (ps : Segment K) (h : ps ≠ []) (t : K) :
    pyGet (hull ps t) (-1) = Bezier.get ps t := by
  have hl : 0 < ps.length := List.length_pos_iff.mpr h
  rw [get_ok ps h]
  obtain ⟨m, hm⟩ : ∃ m, ps.length = m + 1 := ⟨ps.length - 1, by omega⟩
  have e : level ps t m = [curve ps t] := by
    unfold level
    rw [hm, show m + 1 - m = 1 by omega]
    simp [← hm]
  have e2 : hull ps t = (List.range m).flatMap (level ps t) ++ [curve ps t] := by
    rw [C31_pyramid, hm, List.range_succ, List.flatMap_append]
    simp [e]
  rw [pyGet_neg_one _ (by rw [e2]; simp)]
  simp [e2]

example : hull [((0:ℚ), 0), (2, 4), (4, 0), (8, 0)] (1/2) =
    [(0, 0), (2, 4), (4, 0), (8, 0), (1, 2), (3, 2), (6, 0), (2, 2), (9/2, 1), (13/4, 3/2)] := by
  rw [C31_pyramid]
  decide +kernel

/-! ## C35 -/

variable [IsStrictOrderedRing K]

/-- C35: the curve stays in the bounding rectangle of its control points, for every order. -/
theorem C35_in_bounds (ps : Segment K) (h : ps ≠ []) (t : K) (h0 : 0 ≤ t) (h1 : t ≤ 1) :
    ∃ p, Bezier.get ps t = .ok p ∧ (BoundsRectangle.new ps).enclosesPoint p = true := by
  refine ⟨_, get_ok ps h t, ?_⟩
  rw [BoundsRectangle.enclosesPoint_iff]
  have hx : ps.map Prod.fst ≠ [] := by simpa using h
  have hy : ps.map Prod.snd ≠ [] := by simpa using h
  refine ⟨⟨?_, ?_⟩, ⟨?_, ?_⟩⟩
  · refine le_bernList hx ?_ h0 h1
    intro x hx; obtain ⟨p, hp, rfl⟩ := List.mem_map.mp hx
    exact BoundsRectangle.left_le_of_mem hp
  · refine bernList_le hx ?_ h0 h1
    intro x hx; obtain ⟨p, hp, rfl⟩ := List.mem_map.mp hx
    exact BoundsRectangle.le_right_of_mem hp
  · refine le_bernList hy ?_ h0 h1
    intro x hx; obtain ⟨p, hp, rfl⟩ := List.mem_map.mp hx
    exact BoundsRectangle.bottom_le_of_mem hp
  · refine bernList_le hy ?_ h0 h1
    intro x hx; obtain ⟨p, hp, rfl⟩ := List.mem_map.mp hx
    exact BoundsRectangle.le_top_of_mem hp

/-- C35: `skeletonBounds` encloses the curve. -/
theorem C35_skeletonBounds (ps : Segment K) (h : ps ≠ []) (t : K) (h0 : 0 ≤ t) (h1 : t ≤ 1) :
    ∃ p, Bezier.get ps t = .ok p ∧ (skeletonBounds ps).enclosesPoint p = true := by
  obtain ⟨p, hp, he⟩ := C35_in_bounds ps h t h0 h1
  refine ⟨p, hp, ?_⟩
  have := BoundsRectangle.enclosesPoint_union_right (a := BoundsRectangle.new []) he
  rw [BoundsRectangle.enclosesPoint_iff] at this ⊢
  obtain ⟨⟨a, b⟩, c⟩ := this
  refine ⟨⟨a, ?_⟩, c⟩
  change p.1 ≤ _ + 40
  exact b.trans (by simp [BoundsRectangle.fromContour])

/-- C35: a box containing the control points contains the curve. -/
theorem C35_box (ps : Segment K) (h : ps ≠ []) (l b r u : K)
    (hb : ∀ p ∈ ps, InBox l b r u p) (t : K) (h0 : 0 ≤ t) (h1 : t ≤ 1) :
    ∃ p, Bezier.get ps t = .ok p ∧ InBox l b r u p := by
  refine ⟨_, get_ok ps h t, ?_⟩
  have hx : ps.map Prod.fst ≠ [] := by simpa using h
  have hy : ps.map Prod.snd ≠ [] := by simpa using h
  refine ⟨⟨le_bernList hx ?_ h0 h1, bernList_le hx ?_ h0 h1⟩,
    ⟨le_bernList hy ?_ h0 h1, bernList_le hy ?_ h0 h1⟩⟩ <;>
  · intro x hx; obtain ⟨p, hp, rfl⟩ := List.mem_map.mp hx
    obtain ⟨⟨a, b⟩, c, d⟩ := hb p hp
    assumption

end field

/-- C35: the curve stays in the convex hull of its control points. -/
theorem C35_convex_hull (ps : Segment ℝ) (h : ps ≠ []) (t : ℝ) (h0 : 0 ≤ t) (h1 : t ≤ 1) :
    ∃ p, Bezier.get ps t = .ok p ∧ p ∈ convexHull ℝ {q : ℝ × ℝ | q ∈ ps} := by
  refine ⟨_, get_ok ps h t, ?_⟩
  have hl : 0 < ps.length := List.length_pos_iff.mpr h
  have e : curve ps t = ∑ i ∈ Finset.range (ps.length - 1 + 1),
      bern (ps.length - 1) i t • ps.getD i (0, 0) := by
    unfold curve bernList bernSum
    simp only [List.length_map]
    ext
    · simp only [Prod.fst_sum, Prod.smul_fst, smul_eq_mul]
      apply Finset.sum_congr rfl
      intro i hi
      have hi2 : i < ps.length := by simp at hi; omega
      simp [List.getD_eq_getElem?_getD, List.getElem?_eq_getElem hi2]
    · simp only [Prod.snd_sum, Prod.smul_snd, smul_eq_mul]
      apply Finset.sum_congr rfl
      intro i hi
      have hi2 : i < ps.length := by simp at hi; omega
      simp [List.getD_eq_getElem?_getD, List.getElem?_eq_getElem hi2]
  rw [e]
  apply (convex_convexHull ℝ _).sum_mem
  · intro i _; exact bern_nonneg _ _ h0 h1
  · have := bernSum_const (ps.length - 1) (1 : ℝ) t
    unfold bernSum at this
    simpa using this
  · intro i hi
    have hi2 : i < ps.length := by simp at hi; omega
    apply subset_convexHull
    simp [List.getD_eq_getElem?_getD, List.getElem?_eq_getElem hi2]

/-! ## C32 -/

/-- The order of the curve is 2 or 3. -/
def Spec.QuadOrCubic (b : Bezier) : Prop :=
  b.controlPoints.length = 3 ∨ b.controlPoints.length = 4

/-- C32: `split(t)` returns the two parts of the curve (and the hull), with the same order; they share the point
`get(t)`. -/
theorem C32_split (b : Bezier) (hb : QuadOrCubic b) (t : ℝ) :
    ∃ l r, split b t none = .ok (.parts l r (hull b.controlPoints t)) ∧
      l.controlPoints.length = b.controlPoints.length ∧
      r.controlPoints.length = b.controlPoints.length ∧
      (∀ s, Bezier.get l.controlPoints s = Bezier.get b.controlPoints (t * s)) ∧
      (∀ s, Bezier.get r.controlPoints s = Bezier.get b.controlPoints (t + s * (1 - t))) ∧
      Bezier.get l.controlPoints 1 = Bezier.get b.controlPoints t ∧
      Bezier.get r.controlPoints 0 = Bezier.get b.controlPoints t := by
  obtain ⟨l, r, h, hl, hr, _, _, _, _, h1, h2⟩ := split1_spec b hb t
  have n0 : b.controlPoints ≠ [] := by
    intro e; rw [Spec.QuadOrCubic, e] at hb; simp at hb
  have n1 : l.controlPoints ≠ [] := by
    intro e; rw [e] at hl; exact n0 (List.length_eq_zero_iff.mp hl.symm)
  have n2 : r.controlPoints ≠ [] := by
    intro e; rw [e] at hr; exact n0 (List.length_eq_zero_iff.mp hr.symm)
  have g1 : ∀ s, Bezier.get l.controlPoints s = Bezier.get b.controlPoints (t * s) := by
    intro s; rw [get_ok _ n1, get_ok _ n0, h1]
  have g2 : ∀ s, Bezier.get r.controlPoints s = Bezier.get b.controlPoints (t + s * (1 - t)) := by
    intro s; rw [get_ok _ n2, get_ok _ n0, h2]
  refine ⟨l, r, ?_, hl, hr, g1, g2, ?_, ?_⟩
  · unfold split; simp only [h, ok_bind, pure_eq_ok]
  · rw [g1, mul_one]
  · rw [g2, zero_mul, add_zero]

/-- C32: splitting a line raises `IndexError`. -/
theorem C32_line (b : Bezier) (hb : b.controlPoints.length = 2) (t : ℝ) :
    split b t none = .error .indexError := by
  obtain ⟨ps, t1, t2, d, l, c⟩ := b
  match ps, hb with
  | [p, q], _ =>
    have e : hull [p, q] t = [p, q, butils.lerp t p q] := by
      unfold hull
      rw [hullLoop, hullLoop]
      simp [hullStep]
    have e2 : ¬ order [p, q] = 2 := by simp [order]
    unfold split split1
    simp only [e, if_neg e2]
    simp [pyGet]

example : QuadOrCubic ⟨[(0, 0), (1, 2), (3, 3), (4, 0)], 0, 1, .up, false, false⟩ := .inr rfl

/-! ## C33 -/

theorem ne_nil_of_quadOrCubic {b : Bezier} (hb : QuadOrCubic b) : b.controlPoints ≠ [] := by
  intro e; rw [Spec.QuadOrCubic, e] at hb; simp at hb

theorem split_cases (b : Bezier) (hb : QuadOrCubic b) (t1 t2 : ℝ) (h2 : t2 ≠ 0)
    (h1 : t1 ≠ 1 ∨ t2 = 1) :
    ∃ p, split b t1 (some t2) = .ok (.piece p) ∧ QuadOrCubic p ∧
      p.controlPoints.length = b.controlPoints.length ∧
      p.t1 = b.t1 + (b.t2 - b.t1) * t1 ∧ p.t2 = b.t1 + (b.t2 - b.t1) * t2 ∧
      (∀ s, curve p.controlPoints s = curve b.controlPoints (t1 + s * (t2 - t1))) := by
  unfold split
  simp only
  by_cases c1 : t1 = 0 ∧ t2 ≠ 0
  · obtain ⟨l, r, h, hl, hr, a1, a2, a3, a4, e1, e2⟩ := split1_spec b hb t2
    rw [if_pos c1, h]
    refine ⟨l, rfl, ?_, hl, ?_, a2, ?_⟩
    · unfold Spec.QuadOrCubic; rw [hl]; exact hb
    · rw [a1, c1.1]; ring
    · intro s; rw [e1, c1.1]; congr 1; ring
  · rw [if_neg c1]
    by_cases c2 : t2 = 1
    · obtain ⟨l, r, h, hl, hr, a1, a2, a3, a4, e1, e2⟩ := split1_spec b hb t1
      rw [if_pos c2, h]
      refine ⟨r, rfl, ?_, hr, a3, ?_, ?_⟩
      · unfold Spec.QuadOrCubic; rw [hr]; exact hb
      · rw [a4, c2]; ring
      · intro s; rw [e2, c2]
    · obtain ⟨l, r, h, hl, hr, a1, a2, a3, a4, e1, e2⟩ := split1_spec b hb t1
      rw [if_neg c2, h]
      have h1' : t1 ≠ 1 := by rcases h1 with h | h; exact h; exact absurd h c2
      have hd : (1 - t1) ≠ 0 := sub_ne_zero.mpr (Ne.symm h1')
      have hm : butils.map t2 t1 1 0 1 = .ok ((t2 - t1) / (1 - t1)) := by
        unfold butils.map; simp [pdiv_of_ne _ hd]
      simp only [ok_bind, if_neg h2, hm]
      have hr' : QuadOrCubic r := by unfold Spec.QuadOrCubic; rw [hr]; exact hb
      obtain ⟨l', r', h', hl', hr2, b1, b2, b3, b4, f1, f2⟩ :=
        split1_spec r hr' ((t2 - t1) / (1 - t1))
      rw [h']
      refine ⟨l', rfl, ?_, by rw [hl', hr], ?_, ?_, ?_⟩
      · unfold Spec.QuadOrCubic; rw [hl']; exact hr'
      · rw [b1, a3]
      · rw [b2, a3, a4]; field_simp; ring
      · intro s
        rw [f1, e2]
        congr 1
        field_simp

/-- C33: `split(t1, t2)` is the subcurve between the two parameters. -/
theorem C33_split (b : Bezier) (hb : QuadOrCubic b) (t1 t2 : ℝ) (h2 : t2 ≠ 0)
    (h1 : t1 ≠ 1 ∨ t2 = 1) :
    ∃ p, split b t1 (some t2) = .ok (.piece p) ∧
      p.controlPoints.length = b.controlPoints.length ∧
      ∀ s, Bezier.get p.controlPoints s = Bezier.get b.controlPoints (t1 + s * (t2 - t1)) := by
  obtain ⟨p, h, hq, hl, _, _, e⟩ := split_cases b hb t1 t2 h2 h1
  refine ⟨p, h, hl, ?_⟩
  intro s
  rw [get_ok _ (ne_nil_of_quadOrCubic hq), get_ok _ (ne_nil_of_quadOrCubic hb), e]

/-- C33: from parameter 1 to anything but 0 and 1: `ZeroDivisionError`. -/
theorem C33_from_end (b : Bezier) (hb : QuadOrCubic b) (t2 : ℝ) (h0 : t2 ≠ 0) (h1 : t2 ≠ 1) :
    split b 1 (some t2) = .error .zeroDivisionError := by
  obtain ⟨l, r, h, _⟩ := split1_spec b hb 1
  unfold split
  simp only [one_ne_zero, false_and, if_false, if_neg h1, h, ok_bind, if_neg h0]
  simp [butils.map]

/-- C33: `t2 = 0` is treated like a missing `t2`. -/
theorem C33_zero_is_missing (b : Bezier) (t1 : ℝ) : split b t1 (some 0) = split b t1 none := by
  unfold split
  simp

example : QuadOrCubic ⟨[(0, 0), (1, 2), (3, 3)], 0, 1, .up, false, false⟩ ∧ (1/4 : ℝ) ≠ 1 ∧ (3/4:ℝ) ≠ 0 :=
  ⟨.inl rfl, by norm_num, by norm_num⟩

/-! ## C34 -/

/-- The curves obtained from the control points `ps` by constructing a curve and then splitting any number of times,
with one or two parameters. -/
inductive Spec.SplitHistory (ps : Segment ℝ) : Bezier → Prop
  | fresh {b : Bezier} : Bezier.new ps = .ok b → SplitHistory ps b
  | left {b l r : Bezier} {q : Segment ℝ} (t : ℝ) (t2 : Option ℝ) : SplitHistory ps b →
      split b t t2 = .ok (.parts l r q) → SplitHistory ps l
  | right {b l r : Bezier} {q : Segment ℝ} (t : ℝ) (t2 : Option ℝ) : SplitHistory ps b →
      split b t t2 = .ok (.parts l r q) → SplitHistory ps r
  | piece {b p : Bezier} (t1 : ℝ) (t2 : Option ℝ) : SplitHistory ps b →
      split b t1 t2 = .ok (.piece p) → SplitHistory ps p

private theorem split_parts (b l r : Bezier) (q : Segment ℝ) (t : ℝ) (t2 : Option ℝ)
    (h : split b t t2 = .ok (.parts l r q)) : split1 b t = .ok (l, r, q) := by
  have key : ∀ x : Py (Bezier × Bezier × Segment ℝ),
      (x >>= fun y => (Except.ok (SplitResult.parts y.1 y.2.1 y.2.2) : Py SplitResult)) =
        .ok (.parts l r q) → x = .ok (l, r, q) := by
    intro x hx
    obtain ⟨⟨l', r', q'⟩, h1, h2⟩ := bind_eq_ok.mp hx
    cases h2; exact h1
  unfold split at h
  match t2 with
  | none => exact key _ h
  | some t2 =>
    simp only at h
    by_cases c1 : t = 0 ∧ t2 ≠ 0
    · rw [if_pos c1] at h
      obtain ⟨a, h1, h2⟩ := bind_eq_ok.mp h
      cases h2
    rw [if_neg c1] at h
    by_cases c2 : t2 = 1
    · rw [if_pos c2] at h
      obtain ⟨a, h1, h2⟩ := bind_eq_ok.mp h
      cases h2
    rw [if_neg c2] at h
    by_cases c3 : t2 = 0
    · simp only [if_pos c3] at h
      exact key _ h
    · simp only [if_neg c3] at h
      obtain ⟨a, h1, h2⟩ := bind_eq_ok.mp h
      obtain ⟨a, _, h2⟩ := bind_eq_ok.mp h2
      obtain ⟨a, _, h2⟩ := bind_eq_ok.mp h2
      cases h2

private theorem split_piece_inv (b p : Bezier) (hb : QuadOrCubic b) (t1 : ℝ) (t2 : Option ℝ)
    (h : split b t1 t2 = .ok (.piece p)) : ∃ t, t2 = some t ∧ t ≠ 0 ∧ (t1 ≠ 1 ∨ t = 1) := by
  match t2 with
  | none =>
    unfold split at h
    simp only at h
    obtain ⟨a, h1, h2⟩ := bind_eq_ok.mp h
    cases h2
  | some t2 =>
    by_cases h0 : t2 = 0
    · subst h0
      rw [C33_zero_is_missing] at h
      unfold split at h
      simp only at h
      obtain ⟨a, h1, h2⟩ := bind_eq_ok.mp h
      cases h2
    · refine ⟨t2, rfl, h0, ?_⟩
      by_contra hc
      push Not at hc
      obtain ⟨rfl, h1⟩ := hc
      rw [C33_from_end b hb t2 h0 h1] at h
      cases h

/-- C34: after any history of splits of a curve with 3 or 4 control points, every piece is the part of the original
curve between its recorded parameters. -/
theorem C34_history (ps : Segment ℝ) (hn : ps.length = 3 ∨ ps.length = 4) (b : Bezier)
    (h : SplitHistory ps b) :
    b.controlPoints.length = ps.length ∧
    ∀ s, Bezier.get b.controlPoints s = Bezier.get ps (b.t1 + s * (b.t2 - b.t1)) := by
  have n0 : ps ≠ [] := by intro e; rw [e] at hn; simp at hn
  suffices hs : b.controlPoints.length = ps.length ∧
      ∀ s, curve b.controlPoints s = curve ps (b.t1 + s * (b.t2 - b.t1)) by
    refine ⟨hs.1, fun s => ?_⟩
    rw [get_ok, get_ok ps n0, hs.2]
    intro e; rw [e] at hs; exact n0 (List.length_eq_zero_iff.mp hs.1.symm)
  have qc : ∀ {b : Bezier}, b.controlPoints.length = ps.length → QuadOrCubic b := by
    intro b hb; unfold Spec.QuadOrCubic; rw [hb]; exact hn
  induction h with
  | fresh h =>
    obtain ⟨h1, h2, h3⟩ := new_controlPoints h
    refine ⟨by rw [h1], fun s => ?_⟩
    rw [h1, h2, h3]; simp
  | @left b0 l r q t t2 _ h ih =>
    obtain ⟨l', r', h', hl, hr, a1, a2, a3, a4, e1, e2⟩ := split1_spec b0 (qc ih.1) t
    rw [split_parts _ _ _ _ _ _ h] at h'
    simp only [Except.ok.injEq, Prod.mk.injEq] at h'
    obtain ⟨rfl, rfl, _⟩ := h'
    refine ⟨by rw [hl, ih.1], fun s => ?_⟩
    rw [e1, ih.2, a1, a2]; congr 1; ring
  | @right b0 l r q t t2 _ h ih =>
    obtain ⟨l', r', h', hl, hr, a1, a2, a3, a4, e1, e2⟩ := split1_spec b0 (qc ih.1) t
    rw [split_parts _ _ _ _ _ _ h] at h'
    simp only [Except.ok.injEq, Prod.mk.injEq] at h'
    obtain ⟨rfl, rfl, _⟩ := h'
    refine ⟨by rw [hr, ih.1], fun s => ?_⟩
    rw [e2, ih.2, a3, a4]; congr 1; ring
  | @piece b0 p t1 t2 _ h ih =>
    obtain ⟨u, rfl, hu, hu1⟩ := split_piece_inv _ _ (qc ih.1) _ _ h
    obtain ⟨p', h', _, hl, a1, a2, e⟩ := split_cases b0 (qc ih.1) t1 u hu hu1
    rw [h] at h'
    simp only [Except.ok.injEq, SplitResult.piece.injEq] at h'
    subst h'
    refine ⟨by rw [hl, ih.1], fun s => ?_⟩
    rw [e, ih.2, a1, a2]; congr 1; ring

/-- Every history can be continued: splitting a curve reached from 3 or 4 control points never fails without a second parameter. -/
theorem C34_progress (ps : Segment ℝ) (hn : ps.length = 3 ∨ ps.length = 4) :
    (∃ b, SplitHistory ps b) ∧
    ∀ b, SplitHistory ps b → ∀ t, ∃ l r q, split b t none = .ok (.parts l r q) ∧
      SplitHistory ps l ∧ SplitHistory ps r := by
  refine ⟨?_, ?_⟩
  · obtain ⟨b, h, _⟩ := new_ok ps (by omega)
    exact ⟨b, .fresh h⟩
  · intro b h t
    have hb : QuadOrCubic b := by
      unfold Spec.QuadOrCubic; rw [(C34_history ps hn b h).1]; exact hn
    obtain ⟨l, r, hs, _⟩ := C32_split b hb t
    exact ⟨l, r, _, hs, .left t none h hs, .right t none h hs⟩

end PathLib
