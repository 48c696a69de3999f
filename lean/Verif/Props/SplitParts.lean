import Verif.Props.Reversed
import Verif.Props.BezierRoots
import Verif.Props.BezierQuadrature

/-!
# What is computed from a part of a curve agrees with what is computed from the whole: C119
-/

set_option linter.unusedSectionVars false
set_option linter.unusedSimpArgs false

namespace PathLib
open Spec Bezier

/-- The control points `qs` describe the part of the curve `ps` from the parameter `u` to the parameter `v`, in the same order. -/
def Spec.IsPart (ps qs : Segment ℝ) (u v : ℝ) : Prop :=
  qs.length = ps.length ∧ ∀ s, Bezier.get qs s = Bezier.get ps (u + s * (v - u))

/-- C119: `split(t)` returns the part from 0 to `t` and the part from `t` to 1; `split(t1, t2)` returns the part from `t1` to `t2`. -/
theorem C119_split (b : Bezier) (hb : QuadOrCubic b) :
    (∀ t, ∃ l r q, split b t none = .ok (.parts l r q) ∧
      IsPart b.controlPoints l.controlPoints 0 t ∧ IsPart b.controlPoints r.controlPoints t 1) ∧
    (∀ t1 t2, 0 < t2 → t1 < 1 → ∃ p, split b t1 (some t2) = .ok (.piece p) ∧ IsPart b.controlPoints p.controlPoints t1 t2) := by
  constructor
  · intro t
    obtain ⟨l, r, e, hl, hr, h1, h2, _⟩ := C32_split b hb t
    exact ⟨l, r, _, e, ⟨hl, fun s => by rw [h1]; congr 1; ring⟩, hr, h2⟩
  · intro t1 t2 h2 h1
    obtain ⟨p, e, hl, h⟩ := C33_split b hb t1 t2 h2.ne' (.inl h1.ne)
    exact ⟨p, e, hl, h⟩

namespace Part

variable {ps qs : Segment ℝ} {u v : ℝ}

theorem curve_eq (hp : ps ≠ []) (h : IsPart ps qs u v) (s : ℝ) : curve qs s = curve ps (u + s * (v - u)) := by
  have hq : qs ≠ [] := by
    rintro rfl; exact hp (List.length_eq_zero_iff.mp h.1.symm)
  have := h.2 s
  rw [get_ok _ hq, get_ok _ hp] at this
  exact Except.ok.inj this

theorem deriv_scaled (f g : ℝ → ℝ) (h : ∀ s, g s = f (u + s * (v - u))) : deriv g = fun s => (v - u) * deriv f (u + s * (v - u)) := by
  have e : g = fun s => (fun x => f (u + x)) ((v - u) * s) := funext fun s => by rw [h]; congr 2; ring
  rw [e]
  funext s
  rw [deriv_comp_mul_left (v - u) (fun x => f (u + x)) s, deriv_comp_const_add, smul_eq_mul]
  congr 3; ring

theorem isolated (k : ℝ) (hk : k ≠ 0) (huv : u ≠ v) (f g : ℝ → ℝ) (h : ∀ s, g s = k * f (u + s * (v - u))) (t : ℝ) :
    IsolatedZero g t ↔ IsolatedZero f (u + t * (v - u)) := by
  unfold IsolatedZero
  have d : v - u ≠ 0 := sub_ne_zero.mpr huv.symm
  refine and_congr ⟨?_, ?_⟩ ?_
  · rintro ⟨s, hs⟩; exact ⟨_, by rw [h] at hs; exact right_ne_zero_of_mul hs⟩
  · rintro ⟨s, hs⟩
    refine ⟨(s - u) / (v - u), ?_⟩
    rw [h, div_mul_cancel₀ _ d]
    exact mul_ne_zero hk (by simpa using hs)
  · rw [h]; simp [hk]

theorem isolated_first (huv : u ≠ v) (f g : ℝ → ℝ) (h : ∀ s, g s = f (u + s * (v - u))) (t : ℝ) :
    IsolatedZero (deriv g) t ↔ IsolatedZero (deriv f) (u + t * (v - u)) :=
  isolated (v - u) (sub_ne_zero.mpr huv.symm) huv _ _ (fun s => by rw [deriv_scaled f g h]) t

theorem isolated_second (huv : u ≠ v) (f g : ℝ → ℝ) (h : ∀ s, g s = f (u + s * (v - u))) (t : ℝ) :
    IsolatedZero (deriv (deriv g)) t ↔ IsolatedZero (deriv (deriv f)) (u + t * (v - u)) := by
  have d := sub_ne_zero.mpr huv.symm
  refine isolated ((v - u) * (v - u)) (mul_ne_zero d d) huv _ _ (fun s => ?_) t
  have e : deriv g = (v - u) • fun s => deriv f (u + s * (v - u)) := by rw [deriv_scaled f g h]; rfl
  rw [e, deriv_const_smul_field, deriv_scaled (deriv f) (fun s => deriv f (u + s * (v - u))) fun s => rfl, smul_eq_mul]
  ring

theorem in_unit (hu : 0 ≤ u) (hv : v ≤ 1) (huv : u ≤ v) {t : ℝ} (h0 : 0 ≤ t) (h1 : t ≤ 1) : 0 ≤ u + t * (v - u) ∧ u + t * (v - u) ≤ 1 := by
  constructor <;> nlinarith

end Part

/-- C119: the derivative of a part at `s` is the derivative of the curve at the same point, multiplied by the fraction of the parameter range the
part covers. The tangent and the normal are the same, and raise `ZeroDivisionError` at the same points. -/
theorem C119_derivative (ps qs : Segment ℝ) (hp : ps.length = 3 ∨ ps.length = 4) (u v : ℝ) (huv : u < v) (h : IsPart ps qs u v) (s : ℝ) :
    (∃ d, derivative ps (u + s * (v - u)) = .ok d ∧ derivative qs s = .ok ((v - u) * d.1, (v - u) * d.2)) ∧
    tangent qs s = tangent ps (u + s * (v - u)) ∧ normal qs s = normal ps (u + s * (v - u)) := by
  have hne : ps ≠ [] := by rintro rfl; simp at hp
  have hq : qs.length = 3 ∨ qs.length = 4 := by rw [h.1]; exact hp
  have hk : 0 < v - u := sub_pos.mpr huv
  obtain ⟨d, h1, h2, h3⟩ := C36_derivative ps hp (u + s * (v - u))
  obtain ⟨d', h1', h2', h3'⟩ := C36_derivative qs hq s
  have e1 := congrFun (Part.deriv_scaled (u := u) (v := v) (fun t => (curve ps t).1) (fun t => (curve qs t).1) fun s => by
    rw [Part.curve_eq hne h s]) s
  have e2 := congrFun (Part.deriv_scaled (u := u) (v := v) (fun t => (curve ps t).2) (fun t => (curve qs t).2) fun s => by
    rw [Part.curve_eq hne h s]) s
  rw [h2'.deriv, h2.deriv] at e1
  rw [h3'.deriv, h3.deriv] at e2
  have hd : d' = ((v - u) * d.1, (v - u) * d.2) := Prod.ext e1 e2
  rw [hd] at h1'
  have hs : Real.sqrt ((v - u) * d.1 * ((v - u) * d.1) + (v - u) * d.2 * ((v - u) * d.2)) = (v - u) * Real.sqrt (d.1 * d.1 + d.2 * d.2) := by
    rw [show (v - u) * d.1 * ((v - u) * d.1) + (v - u) * d.2 * ((v - u) * d.2) = (v - u) ^ 2 * (d.1 * d.1 + d.2 * d.2) by ring,
      Real.sqrt_mul (sq_nonneg _), Real.sqrt_sq hk.le]
  refine ⟨⟨d, h1, h1'⟩, ?_, ?_⟩
  · unfold tangent
    rw [h1, h1']
    simp only [ok_bind]
    have e : ∀ x y : ℝ, butils.hypot x y = Real.sqrt (x * x + y * y) := fun x y => rfl
    rw [e, e, hs]
    by_cases h0 : Real.sqrt (d.1 * d.1 + d.2 * d.2) = 0
    · rw [h0, mul_zero]; simp [pdiv]
    · simp only [pdiv_of_ne _ h0, pdiv_of_ne _ (mul_ne_zero hk.ne' h0), mul_div_mul_left _ _ hk.ne']
  · unfold normal
    rw [h1, h1']
    simp only [ok_bind]
    rw [hs]
    by_cases h0 : Real.sqrt (d.1 * d.1 + d.2 * d.2) = 0
    · rw [h0, mul_zero]; simp [pdiv]
    · simp only [pdiv_of_ne _ h0, pdiv_of_ne _ (mul_ne_zero hk.ne' h0), ← mul_neg, mul_div_mul_left _ _ hk.ne']

/-- C119: the extrema of a part are those extrema of the curve which lie in the part. -/
theorem C119_extrema (ps qs : Segment ℝ) (hp : ps.length = 3 ∨ ps.length = 4) (u v : ℝ) (hu : 0 ≤ u) (huv : u < v) (hv : v ≤ 1)
    (h : IsPart ps qs u v) :
    ∃ e e', extrema ps = .ok e ∧ extrema qs = .ok e' ∧ ∀ t,
      (t ∈ e'.x ↔ (0 ≤ t ∧ t ≤ 1) ∧ u + t * (v - u) ∈ e.x) ∧ (t ∈ e'.y ↔ (0 ≤ t ∧ t ≤ 1) ∧ u + t * (v - u) ∈ e.y) ∧
      (t ∈ e'.all ↔ (0 ≤ t ∧ t ≤ 1) ∧ u + t * (v - u) ∈ e.all) := by
  have hne : ps ≠ [] := by rintro rfl; simp at hp
  have cx : ∀ s, (curve qs s).1 = (curve ps (u + s * (v - u))).1 := fun s => by rw [Part.curve_eq hne h s]
  have cy : ∀ s, (curve qs s).2 = (curve ps (u + s * (v - u))).2 := fun s => by rw [Part.curve_eq hne h s]
  have fin : ∀ e e', extrema ps = .ok e → extrema qs = .ok e' →
      (∀ t, (t ∈ e'.x ↔ (0 ≤ t ∧ t ≤ 1) ∧ u + t * (v - u) ∈ e.x) ∧ (t ∈ e'.y ↔ (0 ≤ t ∧ t ≤ 1) ∧ u + t * (v - u) ∈ e.y)) →
      ∀ t, (t ∈ e'.all ↔ (0 ≤ t ∧ t ≤ 1) ∧ u + t * (v - u) ∈ e.all) := by
    intro e e' he he' hm t
    rw [(C39_union ps e he).2, (C39_union qs e' he').2, (hm t).1, (hm t).2]
    tauto
  have unit : ∀ (t : ℝ) (P Q : Prop), (P ↔ Q) → ((0 ≤ t ∧ t ≤ 1) ∧ P ↔ (0 ≤ t ∧ t ≤ 1) ∧ (0 ≤ u + t * (v - u) ∧ u + t * (v - u) ≤ 1) ∧ Q) := by
    intro t P Q hpq
    constructor
    · rintro ⟨a, b⟩; exact ⟨a, Part.in_unit hu hv huv.le a.1 a.2, hpq.mp b⟩
    · rintro ⟨a, _, b⟩; exact ⟨a, hpq.mpr b⟩
  rcases hp with h3 | h4
  · obtain ⟨e, he, me⟩ := C39_quadratic ps h3
    obtain ⟨e', he', me'⟩ := C39_quadratic qs (by rw [h.1, h3])
    have hm : ∀ t, (t ∈ e'.x ↔ (0 ≤ t ∧ t ≤ 1) ∧ u + t * (v - u) ∈ e.x) ∧ (t ∈ e'.y ↔ (0 ≤ t ∧ t ≤ 1) ∧ u + t * (v - u) ∈ e.y) := by
      intro t
      rw [(me' t).1, (me' t).2, (me _).1, (me _).2]
      exact ⟨unit t _ _ (Part.isolated_first huv.ne (fun t => (curve ps t).1) _ cx t), unit t _ _ (Part.isolated_first huv.ne (fun t => (curve ps t).2) _ cy t)⟩
    exact ⟨e, e', he, he', fun t => ⟨(hm t).1, (hm t).2, fin e e' he he' hm t⟩⟩
  · obtain ⟨e, he, me⟩ := C39_cubic ps h4
    obtain ⟨e', he', me'⟩ := C39_cubic qs (by rw [h.1, h4])
    have hm : ∀ t, (t ∈ e'.x ↔ (0 ≤ t ∧ t ≤ 1) ∧ u + t * (v - u) ∈ e.x) ∧ (t ∈ e'.y ↔ (0 ≤ t ∧ t ≤ 1) ∧ u + t * (v - u) ∈ e.y) := by
      intro t
      rw [(me' t).1, (me' t).2, (me _).1, (me _).2]
      exact ⟨unit t _ _ (or_congr (Part.isolated_first huv.ne (fun t => (curve ps t).1) _ cx t) (Part.isolated_second huv.ne (fun t => (curve ps t).1) _ cx t)),
        unit t _ _ (or_congr (Part.isolated_first huv.ne (fun t => (curve ps t).2) _ cy t) (Part.isolated_second huv.ne (fun t => (curve ps t).2) _ cy t))⟩
    exact ⟨e, e', he, he', fun t => ⟨(hm t).1, (hm t).2, fin e e' he he' hm t⟩⟩

/-- C119: the roots of a part of a quadratic, between its ends, are the roots of the curve in the part. -/
theorem C119_roots (ps qs : Segment ℝ) (hp : ps.length = 3) (u v : ℝ) (hu : 0 ≤ u) (huv : u < v) (hv : v ≤ 1) (h : IsPart ps qs u v) :
    ∃ l l', roots ps none = .ok l ∧ roots qs none = .ok l' ∧ ∀ t, 0 ≤ t → t ≤ 1 → (t ∈ l' ↔ u + t * (v - u) ∈ l) := by
  have hne : ps ≠ [] := by rintro rfl; simp at hp
  obtain ⟨l, h1, h2⟩ := C43_quadratic ps hp
  obtain ⟨l', h1', h2'⟩ := C43_quadratic qs (by rw [h.1, hp])
  refine ⟨l, l', h1, h1', fun t h0 ht => ?_⟩
  have near : ∀ t : ℝ, 0 ≤ t → t ≤ 1 → NearUnit t := fun t a b => ⟨by linarith, by linarith⟩
  obtain ⟨a, b⟩ := Part.in_unit hu hv huv.le h0 ht
  rw [h2, h2', and_iff_right (near _ h0 ht), and_iff_right (near _ a b)]
  exact Part.isolated 1 one_ne_zero huv.ne _ _ (fun s => by rw [Part.curve_eq hne h s, one_mul]) t

/-- C119: likewise for the intersections of a quadratic with a line. -/
theorem C119_lineIntersects (ps qs : Segment ℝ) (hp : ps.length = 3) (u v : ℝ) (hu : 0 ≤ u) (huv : u < v) (hv : v ≤ 1) (h : IsPart ps qs u v)
    (p1 p2 : Pt ℝ) :
    ∃ l l', lineIntersects ps p1 p2 = .ok l ∧ lineIntersects qs p1 p2 = .ok l' ∧ ∀ t, 0 ≤ t → t ≤ 1 → (t ∈ l' ↔ u + t * (v - u) ∈ l) := by
  have hne : ps ≠ [] := by rintro rfl; simp at hp
  have hq : qs.length = 3 := by rw [h.1, hp]
  have hqe : qs ≠ [] := by rintro rfl; simp at hq
  obtain ⟨angle, ha⟩ := rawSlopeAngle_ok [p1, p2] (by simp)
  have al := fun points => alignPoints_ok points [p1, p2] p1 angle rfl ha
  have hal : IsPart (ps.map (alignMap p1 angle)) (qs.map (alignMap p1 angle)) u v := by
    refine ⟨by simp [h.1], fun s => ?_⟩
    rw [get_ok _ (by simpa using hqe), get_ok _ (by simpa using hne)]
    have e : ∃ a b c d m n, alignMap p1 angle = affineMap a b c d m n := by
      refine ⟨Transform.cos (-angle), Transform.sin (-angle), -Transform.sin (-angle), Transform.cos (-angle),
        -(Transform.cos (-angle) * p1.1) + Transform.sin (-angle) * p1.2, -(Transform.sin (-angle) * p1.1) - Transform.cos (-angle) * p1.2, ?_⟩
      funext p
      simp only [alignMap, affineMap, Prod.mk.injEq]
      constructor <;> ring
    obtain ⟨a, b, c, d, m, n, e⟩ := e
    rw [e, curve_affine _ _ _ _ _ _ _ hqe, curve_affine _ _ _ _ _ _ _ hne, Part.curve_eq hne h s]
  obtain ⟨l, l', h1, h1', h2⟩ := C119_roots _ _ (by simpa using hp) u v hu huv hv hal
  rw [← C66_roots_aligned ps _ [p1, p2] (by simp) (al ps)] at h1
  rw [← C66_roots_aligned qs _ [p1, p2] (by simp) (al qs)] at h1'
  obtain ⟨g, k1, k2⟩ := (C44_lineIntersects ps hne p1 p2).1 l h1
  obtain ⟨g', k1', k2'⟩ := (C44_lineIntersects qs hqe p1 p2).1 l' h1'
  refine ⟨_, _, k2, k2', fun t h0 ht => ?_⟩
  rw [List.mem_filter, List.mem_filter, h2 t h0 ht, k1, k1', Part.curve_eq hne h t]

/-- C119: cut at `k / (k + m)`, the tables of the two parts with `k + 1` and `m + 1` points make up the table of the curve with `k + m + 1`
points; the shared point is counted once. -/
theorem C119_samples (ps ls rs : Segment ℝ) (hp : ps ≠ []) (k m : ℕ) (hk : 0 < k) (hm : 0 < m)
    (hl : IsPart ps ls 0 (k / (k + m))) (hr : IsPart ps rs (k / (k + m)) 1) :
    ∃ l r, lutOf ls (k + 1 : ℕ) = .ok l ∧ lutOf rs (m + 1 : ℕ) = .ok r ∧ lutOf ps (k + m + 1 : ℕ) = .ok (l ++ r.tail) := by
  have hle : ls ≠ [] := by rintro rfl; exact hp (List.length_eq_zero_iff.mp hl.1.symm)
  have hre : rs ≠ [] := by rintro rfl; exact hp (List.length_eq_zero_iff.mp hr.1.symm)
  have k0 : (k : ℝ) ≠ 0 := by positivity
  have m0 : (m : ℝ) ≠ 0 := by positivity
  have km : (k : ℝ) + m ≠ 0 := by positivity
  obtain ⟨l, e1, n1, s1⟩ := C40_samples (K := ℝ) ls hle (k + 1) (by omega)
  obtain ⟨r, e2, n2, s2⟩ := C40_samples (K := ℝ) rs hre (m + 1) (by omega)
  obtain ⟨w, e3, n3, s3⟩ := C40_samples (K := ℝ) ps hp (k + m + 1) (by omega)
  refine ⟨l, r, e1, e2, ?_⟩
  rw [e3]
  congr 1
  apply List.ext_getElem
  · simp [n1, n2, n3]; omega
  · intro i hi hi'
    have hs := s3 i hi
    have key : ∀ x y : Pt ℝ, Bezier.get ps ((i : ℝ) / ((k + m + 1 - 1 : ℕ) : ℝ)) = .ok x → Bezier.get ps ((i : ℝ) / ((k + m + 1 - 1 : ℕ) : ℝ)) = .ok y → x = y :=
      fun x y a b => by rw [a] at b; exact Except.ok.inj b
    apply key _ _ hs
    rcases lt_or_ge i l.length with hlt | hge
    · rw [List.getElem_append_left hlt, ← s1 i hlt, hl.2]
      congr 1
      simp only [Nat.add_sub_cancel, Nat.cast_add]
      field_simp
      ring
    · rw [List.getElem_append_right hge, List.getElem_tail, ← s2 (i - l.length + 1) (by simp at hi'; omega), hr.2]
      congr 1
      obtain ⟨j, rfl⟩ : ∃ j, i = k + 1 + j := ⟨i - (k + 1), by omega⟩
      rw [n1, Nat.add_sub_cancel_left]
      simp only [Nat.add_sub_cancel, Nat.cast_add, Nat.cast_one]
      have e : (1 : ℝ) - k / (k + m) = m / (k + m) := by field_simp; ring
      rw [e]
      field_simp
      ring

/-- C119: in the design space the bounds of the curve are the union of the bounds of its two parts. -/
theorem C119_bounds (ps ls rs : Segment ℝ) (hp : ps.length = 3 ∨ ps.length = 4) (hd : ∀ p ∈ ps, InDesignSpace p) (t : ℝ) (h0 : 0 ≤ t) (h1 : t ≤ 1)
    (hl : IsPart ps ls 0 t) (hr : IsPart ps rs t 1) :
    ∃ b c d, boundsRectangle ps = .ok b ∧ boundsRectangle ls = .ok c ∧ boundsRectangle rs = .ok d ∧ b = c.union d := by
  have hne : ps ≠ [] := by rintro rfl; simp at hp
  have inside := curve_in_design_space ps hne hd
  have hle : ls ≠ [] := by rintro rfl; exact hne (List.length_eq_zero_iff.mp hl.1.symm)
  have hre : rs ≠ [] := by rintro rfl; exact hne (List.length_eq_zero_iff.mp hr.1.symm)
  have cl := Part.curve_eq hne hl
  have cr := Part.curve_eq hne hr
  have ul : ∀ s : ℝ, 0 ≤ s → s ≤ 1 → 0 ≤ 0 + s * (t - 0) ∧ 0 + s * (t - 0) ≤ 1 := fun s a b => Part.in_unit le_rfl h1 h0 a b
  have ur : ∀ s : ℝ, 0 ≤ s → s ≤ 1 → 0 ≤ t + s * (1 - t) ∧ t + s * (1 - t) ≤ 1 := fun s a b => Part.in_unit h0 le_rfl h1 a b
  obtain ⟨b, eb, bb, ⟨x1, p1, q1, y1⟩, ⟨x2, p2, q2, y2⟩, ⟨x3, p3, q3, y3⟩, ⟨x4, p4, q4, y4⟩⟩ := C37_tight_of_curve ps (by omega) inside
  obtain ⟨c, ec, bc, ⟨l1, lp1, lq1, ly1⟩, ⟨l2, lp2, lq2, ly2⟩, ⟨l3, lp3, lq3, ly3⟩, ⟨l4, lp4, lq4, ly4⟩⟩ :=
    C37_tight_of_curve ls (by have := hl.1; omega) fun s a b => by rw [cl]; exact inside _ (ul s a b).1 (ul s a b).2
  obtain ⟨d, ed, bd, ⟨r1, rp1, rq1, ry1⟩, ⟨r2, rp2, rq2, ry2⟩, ⟨r3, rp3, rq3, ry3⟩, ⟨r4, rp4, rq4, ry4⟩⟩ :=
    C37_tight_of_curve rs (by have := hr.1; omega) fun s a b => by rw [cr]; exact inside _ (ur s a b).1 (ur s a b).2
  have enc : ∀ (qs : Segment ℝ) (r : BoundsRectangle ℝ), qs.length = 3 ∨ qs.length = 4 → boundsRectangle qs = .ok r → ∀ s, 0 ≤ s → s ≤ 1 →
      r.left ≤ (curve qs s).1 ∧ (curve qs s).1 ≤ r.right ∧ r.bottom ≤ (curve qs s).2 ∧ (curve qs s).2 ≤ r.top := by
    intro qs r hq he s a b
    obtain ⟨_, _, _, _, r', _, e', k⟩ := C37_encloses qs (by omega) (by omega)
    rw [he] at e'; cases e'
    obtain ⟨p, hp, _, en⟩ := k s a b
    rw [get_ok _ (by rintro rfl; simp at hq)] at hp
    cases hp
    rw [BoundsRectangle.enclosesPoint_iff] at en
    exact ⟨en.1.1, en.1.2, en.2.1, en.2.2⟩
  have encl := enc ls c (by rw [hl.1]; exact hp) ec
  have encr := enc rs d (by rw [hr.1]; exact hp) ed
  have encb := enc ps b hp eb
  -- every point of the curve is on one of the parts
  have onPart : ∀ x : ℝ, 0 ≤ x → x ≤ 1 → (∃ s, 0 ≤ s ∧ s ≤ 1 ∧ curve ls s = curve ps x) ∨ (∃ s, 0 ≤ s ∧ s ≤ 1 ∧ curve rs s = curve ps x) := by
    intro x a b'
    rcases le_or_gt x t with hx | hx
    · left
      rcases h0.eq_or_lt with rfl | ht
      · exact ⟨0, le_rfl, zero_le_one, by rw [cl]; congr 1; linarith⟩
      · exact ⟨x / t, by positivity, (div_le_one ht).mpr hx, by rw [cl, sub_zero, zero_add, div_mul_cancel₀ _ ht.ne']⟩
    · right
      have ht : 0 < 1 - t := by linarith
      refine ⟨(x - t) / (1 - t), div_nonneg (by linarith) ht.le, (div_le_one ht).mpr (by linarith), ?_⟩
      rw [cr, div_mul_cancel₀ _ ht.ne']; congr 1; ring
  have bl : ∀ s, 0 ≤ s → s ≤ 1 → b.left ≤ (curve ls s).1 ∧ (curve ls s).1 ≤ b.right ∧ b.bottom ≤ (curve ls s).2 ∧ (curve ls s).2 ≤ b.top :=
    fun s a b' => by rw [cl]; exact encb _ (ul s a b').1 (ul s a b').2
  have br : ∀ s, 0 ≤ s → s ≤ 1 → b.left ≤ (curve rs s).1 ∧ (curve rs s).1 ≤ b.right ∧ b.bottom ≤ (curve rs s).2 ∧ (curve rs s).2 ≤ b.top :=
    fun s a b' => by rw [cr]; exact encb _ (ur s a b').1 (ur s a b').2
  have L : b.left = min c.left d.left := by
    apply le_antisymm
    · apply le_min
      · rw [← ly1]; exact (bl _ lp1 lq1).1
      · rw [← ry1]; exact (br _ rp1 rq1).1
    · rw [← y1]
      rcases onPart x1 p1 q1 with ⟨s, a, b', e⟩ | ⟨s, a, b', e⟩ <;> rw [← e]
      · exact (min_le_left _ _).trans (encl s a b').1
      · exact (min_le_right _ _).trans (encr s a b').1
  have R : b.right = max c.right d.right := by
    apply le_antisymm
    · rw [← y2]
      rcases onPart x2 p2 q2 with ⟨s, a, b', e⟩ | ⟨s, a, b', e⟩ <;> rw [← e]
      · exact (encl s a b').2.1.trans (le_max_left _ _)
      · exact (encr s a b').2.1.trans (le_max_right _ _)
    · apply max_le
      · rw [← ly2]; exact (bl _ lp2 lq2).2.1
      · rw [← ry2]; exact (br _ rp2 rq2).2.1
  have B : b.bottom = min c.bottom d.bottom := by
    apply le_antisymm
    · apply le_min
      · rw [← ly3]; exact (bl _ lp3 lq3).2.2.1
      · rw [← ry3]; exact (br _ rp3 rq3).2.2.1
    · rw [← y3]
      rcases onPart x3 p3 q3 with ⟨s, a, b', e⟩ | ⟨s, a, b', e⟩ <;> rw [← e]
      · exact (min_le_left _ _).trans (encl s a b').2.2.1
      · exact (min_le_right _ _).trans (encr s a b').2.2.1
  have T : b.top = max c.top d.top := by
    apply le_antisymm
    · rw [← y4]
      rcases onPart x4 p4 q4 with ⟨s, a, b', e⟩ | ⟨s, a, b', e⟩ <;> rw [← e]
      · exact (encl s a b').2.2.2.trans (le_max_left _ _)
      · exact (encr s a b').2.2.2.trans (le_max_right _ _)
    · apply max_le
      · rw [← ly4]; exact (bl _ lp4 lq4).2.2.2
      · rw [← ry4]; exact (br _ rp4 rq4).2.2.2
  refine ⟨b, c, d, eb, ec, ed, ?_⟩
  have m1 : b.left ≤ b.right := (encb 0 le_rfl zero_le_one).1.trans (encb 0 le_rfl zero_le_one).2.1
  have m2 : b.bottom ≤ b.top := (encb 0 le_rfl zero_le_one).2.2.1.trans (encb 0 le_rfl zero_le_one).2.2.2
  have f1 := inside x1 p1 q1
  have f2 := inside x2 p2 q2
  have f3 := inside x3 p3 q3
  have f4 := inside x4 p4 q4
  rw [y1] at f1; rw [y2] at f2; rw [y3] at f3; rw [y4] at f4
  unfold BoundsRectangle.union
  simp only [pyMin_eq, pyMax_eq]
  rw [← L, ← R, ← B, ← T, BoundsRectangle.new_two_of_le m1 m2 (abs_le.mp f1.1).2 (abs_le.mp f3.2).2 (abs_le.mp f2.1).1 (abs_le.mp f4.2).1]

/-- C119: the arc lengths of the two parts add up to the arc length of the curve. -/
theorem C119_length (ps ls rs : Segment ℝ) (hp : ps.length = 3 ∨ ps.length = 4) (t : ℝ) (h0 : 0 ≤ t) (h1 : t ≤ 1)
    (hl : IsPart ps ls 0 t) (hr : IsPart ps rs t 1) : arcLength ls + arcLength rs = arcLength ps := by
  have hne : ps ≠ [] := by rintro rfl; simp at hp
  have h2 : 2 ≤ ps.length := by omega
  have cont : Continuous (speed ps) := by
    have e : speed ps = fun t => vlen (curve (dcStep ps) t) := funext fun t => by
      unfold speed
      rw [(hasDerivAt_curve_step ps h2 t).1.deriv, (hasDerivAt_curve_step ps h2 t).2.deriv]
    rw [e]
    unfold vlen curve bernList bernSum bern
    fun_prop
  have sp : ∀ (qs : Segment ℝ) (u v : ℝ), u ≤ v → IsPart ps qs u v → arcLength qs = ∫ x in u..v, speed ps x := by
    intro qs u v huv hq
    have e : ∀ s, speed qs s = (v - u) * speed ps (u + s * (v - u)) := by
      intro s
      unfold speed
      rw [Part.deriv_scaled (u := u) (v := v) (fun t => (curve ps t).1) (fun t => (curve qs t).1) fun s => by rw [Part.curve_eq hne hq s],
        Part.deriv_scaled (u := u) (v := v) (fun t => (curve ps t).2) (fun t => (curve qs t).2) fun s => by rw [Part.curve_eq hne hq s]]
      unfold vlen
      simp only
      generalize deriv (fun t => (curve ps t).1) (u + s * (v - u)) = a
      generalize deriv (fun t => (curve ps t).2) (u + s * (v - u)) = b
      rw [show (v - u) * a * ((v - u) * a) + (v - u) * b * ((v - u) * b) = (v - u) ^ 2 * (a * a + b * b) by ring, Real.sqrt_mul (sq_nonneg _), Real.sqrt_sq (sub_nonneg.mpr huv)]
    unfold arcLength
    rw [intervalIntegral.integral_congr (g := fun s => (v - u) * speed ps (u + (v - u) * s)) fun s _ => by rw [e, mul_comm s]]
    rw [intervalIntegral.integral_const_mul, intervalIntegral.mul_integral_comp_add_mul]
    congr 1 <;> ring
  rw [sp ls 0 t h0 hl, sp rs t 1 h1 hr]
  exact intervalIntegral.integral_add_adjacent_intervals (cont.intervalIntegrable _ _) (cont.intervalIntegrable _ _)

/-- C119: the parts of a curve which goes up (down) go up (down). -/
theorem C119_direction (ps qs : Segment ℝ) (hp : ps.length = 3 ∨ ps.length = 4) (u v : ℝ) (hu : 0 ≤ u) (huv : u < v) (hv : v ≤ 1)
    (h : IsPart ps qs u v) (d : Dir) (hd : computeDirection ps = .ok d) (hm : d ≠ .mixed) : computeDirection qs = .ok d := by
  have hne : ps ≠ [] := by rintro rfl; simp at hp
  have hq : qs.length = 3 ∨ qs.length = 4 := by rw [h.1]; exact hp
  have key : ∀ (σ : ℝ), (ps.map fun p => σ * p.2).Pairwise (· ≤ ·) → (qs.map fun p => σ * p.2).Pairwise (· ≤ ·) := by
    intro σ
    have a : 0 ≤ v - u := by linarith
    have b : 0 ≤ 1 - u := by linarith
    have c : 0 ≤ 1 - v := by linarith
    have d : 0 ≤ v := by linarith
    rcases hp with hp | hp
    · match ps, hp with
      | [p, q, r], _ =>
        have e : qs = [curve [p, q, r] u, ((1 - u) * ((1 - v) * p.1 + v * q.1) + u * ((1 - v) * q.1 + v * r.1),
            (1 - u) * ((1 - v) * p.2 + v * q.2) + u * ((1 - v) * q.2 + v * r.2)), curve [p, q, r] v] := by
          apply Reversed.points_unique hq (by simp [h.1])
          intro s
          rw [Part.curve_eq hne h s]
          simp only [curve_three, Prod.mk.injEq]
          constructor <;> ring
        rw [e]
        simp only [curve_three, List.map_cons, List.map_nil, List.pairwise_cons, List.mem_cons, forall_eq_or_imp, List.not_mem_nil, false_implies,
          implies_true, and_true, List.Pairwise.nil]
        rintro ⟨⟨x1, x2⟩, x3⟩
        have y1 : 0 ≤ σ * q.2 - σ * p.2 := by linarith
        have y2 : 0 ≤ σ * r.2 - σ * q.2 := by linarith
        have z1 : 0 ≤ (v - u) * ((1 - u) * (σ * q.2 - σ * p.2) + u * (σ * r.2 - σ * q.2)) := by positivity
        have z2 : 0 ≤ (v - u) * ((1 - v) * (σ * q.2 - σ * p.2) + v * (σ * r.2 - σ * q.2)) := by positivity
        refine ⟨⟨by linarith, by linarith⟩, by linarith⟩
    · match ps, hp with
      | [p, q, r, w], _ =>
        have e : qs = [curve [p, q, r, w] u,
            ((1 - v) * ((1 - u) ^ 2 * p.1 + 2 * (1 - u) * u * q.1 + u ^ 2 * r.1) + v * ((1 - u) ^ 2 * q.1 + 2 * (1 - u) * u * r.1 + u ^ 2 * w.1),
             (1 - v) * ((1 - u) ^ 2 * p.2 + 2 * (1 - u) * u * q.2 + u ^ 2 * r.2) + v * ((1 - u) ^ 2 * q.2 + 2 * (1 - u) * u * r.2 + u ^ 2 * w.2)),
            ((1 - u) * ((1 - v) ^ 2 * p.1 + 2 * (1 - v) * v * q.1 + v ^ 2 * r.1) + u * ((1 - v) ^ 2 * q.1 + 2 * (1 - v) * v * r.1 + v ^ 2 * w.1),
             (1 - u) * ((1 - v) ^ 2 * p.2 + 2 * (1 - v) * v * q.2 + v ^ 2 * r.2) + u * ((1 - v) ^ 2 * q.2 + 2 * (1 - v) * v * r.2 + v ^ 2 * w.2)),
            curve [p, q, r, w] v] := by
          apply Reversed.points_unique hq (by simp [h.1])
          intro s
          rw [Part.curve_eq hne h s]
          simp only [curve_four, Prod.mk.injEq]
          constructor <;> ring
        rw [e]
        simp only [curve_four, List.map_cons, List.map_nil, List.pairwise_cons, List.mem_cons, forall_eq_or_imp, List.not_mem_nil, false_implies,
          implies_true, and_true, List.Pairwise.nil]
        rintro ⟨⟨x1, x2, x3⟩, ⟨x4, x5⟩, x6⟩
        have y1 : 0 ≤ σ * q.2 - σ * p.2 := by linarith
        have y2 : 0 ≤ σ * r.2 - σ * q.2 := by linarith
        have y3 : 0 ≤ σ * w.2 - σ * r.2 := by linarith
        have z1 : 0 ≤ (v - u) * ((1 - u) ^ 2 * (σ * q.2 - σ * p.2) + 2 * (1 - u) * u * (σ * r.2 - σ * q.2) + u ^ 2 * (σ * w.2 - σ * r.2)) := by positivity
        have z2 : 0 ≤ (v - u) * ((1 - u) * (1 - v) * (σ * q.2 - σ * p.2) + ((1 - u) * v + u * (1 - v)) * (σ * r.2 - σ * q.2) + u * v * (σ * w.2 - σ * r.2)) := by
          positivity
        have z3 : 0 ≤ (v - u) * ((1 - v) ^ 2 * (σ * q.2 - σ * p.2) + 2 * (1 - v) * v * (σ * r.2 - σ * q.2) + v ^ 2 * (σ * w.2 - σ * r.2)) := by positivity
        refine ⟨⟨by linarith, by linarith, by linarith⟩, ⟨by linarith, by linarith⟩, by linarith⟩
  have up : ∀ l : Segment ℝ, (l.map fun p => (1 : ℝ) * p.2).Pairwise (· ≤ ·) ↔ (l.map Prod.snd).Pairwise (· ≤ ·) := by
    intro l; simp [List.pairwise_map]
  have down : ∀ l : Segment ℝ, (l.map fun p => (-1 : ℝ) * p.2).Pairwise (· ≤ ·) ↔ (l.map Prod.snd).Pairwise (· ≥ ·) := by
    intro l; simp [List.pairwise_map]
  obtain ⟨a1, a2, a3⟩ := C41_curve ps hp
  obtain ⟨b1, b2, b3⟩ := C41_curve qs hq
  cases d with
  | mixed => exact absurd rfl hm
  | up => rw [b1, ← up]; exact key 1 ((up ps).mpr (a1.mp hd))
  | down =>
    obtain ⟨k1, k2⟩ := a2.mp hd
    have kq := (down qs).mp (key (-1) ((down ps).mpr k1))
    refine b2.mpr ⟨kq, fun hup => k2 ?_⟩
    -- otherwise the part, and with it the whole curve, is horizontal
    have hc : ∃ c, ∀ s, (curve qs s).2 = c := by
      rcases hq with hq | hq
      · match qs, hq, hup, kq with
        | [p, q, r], _, hup, kq =>
          simp only [List.map_cons, List.map_nil, List.pairwise_cons, List.mem_cons, forall_eq_or_imp, List.not_mem_nil, false_implies,
            implies_true, and_true, List.Pairwise.nil] at hup kq
          refine ⟨p.2, fun s => ?_⟩
          have e1 : q.2 = p.2 := le_antisymm kq.1.1 hup.1.1
          have e2 : r.2 = p.2 := le_antisymm kq.1.2 hup.1.2
          rw [curve_three, e1, e2]
          ring
      · match qs, hq, hup, kq with
        | [p, q, r, w], _, hup, kq =>
          simp only [List.map_cons, List.map_nil, List.pairwise_cons, List.mem_cons, forall_eq_or_imp, List.not_mem_nil, false_implies,
            implies_true, and_true, List.Pairwise.nil] at hup kq
          refine ⟨p.2, fun s => ?_⟩
          have e1 : q.2 = p.2 := le_antisymm kq.1.1 hup.1.1
          have e2 : r.2 = p.2 := le_antisymm kq.1.2.1 hup.1.2.1
          have e3 : w.2 = p.2 := le_antisymm kq.1.2.2 hup.1.2.2
          rw [curve_four, e1, e2, e3]
          ring
    obtain ⟨c, hc⟩ := hc
    have hw : ∀ x, (curve ps x).2 = c := by
      intro x
      rw [← hc ((x - u) / (v - u)), Part.curve_eq hne h, div_mul_cancel₀ _ (sub_pos.mpr huv).ne']
      congr 2; ring
    have w0 := hw 0
    have w1 := hw 1
    rcases hp with hp | hp
    · match ps, hp, w0, w1, k1 with
      | [p, q, r], _, w0, w1, k1 =>
        rw [curve_three] at w0 w1
        norm_num at w0 w1
        simp only [List.map_cons, List.map_nil, List.pairwise_cons, List.mem_cons, forall_eq_or_imp, List.not_mem_nil, false_implies,
          implies_true, and_true, List.Pairwise.nil] at k1 ⊢
        obtain ⟨⟨g1, g2⟩, g3⟩ := k1
        exact ⟨⟨by linarith, by linarith⟩, by linarith⟩
    · match ps, hp, w0, w1, k1 with
      | [p, q, r, w], _, w0, w1, k1 =>
        rw [curve_four] at w0 w1
        norm_num at w0 w1
        simp only [List.map_cons, List.map_nil, List.pairwise_cons, List.mem_cons, forall_eq_or_imp, List.not_mem_nil, false_implies,
          implies_true, and_true, List.Pairwise.nil] at k1 ⊢
        obtain ⟨⟨g1, g2, g3⟩, ⟨g4, g5⟩, g6⟩ := k1
        exact ⟨⟨by linarith, by linarith, by linarith⟩, ⟨by linarith, by linarith⟩, by linarith⟩
  | flat =>
    -- quadratics and cubics are never reported as flat
    exfalso
    by_cases x1 : (ps.map Prod.snd).Pairwise (· ≤ ·)
    · rw [a1.mpr x1] at hd; cases hd
    · by_cases x2 : (ps.map Prod.snd).Pairwise (· ≥ ·)
      · rw [a2.mpr ⟨x2, x1⟩] at hd; cases hd
      · rw [a3.mpr ⟨x2, x1⟩] at hd; cases hd

/-- The hypotheses are met: the halves of a cubic. -/
example : IsPart [((0:ℝ), (0:ℝ)), (0, 8), (8, 8), (8, 16)] [(0, 0), (0, 4), (2, 6), (4, 8)] 0 (1 / 2) ∧
    IsPart [((0:ℝ), (0:ℝ)), (0, 8), (8, 8), (8, 16)] [(4, 8), (6, 10), (8, 12), (8, 16)] (1 / 2) 1 ∧
    computeDirection [((0:ℝ), (0:ℝ)), (0, 8), (8, 8), (8, 16)] = .ok .up := by
  refine ⟨⟨rfl, fun s => ?_⟩, ⟨rfl, fun s => ?_⟩, ?_⟩
  · rw [get_ok _ (by simp), get_ok _ (by simp), curve_four, curve_four]
    congr 2 <;> ring
  · rw [get_ok _ (by simp), get_ok _ (by simp), curve_four, curve_four]
    congr 2 <;> ring
  · rw [(C41_curve _ (.inr rfl)).1]; norm_num

/-- The claim about directions says nothing of a curve which goes both ways: its parts can go up, go down or go both ways. -/
example : computeDirection [((0:ℚ), (0:ℚ)), (1, 2), (2, 0)] = .ok .mixed ∧ computeDirection [((0:ℚ), (0:ℚ)), (1/2, 1), (1, 1)] = .ok .up := by
  decide +kernel

end PathLib
