import Verif.Props.BezierReduce

set_option linter.unusedSectionVars false
set_option linter.unusedSimpArgs false

/-!
# Offsetting and scaling: C49, C72
-/

namespace PathLib
open Spec Bezier

/-- The vector turned by a quarter turn to the left and scaled to length 1. -/
noncomputable def Spec.leftNormal (u : Pt ℝ) : Pt ℝ := (-u.2 / norm2 u, u.1 / norm2 u)

/-- The point moved by `k` times the vector `v`. -/
def Spec.shift (p : Pt ℝ) (k : ℝ) (v : Pt ℝ) : Pt ℝ := (p.1 + k * v.1, p.2 + k * v.2)

/-- The point moved by `k` away from `o`. -/
noncomputable def Spec.away (o : Pt ℝ) (k : ℝ) (p : Pt ℝ) : Pt ℝ :=
  shift p k ((vec o p).1 / norm2 (vec o p), (vec o p).2 / norm2 (vec o p))

theorem leftNormal_unit {u : Pt ℝ} (h : u ≠ (0, 0)) : norm2 (leftNormal u) = 1 := by
  have hp := norm2_pos h
  have hs := norm2_sq u
  unfold leftNormal
  rw [norm2, Real.sqrt_eq_one]
  simp only
  field_simp
  linarith

theorem norm2_mul (k : ℝ) (u : Pt ℝ) : norm2 (k * u.1, k * u.2) = |k| * norm2 u := by
  unfold norm2
  rw [← Real.sqrt_sq_eq_abs, ← Real.sqrt_mul (sq_nonneg k)]
  congr 1; simp only; ring

theorem leftNormal_mul {k : ℝ} (hk : 0 < k) {u : Pt ℝ} (h : u ≠ (0, 0)) : leftNormal (k * u.1, k * u.2) = leftNormal u := by
  have hp := norm2_pos h
  unfold leftNormal
  rw [norm2_mul, abs_of_pos hk]
  ext <;> simp only <;> field_simp

/-- `normal` is the left normal of the derivative. -/
theorem normal_leftNormal (ps : Segment ℝ) (h : ps.length = 3 ∨ ps.length = 4) (t : ℝ) (u : Pt ℝ)
    (hx : HasDerivAt (fun t => (curve ps t).1) u.1 t) (hy : HasDerivAt (fun t => (curve ps t).2) u.2 t) (hu : u ≠ (0, 0)) :
    normal ps t = .ok (leftNormal u) := by
  obtain ⟨h2, h3⟩ := hasDerivAt_curve_step ps (by omega) t
  have e : curve (dcStep ps) t = u := Prod.ext (h2.unique hx) (h3.unique hy)
  have := (normal_end ps h t u 1 one_pos (by rw [e]; simp)).2 hu
  exact this

/-! ## C49: `offset(t, d)` -/

/-- C49: for a quadratic or cubic and `d ≠ 0`, `offset(t, d)` returns the curve point, the unit vector to the left of the direction of
the curve there, and the point at the signed distance `d` along it. It raises `ZeroDivisionError` where the curve stops. -/
theorem C49_point (b : Bezier) (hb : QuadOrCubic b) (t d : ℝ) (hd : d ≠ 0) (u : Pt ℝ)
    (hx : HasDerivAt (fun t => (curve b.controlPoints t).1) u.1 t)
    (hy : HasDerivAt (fun t => (curve b.controlPoints t).2) u.2 t) :
    (u = (0, 0) → offset b t (some d) = .error .zeroDivisionError) ∧
    (u ≠ (0, 0) → ∃ c n p, offset b t (some d) = .ok (.points c n p) ∧ Bezier.get b.controlPoints t = .ok c ∧
      normal b.controlPoints t = .ok n ∧
      norm2 n = 1 ∧ dot n u = 0 ∧ 0 < cross u n ∧ p = shift c d n ∧ norm2 (vec c p) = |d|) := by
  have hne := ne_nil_of_quadOrCubic hb
  have hn := C36_normal b.controlPoints hb t u hx hy
  unfold offset
  simp only [if_pos hd, offsetPoint, get_ok _ hne, ok_bind]
  constructor
  · intro hu; rw [hn.1 hu]; rfl
  · intro hu
    have e := normal_leftNormal b.controlPoints hb t u hx hy hu
    have hp := norm2_pos hu
    have hq := norm2_sq u
    refine ⟨_, _, _, by rw [e]; rfl, rfl, e, leftNormal_unit hu, ?_, ?_, ?_, ?_⟩
    · unfold dot leftNormal; simp only; ring
    · unfold cross leftNormal; simp only
      have : u.1 * (u.1 / norm2 u) - u.2 * (-u.2 / norm2 u) = norm2 u := by field_simp; linarith
      rw [this]; exact hp
    · unfold shift; ext <;> simp only <;> ring
    · have : vec (curve b.controlPoints t) ((curve b.controlPoints t).1 + (leftNormal u).1 * d,
          (curve b.controlPoints t).2 + (leftNormal u).2 * d) = (d * (leftNormal u).1, d * (leftNormal u).2) := by
        unfold vec; ext <;> simp only <;> ring
      rw [this, norm2_mul, leftNormal_unit hu, mul_one]

/-- C49: a distance of zero is treated like a missing distance: a list of curves is returned, as for `offset(t)`. -/
theorem C49_zero_is_missing (b : Bezier) (t : ℝ) :
    offset b t (some 0) = offset b t none ∧ ∀ c n p, offset b t (some 0) ≠ .ok (.points c n p) := by
  refine ⟨by simp [offset], ?_⟩
  intro c n p h
  unfold offset at h
  simp only [ne_eq, not_true_eq_false, if_false] at h
  obtain ⟨l, -, h⟩ := bind_eq_ok.mp h
  simp [pure_eq_ok] at h

/-! ## C49: `scale` -/

private noncomputable def scaleRest (b : Bezier) (d : Distance) (n0 n1 o : Pt ℝ) : Py Bezier := do
    let ps := b.controlPoints
    let n : Nat := ps.length - 1
    let distanceFn : ℝ → ℝ := match d with
      | .const r => fun _ => r
      | .fn f => f
    let r1 := distanceFn 0
    let r2 := distanceFn 1
    let p0 ← pyGet ps 0
    let pn ← pyGet ps (n : Int)
    let np : Segment ℝ := List.replicate (n + 1) (0, 0)
    let e0 := (p0.1 + r1 * n0.1, p0.2 + r1 * n0.2)
    let e1 := (pn.1 + r2 * n1.1, pn.2 + r2 * n1.2)
    let np := (np.set 0 e0).set n e1
    match d with
    | .fn _ =>
      let np ← (List.range 2).foldlM (fun np (t : Nat) => do
        if n = 2 ∧ t > 0 then return np
        else
          let p ← pyGet np (t * n : Nat)
          let dd ← derivative ps (t : ℝ)
          let p2 := (p.1 + dd.1, p.2 + dd.2)
          match butils.lli4 p p2 o (← pyGet ps ((t + 1 : Nat) : Int)) with
          | none => .error .typeError
          | some x => return np.set (t + 1) x) np
      new np
    | .const _ =>
      let np ← (List.range 2).foldlM (fun np (t : Nat) => do
        if n = 2 ∧ t > 0 then return np
        else
          let p ← pyGet ps ((t + 1 : Nat) : Int)
          let ov := (p.1 - o.1, p.2 - o.2)
          let rc := distanceFn (((t : ℝ) + 1) / (n : ℝ))
          let rc := if !b.clockwise then -rc else rc
          let m := butils.hypot ov.1 ov.2
          let ox ← pdiv ov.1 m
          let oy ← pdiv ov.2 m
          return np.set (t + 1) (p.1 + rc * ox, p.2 + rc * oy)) np
      new np

private theorem lli4_normals (c0 n0 c1 n1 : Pt ℝ) :
    (cross n0 n1 = 0 → butils.lli4 (c0.1 + n0.1 * 10, c0.2 + n0.2 * 10) c0 (c1.1 + n1.1 * 10, c1.2 + n1.2 * 10) c1 = none) ∧
    (cross n0 n1 ≠ 0 → ∃ o s0 s1, butils.lli4 (c0.1 + n0.1 * 10, c0.2 + n0.2 * 10) c0 (c1.1 + n1.1 * 10, c1.2 + n1.2 * 10) c1
      = some o ∧ o = shift c0 s0 n0 ∧ o = shift c1 s1 n1) := by
  have hp := C28_none_iff (c0.1 + n0.1 * 10, c0.2 + n0.2 * 10) c0 (c1.1 + n1.1 * 10, c1.2 + n1.2 * 10) c1
  simp only [butils.lli, pyGet_zero_cons, pyGet_one_cons, ok_bind, pure_eq_ok, Except.ok.injEq] at hp
  constructor
  · intro hc
    rw [hp]; unfold Parallel; unfold cross at hc; simp only; linear_combination 100 * hc
  · intro hc
    cases ho : butils.lli4 (c0.1 + n0.1 * 10, c0.2 + n0.2 * 10) c0 (c1.1 + n1.1 * 10, c1.2 + n1.2 * 10) c1 with
    | none =>
      exfalso; apply hc
      have := hp.mp ho
      unfold Parallel at this; unfold cross; simp only at this; linear_combination this / 100
    | some o =>
      obtain ⟨⟨s, h1, h2⟩, ⟨u, h3, h4⟩⟩ := C28_sound (c0.1 + n0.1 * 10, c0.2 + n0.2 * 10) c0
        (c1.1 + n1.1 * 10, c1.2 + n1.2 * 10) c1 o (by simpa [butils.lli] using ho)
      refine ⟨o, 10 - 10 * s, 10 - 10 * u, rfl, ?_, ?_⟩
      · unfold shift; ext
        · simp only at h1 ⊢; rw [h1]; ring
        · simp only at h2 ⊢; rw [h2]; ring
      · unfold shift; ext
        · simp only at h3 ⊢; rw [h3]; ring
        · simp only at h4 ⊢; rw [h4]; ring

private theorem cross_leftNormal {u v : Pt ℝ} (hu : u ≠ (0, 0)) (hv : v ≠ (0, 0)) :
    cross (leftNormal u) (leftNormal v) = 0 ↔ cross u v = 0 := by
  have h1 := norm2_pos hu
  have h2 := norm2_pos hv
  have : cross (leftNormal u) (leftNormal v) = cross u v / (norm2 u * norm2 v) := by
    unfold cross leftNormal; simp only; field_simp; ring
  rw [this, div_eq_zero_iff]
  constructor
  · rintro (h | h)
    · exact h
    · exact absurd h (by positivity)
  · exact .inl

private theorem scaleCore_start (b : Bezier) (hb : QuadOrCubic b) (d : Distance) (hne : b.controlPoints ≠ []) :
    let u := (legs b.controlPoints).1
    let v := (legs b.controlPoints).2
    (u = (0, 0) ∨ v = (0, 0) → scaleCore b d = .error .zeroDivisionError) ∧
    (u ≠ (0, 0) → v ≠ (0, 0) → cross u v = 0 → scaleCore b d = .error .valueError) ∧
    (u ≠ (0, 0) → v ≠ (0, 0) → cross u v ≠ 0 → ∃ o s0 s1, o = shift (b.controlPoints.head hne) s0 (leftNormal u) ∧
      o = shift (b.controlPoints.getLast hne) s1 (leftNormal v) ∧
      scaleCore b d = scaleRest b d (leftNormal u) (leftNormal v) o) := by
  intro u v
  obtain ⟨a1, a2, a3, a4⟩ := legs_normal b.controlPoints hb
  have o0 : ∀ x n, normal b.controlPoints x = .ok n → offsetPoint b.controlPoints x 10 = .ok (curve b.controlPoints x, n,
      ((curve b.controlPoints x).1 + n.1 * 10, (curve b.controlPoints x).2 + n.2 * 10)) := by
    intro x n h; unfold offsetPoint; rw [get_ok _ hne, ok_bind, h, ok_bind]; rfl
  have oe : ∀ x, normal b.controlPoints x = .error .zeroDivisionError →
      offsetPoint b.controlPoints x 10 = .error .zeroDivisionError := by
    intro x h; unfold offsetPoint; rw [get_ok _ hne, ok_bind, h]; rfl
  by_cases hu : u = (0, 0)
  · refine ⟨fun _ => ?_, fun h => absurd hu h, fun h => absurd hu h⟩
    unfold scaleCore
    simp only [oe 0 (a1 hu), error_bind]
  have hn0 := o0 0 _ (a2 hu)
  by_cases hv : v = (0, 0)
  · refine ⟨fun _ => ?_, fun _ h => absurd hv h, fun _ h => absurd hv h⟩
    unfold scaleCore
    simp only [hn0, ok_bind, oe 1 (a3 hv), error_bind]
  have hn1 := o0 1 _ (a4 hv)
  rw [curve_zero _ hne] at hn0
  rw [curve_at_one _ hne] at hn1
  have hl := lli4_normals (b.controlPoints.head hne) (leftNormal u) (b.controlPoints.getLast hne) (leftNormal v)
  refine ⟨fun h => absurd h (by tauto), fun _ _ hc => ?_, fun _ _ hc => ?_⟩
  · unfold scaleCore
    simp only [hn0, hn1, ok_bind]
    have := hl.1 ((cross_leftNormal hu hv).mpr hc)
    unfold leftNormal at this
    rw [this]
  · obtain ⟨o, s0, s1, h1, h2, h3⟩ := hl.2 (fun h => hc ((cross_leftNormal hu hv).mp h))
    refine ⟨o, s0, s1, h2, h3, ?_⟩
    unfold scaleCore
    simp only [hn0, hn1, ok_bind]
    unfold leftNormal at h1
    rw [h1]
    rfl

/-- A control point next to an end is never the common point of the end normals. -/
private theorem inner_ne {p u o q : Pt ℝ} {s : ℝ} (hu : u ≠ (0, 0)) (ho : o = shift p s (leftNormal u))
    (hq : vec p q = u ∨ vec q p = u) : vec o q ≠ (0, 0) := by
  intro h
  have hp := norm2_pos hu
  have hs := norm2_sq u
  have e : q = o := by
    unfold vec at h; simp only [Prod.mk.injEq] at h
    exact Prod.ext (by linarith [h.1]) (by linarith [h.2])
  rw [e] at hq
  have key : norm2 u ^ 2 = 0 := by
    rw [hs]
    have hd : u.1 * (leftNormal u).1 + u.2 * (leftNormal u).2 = 0 := by unfold leftNormal; simp only; ring
    have o1 := congrArg Prod.fst ho
    have o2 := congrArg Prod.snd ho
    unfold shift at o1 o2
    simp only at o1 o2
    rcases hq with hq | hq
    · have h1 := congrArg Prod.fst hq
      have h2 := congrArg Prod.snd hq
      unfold vec at h1 h2
      simp only at h1 h2
      linear_combination -u.1 * h1 - u.2 * h2 + u.1 * o1 + u.2 * o2 + s * hd
    · have h1 := congrArg Prod.fst hq
      have h2 := congrArg Prod.snd hq
      unfold vec at h1 h2
      simp only at h1 h2
      linear_combination -u.1 * h1 - u.2 * h2 - u.1 * o1 - u.2 * o2 - s * hd
  exact absurd key (by positivity)

private theorem hypot_vec (o p : Pt ℝ) : butils.hypot (p.1 - o.1) (p.2 - o.2) = norm2 (vec o p) := by
  unfold butils.hypot norm2 vec
  congr 1; ring

/-- The control points except the first and the last. -/
def Spec.inner (ps : Segment ℝ) : Segment ℝ := ps.tail.dropLast

private theorem pdiv_norm {o p : Pt ℝ} (h : vec o p ≠ (0, 0)) (x : ℝ) : pdiv x (norm2 (vec o p)) = .ok (x / norm2 (vec o p)) :=
  pdiv_of_ne _ (norm2_pos h).ne'

private theorem rest_three (b : Bezier) (a p z : Pt ℝ) (hps : b.controlPoints = [a, p, z]) (d : ℝ) (n0 n1 o : Pt ℝ)
    (hp : vec o p ≠ (0, 0)) :
    scaleRest b (.const d) n0 n1 o =
      new [shift a d n0, away o (if b.clockwise then d else -d) p, shift z d n1] := by
  unfold scaleRest
  rw [hps]
  have rc : (if (!b.clockwise) = true then -d else d) = if b.clockwise = true then d else -d := by
    cases b.clockwise <;> simp
  have e1 : pyGet [a, p, z] ((0 + 1 : Nat) : Int) = .ok p := rfl
  have e2 : pyGet [a, p, z] ((2 : Nat) : Int) = .ok z := rfl
  simp only [pyGet_zero_cons, List.range_succ, List.range_zero, List.nil_append, List.cons_append, List.foldlM_cons, List.foldlM_nil,
    List.length_cons, List.length_nil, Nat.add_sub_cancel, ok_bind, e1, e2, hypot_vec, pdiv_norm hp, rc, pure_eq_ok]
  rfl

private theorem rest_four (b : Bezier) (a p q z : Pt ℝ) (hps : b.controlPoints = [a, p, q, z]) (d : ℝ) (n0 n1 o : Pt ℝ)
    (hp : vec o p ≠ (0, 0)) (hq : vec o q ≠ (0, 0)) :
    scaleRest b (.const d) n0 n1 o =
      new [shift a d n0, away o (if b.clockwise then d else -d) p, away o (if b.clockwise then d else -d) q, shift z d n1] := by
  unfold scaleRest
  rw [hps]
  have rc : (if (!b.clockwise) = true then -d else d) = if b.clockwise = true then d else -d := by
    cases b.clockwise <;> simp
  have e1 : pyGet [a, p, q, z] ((0 + 1 : Nat) : Int) = .ok p := rfl
  have e2 : pyGet [a, p, q, z] ((1 + 1 : Nat) : Int) = .ok q := rfl
  have e3 : pyGet [a, p, q, z] ((3 : Nat) : Int) = .ok z := rfl
  simp only [pyGet_zero_cons, List.range_succ, List.range_zero, List.nil_append, List.cons_append, List.foldlM_cons, List.foldlM_nil,
    List.length_cons, List.length_nil, Nat.add_sub_cancel, ok_bind, e1, e2, e3, hypot_vec, pdiv_norm hp, pdiv_norm hq, rc, pure_eq_ok]
  rfl

/-- C49: `scale(d)` with a number `d`, for quadratics and cubics whose end normals are not parallel. The result has the same order; its
end points are the end points moved by the signed distance `d` along the end normals; every other control point is moved by `|d|` on the
line through it and the common point `o` of the two end normals: away from `o` for positive `d` and a clockwise curve. -/
theorem C49_scale (b : Bezier) (hb : QuadOrCubic b) (d : ℝ) (hne : b.controlPoints ≠ []) :
    let u := (legs b.controlPoints).1
    let v := (legs b.controlPoints).2
    u ≠ (0, 0) → v ≠ (0, 0) → cross u v ≠ 0 →
    ∃ o s0 s1 s, o = shift (b.controlPoints.head hne) s0 (leftNormal u) ∧ o = shift (b.controlPoints.getLast hne) s1 (leftNormal v) ∧
      scale b (.const d) = .ok s ∧ s.controlPoints.length = b.controlPoints.length ∧
      (∀ p ∈ inner b.controlPoints, p ≠ o) ∧
      s.controlPoints = shift (b.controlPoints.head hne) d (leftNormal u) ::
        ((inner b.controlPoints).map (away o (if b.clockwise then d else -d)) ++
          [shift (b.controlPoints.getLast hne) d (leftNormal v)]) := by
  dsimp only
  intro hu hv hc
  obtain ⟨o, s0, s1, h1, h2, h3⟩ := (scaleCore_start b hb (.const d) hne).2.2 hu hv hc
  have ne : ∀ p, vec o p ≠ (0, 0) → p ≠ o := by
    rintro p h rfl; apply h; simp [vec]
  obtain ⟨ps, t1, t2, dir, lin, cw⟩ := b
  have fin : ∀ qs : Segment ℝ, 2 ≤ qs.length → scaleRest ⟨ps, t1, t2, dir, lin, cw⟩ (.const d) (leftNormal (legs ps).1) (leftNormal (legs ps).2) o
        = new qs →
      ∃ s, scale ⟨ps, t1, t2, dir, lin, cw⟩ (.const d) = .ok s ∧ s.controlPoints = qs := by
    intro qs hq e
    obtain ⟨s, hs, hs2, -⟩ := new_ok qs hq
    exact ⟨s, by rw [scale, h3, e, hs], hs2⟩
  rcases hb with hb | hb
  · match ps, hb with
    | [a, p, z], _ =>
      have i1 : vec o p ≠ (0, 0) := inner_ne (p := a) (u := vec a p) hu h1 (.inl rfl)
      obtain ⟨s, e1, e2⟩ := fin _ (by simp) (rest_three _ a p z rfl d _ _ o i1)
      refine ⟨o, s0, s1, s, h1, h2, e1, by simp [e2], ?_, e2⟩
      intro x hx
      simp only [inner, List.tail_cons, List.dropLast_cons_cons, List.dropLast_singleton, List.mem_singleton] at hx
      rw [hx]; exact ne _ i1
  · match ps, hb with
    | [a, p, q, z], _ =>
      have i1 : vec o p ≠ (0, 0) := inner_ne (p := a) (u := vec a p) hu h1 (.inl rfl)
      have i2 : vec o q ≠ (0, 0) := inner_ne (p := z) (u := vec q z) hv h2 (.inr rfl)
      obtain ⟨s, e1, e2⟩ := fin _ (by simp) (rest_four _ a p q z rfl d _ _ o i1 i2)
      refine ⟨o, s0, s1, s, h1, h2, e1, by simp [e2], ?_, e2⟩
      intro x hx
      simp only [inner, List.tail_cons, List.dropLast_cons_cons, List.dropLast_singleton, List.mem_cons, List.not_mem_nil,
        or_false] at hx
      rcases hx with rfl | rfl
      · exact ne _ i1
      · exact ne _ i2

/-- C49: when `scale(d)` raises for a quadratic or cubic: `ZeroDivisionError` iff the first or the last leg of the control polygon has
length zero, `ValueError` iff the legs are not zero but parallel. -/
theorem C49_scale_raises (b : Bezier) (hb : QuadOrCubic b) (d : ℝ) :
    let u := (legs b.controlPoints).1
    let v := (legs b.controlPoints).2
    (scale b (.const d) = .error .zeroDivisionError ↔ u = (0, 0) ∨ v = (0, 0)) ∧
    (scale b (.const d) = .error .valueError ↔ u ≠ (0, 0) ∧ v ≠ (0, 0) ∧ cross u v = 0) ∧
    ((∃ s, scale b (.const d) = .ok s) ↔ u ≠ (0, 0) ∧ v ≠ (0, 0) ∧ cross u v ≠ 0) := by
  intro u v
  have hne := ne_nil_of_quadOrCubic hb
  obtain ⟨h1, h2, -⟩ := scaleCore_start b hb (.const d) hne
  have h3 := C49_scale b hb d hne
  have e : scale b (.const d) = scaleCore b (.const d) := rfl
  by_cases hu : u = (0, 0)
  · have := h1 (.inl hu)
    rw [e, this]; simp [hu]
  by_cases hv : v = (0, 0)
  · have := h1 (.inr hv)
    rw [e, this]; simp [hv]
  by_cases hc : cross u v = 0
  · have := h2 hu hv hc
    rw [e, this]; simp [hu, hv, hc]
  · obtain ⟨_, _, _, s, -, -, e1, -⟩ := h3 hu hv hc
    rw [e1]; simp [hu, hv, hc]

/-- C49: the sense of rotation used by `scale` is the side of the chord on which the second control point lies. -/
theorem C49_clockwise (ps : Segment ℝ) (b : Bezier) (h : Bezier.new ps = .ok b) (a c p : Pt ℝ) (ha : pyGet ps 0 = .ok a)
    (hc : pyGet ps (-1) = .ok c) (hp : pyGet ps 1 = .ok p) : b.clockwise = true ↔ LeftOf a c p := by
  unfold new at h
  obtain ⟨_, _, h⟩ := bind_eq_ok.mp h
  rw [ha, ok_bind, hc, ok_bind] at h
  obtain ⟨_, _, h⟩ := bind_eq_ok.mp h
  rw [hp, ok_bind] at h
  cases h
  simp only [decide_eq_true_eq]
  exact angle_pos a c p

/-! ## C72: tangents -/

private theorem unit_dot_lt {w n : Pt ℝ} (hn : norm2 n = 1) (hw : w ≠ (0, 0)) (hc : cross w n ≠ 0) :
    |dot w n| < norm2 w := by
  have h1 := norm2_pos hw
  have h2 := norm2_sq w
  have h3 := norm2_sq n
  rw [hn] at h3
  rw [← abs_of_pos h1, ← sq_lt_sq, h2]
  have : (w.1 ^ 2 + w.2 ^ 2) * (n.1 ^ 2 + n.2 ^ 2) = dot w n ^ 2 + cross w n ^ 2 := by unfold dot cross; ring
  have hp : 0 < cross w n ^ 2 := by positivity
  rw [← h3] at this
  linarith

private theorem tangent_lost {a p o u : Pt ℝ} {s d k : ℝ} (hu : u ≠ (0, 0)) (ho : o = shift a s (leftNormal u))
    (hq : vec a p = u ∨ vec p a = u) (hd : d ≠ 0) (hk : |k| = |d|) :
    cross (vec (shift a d (leftNormal u)) (away o k p)) u ≠ 0 := by
  have hw := inner_ne hu ho hq
  have hn := leftNormal_unit hu
  have hup := norm2_pos hu
  have hus := norm2_sq u
  have hwp := norm2_pos hw
  have o1 := congrArg Prod.fst ho
  have o2 := congrArg Prod.snd ho
  unfold shift at o1 o2
  simp only at o1 o2
  -- the normal of `u` in terms of `u`
  have n1 : (leftNormal u).1 * norm2 u = -u.2 := by unfold leftNormal; simp only; field_simp
  have n2 : (leftNormal u).2 * norm2 u = u.1 := by unfold leftNormal; simp only; field_simp
  have hc : cross (vec o p) (leftNormal u) ≠ 0 := by
    intro h
    have : cross (vec o p) (leftNormal u) * norm2 u = norm2 u ^ 2 ∨ cross (vec o p) (leftNormal u) * norm2 u = -norm2 u ^ 2 := by
      rcases hq with hq | hq
      · left
        have h1 := congrArg Prod.fst hq
        have h2 := congrArg Prod.snd hq
        unfold vec at h1 h2
        simp only at h1 h2
        unfold cross vec
        simp only
        rw [o1, o2, hus]
        linear_combination (p.1 - a.1) * n2 - (p.2 - a.2) * n1 + u.1 * h1 + u.2 * h2
      · right
        have h1 := congrArg Prod.fst hq
        have h2 := congrArg Prod.snd hq
        unfold vec at h1 h2
        simp only at h1 h2
        unfold cross vec
        simp only
        rw [o1, o2, hus]
        linear_combination (p.1 - a.1) * n2 - (p.2 - a.2) * n1 - u.1 * h1 - u.2 * h2
    rw [h, zero_mul] at this
    rcases this with h | h <;> nlinarith
  have hlt := unit_dot_lt hn hw hc
  intro h
  have hpu : cross (vec a p) u = 0 := by
    rcases hq with hq | hq
    · rw [hq]; unfold cross; ring
    · rw [← hq]; unfold cross vec; ring
  have key : k * dot (vec o p) (leftNormal u) = d * norm2 (vec o p) := by
    have h' : cross (vec (shift a d (leftNormal u)) (away o k p)) u * norm2 (vec o p) = 0 := by rw [h, zero_mul]
    have e : cross (vec (shift a d (leftNormal u)) (away o k p)) u * norm2 (vec o p)
        = (cross (vec a p) u + d * norm2 u * dot (leftNormal u) (leftNormal u)) * norm2 (vec o p)
          - k * (norm2 u * dot (vec o p) (leftNormal u)) := by
      have d1 : norm2 (vec o p) ≠ 0 := hwp.ne'
      unfold away shift cross dot vec
      unfold vec at d1
      simp only at d1 ⊢
      field_simp
      linear_combination (-(d * norm2 (p.1 - o.1, p.2 - o.2) * (leftNormal u).1) + k * (p.1 - o.1)) * n1
        + (-(d * norm2 (p.1 - o.1, p.2 - o.2) * (leftNormal u).2) + k * (p.2 - o.2)) * n2
    have hdd : dot (leftNormal u) (leftNormal u) = 1 := by
      have := norm2_sq (leftNormal u)
      rw [hn] at this
      unfold dot; linarith
    rw [e, hpu, hdd] at h'
    have : norm2 u * (k * dot (vec o p) (leftNormal u) - d * norm2 (vec o p)) = 0 := by linarith
    rcases mul_eq_zero.mp this with h | h
    · exact absurd h hup.ne'
    · linarith
  have := congrArg abs key
  rw [abs_mul, abs_mul, hk, abs_of_pos hwp] at this
  have hdp : 0 < |d| := abs_pos.mpr hd
  have := mul_left_cancel₀ hdp.ne' this
  linarith

/-- C72: `scale(d)` with a number other than zero never keeps the direction of the curve, neither at its start nor at its end. -/
theorem C72_number_turns (b s : Bezier) (hb : QuadOrCubic b) (d : ℝ) (hd : d ≠ 0) (h : scale b (.const d) = .ok s) :
    cross (legs s.controlPoints).1 (legs b.controlPoints).1 ≠ 0 ∧ cross (legs s.controlPoints).2 (legs b.controlPoints).2 ≠ 0 := by
  have hne := ne_nil_of_quadOrCubic hb
  obtain ⟨hu, hv, hc⟩ := (C49_scale_raises b hb d).2.2.mp ⟨s, h⟩
  obtain ⟨o, s0, s1, s', h1, h2, h3, -, -, h4⟩ := C49_scale b hb d hne hu hv hc
  rw [h] at h3; cases h3
  have hk : |if b.clockwise = true then d else -d| = |d| := by split_ifs <;> simp
  have flip : ∀ x y w : Pt ℝ, cross (vec x y) w ≠ 0 → cross (vec y x) w ≠ 0 := by
    intro x y w hh he; apply hh; unfold cross vec at *; simp only at *; linarith
  rw [h4]
  obtain ⟨ps, t1, t2, dir, lin, cw⟩ := b
  rcases hb with hb | hb
  · match ps, hb with
    | [a, p, z], _ =>
      exact ⟨tangent_lost (a := a) (p := p) (u := vec a p) hu h1 (.inl rfl) hd hk,
        flip _ _ _ (tangent_lost (a := z) (p := p) (u := vec p z) hv h2 (.inr rfl) hd hk)⟩
  · match ps, hb with
    | [a, p, q, z], _ =>
      exact ⟨tangent_lost (a := a) (p := p) (u := vec a p) hu h1 (.inl rfl) hd hk,
        flip _ _ _ (tangent_lost (a := z) (p := q) (u := vec q z) hv h2 (.inr rfl) hd hk)⟩

/-- C72: `scale(f)` with a function `f` raises `ZeroDivisionError` for every quadratic. -/
theorem C72_function_quadratic (b : Bezier) (hb : b.controlPoints.length = 3) (f : ℝ → ℝ) :
    scale b (.fn f) = .error .zeroDivisionError := by
  obtain ⟨ps, t1, t2, dir, lin, cw⟩ := b
  match ps, hb with
  | [a, p, z], _ =>
    obtain ⟨qs, hq, hlen, -⟩ := C42_without_first [a, p, z] (by simp)
    have e0 : pyGet [a, p, z] ((0 : Nat) : Int) = .ok a := rfl
    have em : pyGet [a, p, z] (((0 : Nat) : Int) - 1) = .ok z := rfl
    have hfirst : ∃ q r, qs = a :: q :: r := by
      unfold raiseOrderPoints at hq
      simp only [pyGet_zero_cons, ok_bind] at hq
      obtain ⟨mid, hm, hq⟩ := bind_eq_ok.mp hq
      obtain ⟨last, hl, hq⟩ := bind_eq_ok.mp hq
      simp only [pure_eq_ok, Except.ok.injEq, List.cons_append, List.cons.injEq] at hq
      rw [mapM_eq_ok_iff] at hm
      have hr : List.range [a, p, z].length = [0, 1, 2] := rfl
      rw [hr] at hm
      cases hm with
      | cons h1 h2 =>
        cases h2 with
        | cons h2 h3 =>
          rw [e0, ok_bind, em, ok_bind, pdiv_of_ne _ (by norm_num), ok_bind, pdiv_of_ne _ (by norm_num), ok_bind] at h1
          simp only [pure_eq_ok, Except.ok.injEq] at h1
          have e : _ = a := h1.symm.trans (by ext <;> simp)
          rw [← hq.2, e]
          exact ⟨_, _, rfl⟩
    obtain ⟨q, r, rfl⟩ := hfirst
    simp only [List.head_cons] at hq
    obtain ⟨b', hb', hps, -⟩ := new_ok (a :: a :: q :: r) (by simp)
    have ho : order [a, p, z] = 2 := rfl
    unfold scale
    simp only [ho, if_true, raiseOrder, hq, ok_bind, hb']
    unfold scaleCore
    rw [hps]
    have hl : r.length = 2 := by simpa using hlen
    match r, hl with
    | [x, y], _ =>
      have hder : derivative [a, a, q, x, y] 0 = .ok (0, 0) := by
        unfold derivative
        rw [dcPoints_cons _ (by simp)]
        simp [order, derivativeOf, dcStep, pyGet]
      have hn : normal [a, a, q, x, y] 0 = .error .zeroDivisionError := by
        unfold normal
        rw [hder, ok_bind]
        simp
      have : offsetPoint [a, a, q, x, y] 0 10 = .error .zeroDivisionError := by
        unfold offsetPoint
        rw [get_ok _ (by simp), ok_bind, hn, error_bind]
      simp only [this, error_bind]

private theorem lli4_none {a b c d : Pt ℝ} (h : Parallel a b c d) : butils.lli4 a b c d = none := by
  have := (C28_none_iff a b c d).mpr h
  simpa [butils.lli] using this

private theorem lli4_some {a b c d p : Pt ℝ} (h : ¬ Parallel a b c d) (h1 : OnLine a b p) (h2 : OnLine c d p) :
    butils.lli4 a b c d = some p := by
  have := C28_complete a b c d p h h1 h2
  simpa [butils.lli] using this

/-- The line through the moved end point along the leg meets the line from `o` through the control point. -/
private theorem leg_meets {a p o u : Pt ℝ} {s r : ℝ} {e : ℝ} (hu : u ≠ (0, 0)) (ho : o = shift a s (leftNormal u))
    (hp : p = shift a e u) :
    let e0 := shift a r (leftNormal u)
    (s = 0 → butils.lli4 e0 (e0.1 + 3 * u.1, e0.2 + 3 * u.2) o p = none) ∧
    (s ≠ 0 → butils.lli4 e0 (e0.1 + 3 * u.1, e0.2 + 3 * u.2) o p = some (shift e0 (e * ((s - r) / s)) u) ∧
      OnLine o p (shift e0 (e * ((s - r) / s)) u)) := by
  intro e0
  have hup := norm2_pos hu
  have hus := norm2_sq u
  have n1 : (leftNormal u).1 * norm2 u = -u.2 := by unfold leftNormal; simp only; field_simp
  have n2 : (leftNormal u).2 * norm2 u = u.1 := by unfold leftNormal; simp only; field_simp
  constructor
  · intro hs
    apply lli4_none
    rw [ho, hp, hs]
    unfold Parallel shift
    simp only
    ring
  · intro hs
    have hon : OnLine o p (shift e0 (e * ((s - r) / s)) u) := by
      refine ⟨(s - r) / s, ?_, ?_⟩
      · rw [ho, hp]; simp only [e0]; unfold shift; simp only; field_simp; ring
      · rw [ho, hp]; simp only [e0]; unfold shift; simp only; field_simp; ring
    refine ⟨lli4_some ?_ ?_ hon, hon⟩
    · intro h
      unfold Parallel at h
      rw [ho, hp] at h
      unfold shift at h
      simp only at h
      have : s * norm2 u ^ 2 = 0 := by
        have : 3 * s * (u.1 * (leftNormal u).2 - u.2 * (leftNormal u).1) = 0 := by linear_combination -h
        rw [hus]
        linear_combination (1 / 3 * norm2 u) * this - s * u.1 * n2 + s * u.2 * n1
      rcases mul_eq_zero.mp this with h | h
      · exact hs h
      · exact absurd h (by positivity)
    · refine ⟨e * ((s - r) / s) / 3, ?_, ?_⟩ <;> · unfold shift; simp only; ring

/-- C72: `scale(f)` with a function `f`, for a cubic whose end normals are not parallel and meet in `o`. It raises `TypeError` when `o` is
one of the end points. Otherwise the end points are moved by `f(0)` and `f(1)` along the end normals, the first and the last leg are
multiples of those of the curve, by the factors by which the distances of the end points from `o` change, and the inner control points
stay on their lines through `o`. -/
theorem C72_function_cubic (b : Bezier) (a p q z : Pt ℝ) (hb : b.controlPoints = [a, p, q, z]) (f : ℝ → ℝ)
    (hu : vec a p ≠ (0, 0)) (hv : vec q z ≠ (0, 0)) (hc : cross (vec a p) (vec q z) ≠ 0) :
    ∃ o s0 s1, o = shift a s0 (leftNormal (vec a p)) ∧ o = shift z s1 (leftNormal (vec q z)) ∧
      (s0 = 0 ∨ s1 = 0 → scale b (.fn f) = .error .typeError) ∧
      (s0 ≠ 0 → s1 ≠ 0 → ∃ s a' p' q' z', scale b (.fn f) = .ok s ∧ s.controlPoints = [a', p', q', z'] ∧
        a' = shift a (f 0) (leftNormal (vec a p)) ∧ z' = shift z (f 1) (leftNormal (vec q z)) ∧
        p' = shift a' ((s0 - f 0) / s0) (vec a p) ∧ z' = shift q' ((s1 - f 1) / s1) (vec q z) ∧
        OnLine o p p' ∧ OnLine o q q') := by
  have hq : QuadOrCubic b := .inr (by rw [hb]; rfl)
  have hne := ne_nil_of_quadOrCubic hq
  have hstart := scaleCore_start b hq (.fn f) hne
  have hl : legs b.controlPoints = (vec a p, vec q z) := by rw [hb]; rfl
  have h0 : b.controlPoints.head hne = a := by simp [hb]
  have h1 : b.controlPoints.getLast hne = z := by simp [hb]
  simp only [hl, h0, h1] at hstart
  obtain ⟨o, s0, s1, e1, e2, e3⟩ := hstart.2.2 hu hv hc
  refine ⟨o, s0, s1, e1, e2, ?_⟩
  have ho : order b.controlPoints = 3 := by rw [hb]; rfl
  have hs : scale b (.fn f) = scaleRest b (.fn f) (leftNormal (vec a p)) (leftNormal (vec q z)) o := by
    rw [scale]
    simp only [ho]
    rw [if_neg (by norm_num), e3]
  have d0 : derivative [a, p, q, z] ((0 : Nat) : ℝ) = .ok (3 * (vec a p).1, 3 * (vec a p).2) := by
    rw [derivative_ok _ (.inr rfl)]
    simp [dcStep, curve_three, vec]
  have d1 : derivative [a, p, q, z] ((1 : Nat) : ℝ) = .ok (3 * (vec q z).1, 3 * (vec q z).2) := by
    rw [derivative_ok _ (.inr rfl)]
    simp [dcStep, curve_three, vec]
  have m0 := leg_meets (p := p) (r := f 0) (e := 1) hu e1 (by unfold shift vec; ext <;> simp)
  have m1 := leg_meets (p := q) (r := f 1) (e := -1) hv e2 (by unfold shift vec; ext <;> simp)
  have g1 : pyGet [a, p, q, z] ((0 + 1 : Nat) : Int) = .ok p := rfl
  have g2 : pyGet [a, p, q, z] ((1 + 1 : Nat) : Int) = .ok q := rfl
  have g3 : pyGet [a, p, q, z] ((3 : Nat) : Int) = .ok z := rfl
  have k0 : ∀ w x y v : Pt ℝ, pyGet [w, x, y, v] ((0 * 3 : Nat) : Int) = .ok w := fun _ _ _ _ => rfl
  have r4 : List.replicate (3 + 1) ((0 : ℝ), (0 : ℝ)) = [(0, 0), (0, 0), (0, 0), (0, 0)] := rfl
  have unf : scaleRest b (.fn f) (leftNormal (vec a p)) (leftNormal (vec q z)) o =
      (match butils.lli4 (shift a (f 0) (leftNormal (vec a p))) ((shift a (f 0) (leftNormal (vec a p))).1 + 3 * (vec a p).1,
          (shift a (f 0) (leftNormal (vec a p))).2 + 3 * (vec a p).2) o p with
        | none => .error .typeError
        | some x =>
          match butils.lli4 (shift z (f 1) (leftNormal (vec q z))) ((shift z (f 1) (leftNormal (vec q z))).1 + 3 * (vec q z).1,
              (shift z (f 1) (leftNormal (vec q z))).2 + 3 * (vec q z).2) o q with
          | none => .error .typeError
          | some y => new [shift a (f 0) (leftNormal (vec a p)), x, y, shift z (f 1) (leftNormal (vec q z))]) := by
    unfold scaleRest
    rw [hb]
    simp only [pyGet_zero_cons, List.range_succ, List.range_zero, List.nil_append, List.cons_append, List.foldlM_cons,
      List.foldlM_nil, List.length_cons, List.length_nil, Nat.add_sub_cancel, ok_bind, g1, g2, g3, d0, pure_eq_ok, r4,
      List.set_cons_zero, List.set_cons_succ, List.set_cons_succ, k0]
    unfold shift
    simp only
    cases butils.lli4 (a.1 + f 0 * (leftNormal (vec a p)).1, a.2 + f 0 * (leftNormal (vec a p)).2)
      (a.1 + f 0 * (leftNormal (vec a p)).1 + 3 * (vec a p).1, a.2 + f 0 * (leftNormal (vec a p)).2 + 3 * (vec a p).2) o p with
    | none => simp
    | some x =>
      simp only [show ¬ ((2 + 1 = 2) ∧ 0 > 0) by omega, show ¬ ((2 + 1 = 2) ∧ 1 > 0) by omega, if_false, ok_bind, d1, g2,
        List.set_cons_zero, List.set_cons_succ]
      have k : ∀ w x y v : Pt ℝ, pyGet [w, x, y, v] ((1 * (0 + 1 + 1 + 1) : Nat) : Int) = .ok v := fun _ _ _ _ => rfl
      rw [k, ok_bind]
      cases butils.lli4 (z.1 + f 1 * (leftNormal (vec q z)).1, z.2 + f 1 * (leftNormal (vec q z)).2)
        (z.1 + f 1 * (leftNormal (vec q z)).1 + 3 * (vec q z).1, z.2 + f 1 * (leftNormal (vec q z)).2 + 3 * (vec q z).2) o q <;> rfl
  rw [hs, unf]
  constructor
  · rintro (h | h)
    · rw [m0.1 h]
    · rw [m1.1 h]
      cases butils.lli4 (shift a (f 0) (leftNormal (vec a p))) ((shift a (f 0) (leftNormal (vec a p))).1 + 3 * (vec a p).1,
          (shift a (f 0) (leftNormal (vec a p))).2 + 3 * (vec a p).2) o p <;> rfl
  · intro h h'
    obtain ⟨x1, x2⟩ := m0.2 h
    obtain ⟨y1, y2⟩ := m1.2 h'
    rw [x1, y1]
    simp only
    obtain ⟨s, t1, t2, -⟩ := new_ok [shift a (f 0) (leftNormal (vec a p)),
      shift (shift a (f 0) (leftNormal (vec a p))) (1 * ((s0 - f 0) / s0)) (vec a p),
      shift (shift z (f 1) (leftNormal (vec q z))) (-1 * ((s1 - f 1) / s1)) (vec q z),
      shift z (f 1) (leftNormal (vec q z))] (by simp)
    refine ⟨s, _, _, _, _, t1, t2, rfl, rfl, by rw [one_mul], ?_, x2, y2⟩
    unfold shift; ext <;> simp only <;> ring

/-! ## C49: `offset(t)` -/

private theorem map_shift (ps : Segment ℝ) (h : ps ≠ []) (t : ℝ) (n : Pt ℝ) (x : ℝ) :
    curve (ps.map fun p => (p.1 + t * n.1, p.2 + t * n.2)) x = shift (curve ps x) t n := by
  have e : (fun p : Pt ℝ => (p.1 + t * n.1, p.2 + t * n.2)) = affineMap 1 0 0 1 (t * n.1) (t * n.2) := by
    funext p; unfold affineMap; ext <;> simp
  rw [e, curve_affine _ _ _ _ _ _ _ h]
  unfold affineMap shift; ext <;> simp

private theorem offsetLinear_ok (b : Bezier) (h2 : 2 ≤ b.controlPoints.length) (t : ℝ) (n : Pt ℝ)
    (hn : normal b.controlPoints 0 = .ok n) :
    ∃ c, offsetLinear b t = .ok c ∧ c.controlPoints.length = b.controlPoints.length ∧
      ∀ x, curve c.controlPoints x = shift (curve b.controlPoints x) t n := by
  have hne : b.controlPoints ≠ [] := by intro h; rw [h] at h2; simp at h2
  obtain ⟨c, h3, h4, -⟩ := new_ok (b.controlPoints.map fun p => (p.1 + t * n.1, p.2 + t * n.2)) (by simpa using h2)
  refine ⟨c, by rw [offsetLinear, hn, ok_bind, h3], by rw [h4]; simp, ?_⟩
  intro x
  rw [h4]; exact map_shift _ hne _ _ _

/-- C49: `offset(t)` of a linear quadratic or cubic is a single curve of the same order, the curve moved by `t` along its normal at the
start. It raises `ZeroDivisionError` when the first leg has length zero. -/
theorem C49_linear (b : Bezier) (hb : QuadOrCubic b) (hl : b.linear = true) (t : ℝ) :
    ((legs b.controlPoints).1 = (0, 0) → offset b t none = .error .zeroDivisionError) ∧
    ((legs b.controlPoints).1 ≠ (0, 0) → ∃ c, offset b t none = .ok (.curves [c]) ∧
      c.controlPoints.length = b.controlPoints.length ∧
      ∀ x, curve c.controlPoints x = shift (curve b.controlPoints x) t (leftNormal (legs b.controlPoints).1)) := by
  obtain ⟨a1, a2, -⟩ := legs_normal b.controlPoints hb
  have e : offset b t none = offsetLinear b t >>= fun c => .ok (.curves [c]) := by
    unfold offset offsetCurves
    simp only [hl, if_true]
    cases offsetLinear b t <;> rfl
  rw [e]
  constructor
  · intro h
    unfold offsetLinear
    rw [a1 h]; rfl
  · intro h
    obtain ⟨c, h1, h2, h3⟩ := offsetLinear_ok b (by rcases hb with h | h <;> omega) t _ (a2 h)
    exact ⟨c, by rw [h1]; rfl, h2, h3⟩

/-- C49: for a line `offset` always raises `IndexError` when the curve is linear, and `offset(t, d)` with `d ≠ 0` always does. -/
theorem C49_line (b : Bezier) (p q : Pt ℝ) (hb : b.controlPoints = [p, q]) (t : ℝ) :
    (∀ d, d ≠ 0 → offset b t (some d) = .error .indexError) ∧ (b.linear = true → offset b t none = .error .indexError) := by
  have hn : ∀ t, normal b.controlPoints t = .error .indexError := by intro t; rw [hb]; exact (C36_line p q t).2
  constructor
  · intro d hd
    unfold offset
    simp only [if_pos hd, offsetPoint, get_ok b.controlPoints (by rw [hb]; simp), ok_bind, hn, error_bind]
  · intro hl
    unfold offset offsetCurves offsetLinear
    simp only [hl, if_true, hn, error_bind]

/-- `normal` of a part of a curve is `normal` of the curve. -/
theorem normal_part {ps qs : Segment ℝ} {a e : ℝ} (hlt : a < e) (hp : ps.length = 3 ∨ ps.length = 4)
    (hq : qs.length = 3 ∨ qs.length = 4) (hc : ∀ s, curve qs s = curve ps (a + s * (e - a))) (s : ℝ) :
    normal qs s = normal ps (a + s * (e - a)) := by
  have hin : HasDerivAt (fun s : ℝ => a + s * (e - a)) (e - a) s := by
    simpa using ((hasDerivAt_id s).mul_const (e - a)).const_add a
  obtain ⟨x1, y1⟩ := hasDerivAt_curve_step qs (by omega) s
  obtain ⟨x2, y2⟩ := hasDerivAt_curve_step ps (by omega) (a + s * (e - a))
  have x3 := HasDerivAt.comp s x2 hin
  have y3 := HasDerivAt.comp s y2 hin
  simp only [hc] at x1 y1
  have hd : curve (dcStep qs) s = ((e - a) * (curve (dcStep ps) (a + s * (e - a))).1, (e - a) * (curve (dcStep ps) (a + s * (e - a))).2) := by
    ext
    · simp only; rw [mul_comm]; exact x1.unique (by simpa [Function.comp_def] using x3)
    · simp only; rw [mul_comm]; exact y1.unique (by simpa [Function.comp_def] using y3)
  obtain ⟨h1, h2⟩ := normal_end qs hq s _ (e - a) (by linarith) hd
  obtain ⟨h3, h4⟩ := normal_end ps hp (a + s * (e - a)) (curve (dcStep ps) (a + s * (e - a))) 1 one_pos (by simp)
  by_cases hz : curve (dcStep ps) (a + s * (e - a)) = (0, 0)
  · rw [h1 hz, h3 hz]
  · rw [h2 hz, h4 hz]

private theorem tiles_mem {ps : Segment ℝ} {a e : ℝ} {l : List Bezier} (h : TilesFrom ps a e l) : ∀ q ∈ l,
    q.t1 < q.t2 ∧ q.controlPoints.length = ps.length ∧
      ∀ s, curve q.controlPoints s = curve ps (q.t1 + s * (q.t2 - q.t1)) := by
  induction l generalizing a with
  | nil => simp
  | cons x l ih =>
    obtain ⟨_, a2, a3, a4, a5⟩ := h
    intro q hq
    rcases List.mem_cons.mp hq with rfl | hq
    · exact ⟨a2, a3, a4⟩
    · exact ih a5 q hq

/-- `c` is what `offset(t)` must make of the part `p` of the curve `b`: it starts at the signed distance `t` from the start of the part,
along the normal of the curve there; it ends likewise, or, for a linear part, is the part moved along that normal. -/
def Spec.OffsetOf (b : Bezier) (t : ℝ) (p c : Bezier) : Prop :=
  c.controlPoints.length = b.controlPoints.length ∧
  ∃ n, normal b.controlPoints p.t1 = .ok n ∧ curve c.controlPoints 0 = shift (curve b.controlPoints p.t1) t n ∧
    (p.linear = true → ∀ x, curve c.controlPoints x = shift (curve b.controlPoints (p.t1 + x * (p.t2 - p.t1))) t n) ∧
    (p.linear = false → ∃ m, normal b.controlPoints p.t2 = .ok m ∧
      curve c.controlPoints 1 = shift (curve b.controlPoints p.t2) t m)

/-- C49: `offset(t)` of a curve that is not linear returns one curve for every part that `reduce()` returns, each starting and ending at
the signed distance `t` from the ends of its part along the normals of the curve. -/
theorem C49_curves (b : Bezier) (hb : QuadOrCubic b) (hl : b.linear = false) (t : ℝ) (res : OffsetResult)
    (h : offset b t none = .ok res) :
    ∃ r l, reduce b = .ok r ∧ res = .curves l ∧ List.Forall₂ (OffsetOf b t) r l := by
  unfold offset offsetCurves at h
  simp only [hl, Bool.false_eq_true, if_false] at h
  obtain ⟨l, h1, h2⟩ := bind_eq_ok.mp h
  obtain ⟨r, h3, h4⟩ := bind_eq_ok.mp h1
  refine ⟨r, l, h3, (Except.ok.inj h2).symm, ?_⟩
  rw [mapM_eq_ok_iff] at h4
  by_cases hr : r = []
  · subst hr; cases h4; exact .nil
  have ht := tiles_mem (C48_tiles b hb r h3 hr)
  refine List.forall₂_iff_get.mpr ?_
  obtain ⟨hlen, hget⟩ := List.forall₂_iff_get.mp h4
  refine ⟨hlen, ?_⟩
  intro i hi1 hi2
  have hcase := hget i hi1 hi2
  obtain ⟨k1, k2, k3⟩ := ht _ (List.get_mem r ⟨i, hi1⟩)
  generalize r.get ⟨i, hi1⟩ = p at *
  generalize l.get ⟨i, hi2⟩ = c at *
  have hp : QuadOrCubic p := by unfold QuadOrCubic; rw [k2]; exact hb
  have hpne := ne_nil_of_quadOrCubic hp
  have np := fun s => normal_part k1 hb hp k3 s
  have np0 : normal p.controlPoints 0 = normal b.controlPoints p.t1 := by rw [np 0]; congr 1; ring
  have np1 : normal p.controlPoints 1 = normal b.controlPoints p.t2 := by rw [np 1]; congr 1; ring
  have c0 : curve p.controlPoints 0 = curve b.controlPoints p.t1 := by rw [k3 0]; congr 1; ring
  have c1 : curve p.controlPoints 1 = curve b.controlPoints p.t2 := by rw [k3 1]; congr 1; ring
  obtain ⟨a1, a2, a3, a4⟩ := legs_normal p.controlPoints hp
  by_cases hpl : p.linear = true
  · rw [if_pos hpl] at hcase
    have hu : (legs p.controlPoints).1 ≠ (0, 0) := by
      intro hz; unfold offsetLinear at hcase; rw [a1 hz] at hcase; cases hcase
    obtain ⟨c', e1, e2, e3⟩ := offsetLinear_ok p (by rcases hp with h | h <;> omega) t _ (a2 hu)
    rw [e1] at hcase; cases hcase
    refine ⟨by rw [e2, k2], _, np0 ▸ a2 hu, by rw [e3, c0], fun _ x => by rw [e3, k3], fun hf => by rw [hpl] at hf; cases hf⟩
  · rw [if_neg hpl] at hcase
    obtain ⟨hu, hv, hc⟩ := (C49_scale_raises p hp t).2.2.mp ⟨c, hcase⟩
    obtain ⟨o, s0, s1, s', _, _, e3, e4, -, e5⟩ := C49_scale p hp t hpne hu hv hc
    rw [hcase] at e3; cases e3
    have hcne : c.controlPoints ≠ [] := by rw [e5]; simp
    refine ⟨by rw [e4, k2], _, np0 ▸ a2 hu, ?_, fun hf => absurd hf hpl, fun _ => ⟨_, np1 ▸ a4 hv, ?_⟩⟩
    · rw [curve_zero _ hcne, ← c0, curve_zero _ hpne]; simp only [e5, List.head_cons]; rfl
    · rw [curve_at_one _ hcne, ← c1, curve_at_one _ hpne]
      have : c.controlPoints.getLast hcne = shift (p.controlPoints.getLast hpne) t (leftNormal (legs p.controlPoints).2) := by
        simp only [e5]
        rw [List.getLast_cons (by simp), List.getLast_append_of_ne_nil _ (by simp)]
        simp
      exact this

/-- C49: where two parts that are not linear meet, the offset curves meet as well. -/
theorem C49_joined (b p q c c' : Bezier) (t : ℝ) (hp : OffsetOf b t p c) (hq : OffsetOf b t q c') (hl : p.linear = false)
    (hj : p.t2 = q.t1) : curve c.controlPoints 1 = curve c'.controlPoints 0 := by
  obtain ⟨-, n, -, -, -, h1⟩ := hp
  obtain ⟨-, n', h2, h3, -⟩ := hq
  obtain ⟨m, h4, h5⟩ := h1 hl
  rw [h5, h3, ← hj]
  rw [hj, h2] at h4
  cases h4; rfl

/-- All points are on one line. -/
def Spec.Collinear (ps : Segment ℝ) : Prop := ∃ a u : Pt ℝ, u ≠ (0, 0) ∧ ∀ p ∈ ps, cross u (vec a p) = 0

private theorem collinear_of_parallel (ps : Segment ℝ) (h : ps.length = 3 ∨ ps.length = 4) (hu : (legs ps).1 ≠ (0, 0))
    (hs : ¬ SShaped ps) (hd : 0 < dot (legs ps).1 (legs ps).2) (hc : cross (legs ps).1 (legs ps).2 = 0) : Collinear ps := by
  rcases h with h | h
  · match ps, h with
    | [a, p, z], _ =>
      refine ⟨a, vec a p, hu, ?_⟩
      simp only [legs] at hc
      intro x hx
      simp only [List.mem_cons, List.not_mem_nil, or_false] at hx
      rcases hx with rfl | rfl | rfl
      · unfold cross vec; simp
      · unfold cross vec; ring
      · unfold cross vec at *; simp only at *; linarith
  · match ps, h with
    | [a, p, q, z], _ =>
      simp only [legs] at hc hd hu
      have hup := norm2_pos hu
      have hus := norm2_sq (vec a p)
      have key : norm2 (vec a p) ^ 2 * cross (vec a z) (vec q z) = dot (vec a p) (vec q z) * cross (vec a z) (vec a p) := by
        rw [hus]
        unfold cross dot at *
        linear_combination ((vec a z).1 * (vec a p).1 + (vec a z).2 * (vec a p).2) * hc
      have hq : cross (vec a z) (vec a q) = -cross (vec a z) (vec q z) := by unfold cross vec; simp only; ring
      have hz : cross (vec a z) (vec a p) = 0 := by
        by_contra hne
        apply hs
        rcases lt_or_gt_of_ne hne with hlt | hgt
        · right
          refine ⟨hlt, .inl ?_⟩
          rw [hq]
          by_contra hle
          have : 0 ≤ norm2 (vec a p) ^ 2 * cross (vec a z) (vec q z) := mul_nonneg (by positivity) (by linarith)
          nlinarith
        · left
          refine ⟨.inl hgt, ?_⟩
          unfold RightOf
          rw [hq]
          by_contra hle
          have : norm2 (vec a p) ^ 2 * cross (vec a z) (vec q z) ≤ 0 := mul_nonpos_of_nonneg_of_nonpos (by positivity) (by linarith)
          nlinarith
      refine ⟨a, vec a p, hu, ?_⟩
      intro x hx
      simp only [List.mem_cons, List.not_mem_nil, or_false] at hx
      rcases hx with rfl | rfl | rfl | rfl
      · unfold cross vec; simp
      · unfold cross vec; ring
      · unfold cross vec at *; simp only at *; linarith
      · unfold cross vec at *; simp only at *; linarith

/-- C49: `offset(t)` of a curve that is not linear raises only when the curve stops somewhere (`ZeroDivisionError`), or when one of the
parts has all its control points on one line without being recognised as linear (`ValueError`). -/
theorem C49_raises (b : Bezier) (hb : QuadOrCubic b) (hl : b.linear = false) (t : ℝ) (e : PyErr)
    (h : offset b t none = .error e) :
    (e = .zeroDivisionError ∧ ∃ x, 0 ≤ x ∧ x ≤ 1 ∧ StopsAt b.controlPoints x) ∨
    (e = .valueError ∧ ∃ r, reduce b = .ok r ∧ ∃ p ∈ r, p.linear = false ∧ Collinear p.controlPoints) := by
  unfold offset offsetCurves at h
  simp only [hl, Bool.false_eq_true, if_false] at h
  cases hr : reduce b with
  | error e' =>
    rw [hr] at h
    simp only [error_bind] at h
    cases h
    exact .inl (C48_raises b hb _ hr)
  | ok r =>
    rw [hr, ok_bind] at h
    right
    have merr : ∀ (f : Bezier → Py Bezier) (l : List Bezier) (e : PyErr), l.mapM f = .error e → ∃ x ∈ l, f x = .error e := by
      intro f l
      induction l with
      | nil => intro e he; simp [pure_eq_ok] at he
      | cons x l ih =>
        intro e he
        rw [List.mapM_cons] at he
        cases hx : f x with
        | error e' => rw [hx, error_bind] at he; cases he; exact ⟨x, by simp, hx⟩
        | ok y =>
          rw [hx, ok_bind] at he
          cases hm : l.mapM f with
          | error e' =>
            rw [hm, error_bind] at he; cases he
            obtain ⟨z, hz, hz'⟩ := ih _ hm
            exact ⟨z, List.mem_cons_of_mem _ hz, hz'⟩
          | ok ys => rw [hm] at he; cases he
    cases hm : (r.mapM fun r => if r.linear then offsetLinear r t else scale r (.const t)) with
    | ok ys => rw [hm] at h; cases h
    | error e' =>
      rw [hm, error_bind] at h; cases h
      obtain ⟨p, hp, hpe⟩ := merr _ _ _ hm
      have hrne : r ≠ [] := List.ne_nil_of_mem hp
      obtain ⟨k1, k2, k3⟩ := tiles_mem (C48_tiles b hb r hr hrne) p hp
      have hpq : QuadOrCubic p := by unfold QuadOrCubic; rw [k2]; exact hb
      have hsimple := C48_simple b hb r hr p hp
      rw [C71_simple _ hpq] at hsimple
      by_cases c1 : SShaped p.controlPoints
      · rw [if_pos c1] at hsimple; simp at hsimple
      rw [if_neg c1] at hsimple
      by_cases c2 : (legs p.controlPoints).1 = (0, 0) ∨ (legs p.controlPoints).2 = (0, 0)
      · rw [if_pos c2] at hsimple; cases hsimple
      rw [if_neg c2] at hsimple
      push Not at c2
      obtain ⟨hu, hv⟩ := c2
      simp only [Except.ok.injEq, decide_eq_true_eq] at hsimple
      have hdot : 0 < dot (legs p.controlPoints).1 (legs p.controlPoints).2 := by
        have := mul_pos (norm2_pos hu) (norm2_pos hv)
        linarith
      by_cases hpl : p.linear = true
      · rw [if_pos hpl] at hpe
        obtain ⟨c, hc, -⟩ := offsetLinear_ok p (by rcases hpq with h | h <;> omega) t _ ((legs_normal _ hpq).2.1 hu)
        rw [hc] at hpe; cases hpe
      · rw [if_neg hpl] at hpe
        obtain ⟨r1, r2, r3⟩ := C49_scale_raises p hpq t
        by_cases hc : cross (legs p.controlPoints).1 (legs p.controlPoints).2 = 0
        · rw [r2.mpr ⟨hu, hv, hc⟩] at hpe
          cases hpe
          exact ⟨rfl, r, rfl, p, hp, by simpa using hpl, collinear_of_parallel _ hpq hu c1 hdot hc⟩
        · obtain ⟨s, hs⟩ := r3.mpr ⟨hu, hv, hc⟩
          rw [hs] at hpe; cases hpe

/-! ## Concrete cases -/

/-- The hypotheses of `C49_scale`, `C72_number_turns` are met by this arch. -/
example : legs [(0, 0), (1, 1), (2, 0)] = ((1, 1), (1, -1)) ∧ cross (1, 1) (1, -1) ≠ 0 := by
  constructor
  · simp [legs, vec]; norm_num
  · unfold cross; norm_num

/-- `scale(1)` of that arch: the tip moves by 1, the ends by 1 along the normals. -/
example : ∃ b s, Bezier.new [(0, 0), (1, 1), (2, 0)] = .ok b ∧ scale b (.const 1) = .ok s ∧
    s.controlPoints = [(-1 / Real.sqrt 2, 1 / Real.sqrt 2), (1, 2), (2 + 1 / Real.sqrt 2, 1 / Real.sqrt 2)] := by
  obtain ⟨b, hb, hps, -⟩ := new_ok [(0, 0), (1, 1), (2, 0)] (by simp)
  have hq : QuadOrCubic b := .inl (by rw [hps]; rfl)
  have hcw := C49_clockwise _ b hb (0, 0) (2, 0) (1, 1) rfl rfl rfl
  have hcw' : b.clockwise = true := hcw.mpr (.inl (by unfold cross vec; norm_num))
  have hl : legs [((0:ℝ), (0:ℝ)), (1, 1), (2, 0)] = ((1, 1), (1, -1)) := by simp [legs, vec]; norm_num
  have h2 : (0:ℝ) < Real.sqrt 2 := by positivity
  have n0 : leftNormal ((1:ℝ), (1:ℝ)) = (-1 / Real.sqrt 2, 1 / Real.sqrt 2) := by
    unfold leftNormal norm2; norm_num
  have n1 : leftNormal ((1:ℝ), (-1:ℝ)) = (1 / Real.sqrt 2, 1 / Real.sqrt 2) := by
    unfold leftNormal norm2; norm_num
  have := C49_scale b hq 1 (ne_nil_of_quadOrCubic hq)
  simp only [hps, hl] at this
  obtain ⟨o, s0, s1, s, e1, e2, e3, -, -, e4⟩ := this (by simp) (by simp) (by unfold cross; norm_num)
  refine ⟨b, s, hb, e3, ?_⟩
  rw [n0] at e1 e4
  rw [n1] at e2 e4
  have ho : o = (1, -1) := by
    unfold shift at e1 e2
    simp only [List.head_cons, List.getLast_cons_cons, List.getLast_singleton] at e1 e2
    have a1 := congrArg Prod.fst e1
    have a2 := congrArg Prod.snd e1
    have b1 := congrArg Prod.fst e2
    have b2 := congrArg Prod.snd e2
    simp only at a1 a2 b1 b2
    have a1' : o.1 = -(s0 * (1 / Real.sqrt 2)) := by rw [a1]; ring
    ext <;> simp only <;> linarith
  rw [e4, ho, hcw']
  have hn : norm2 (0, 2) = 2 := by
    unfold norm2; simp
  have hv : vec ((1:ℝ), (-1:ℝ)) (1, 1) = (0, 2) := by unfold vec; norm_num
  simp only [inner, List.tail_cons, List.dropLast_cons_cons, List.dropLast_singleton, List.map_cons, List.map_nil, if_true, away, hv,
    hn]
  unfold shift
  simp
  norm_num

/-- The hypotheses of `C72_function_cubic` are met, with both end points away from the common point of the normals. -/
example : vec ((0:ℝ), (0:ℝ)) (0, 1) ≠ (0, 0) ∧ cross (vec ((0:ℝ), (0:ℝ)) (0, 1)) (vec ((1:ℝ), (2:ℝ)) (2, 2)) ≠ 0 := by
  constructor
  · unfold vec; simp
  · unfold cross vec; norm_num
