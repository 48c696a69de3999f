import Verif.Model.BezierCache
import Verif.Lemmas.BezierBounds

set_option linter.unusedSectionVars false
set_option linter.unusedSimpArgs false

/-!
# The caches of a curve object: C38

`Call` lists the calls that read or fill a cache. The theorems speak about the state after an arbitrary sequence of calls on a
freshly constructed object.
-/

namespace PathLib
open Spec Bezier

/-- A call on a curve object (the argument of `overlaps` is the rectangle of the other curve). -/
inductive Spec.Call
  | dcPoints
  | derivative (t : ℝ)
  | normal (t : ℝ)
  | extrema
  | bbox
  | boundsRectangle
  | getLUT (steps : Int)
  | length
  | reduce
  | overlaps (r : BoundsRectangle ℝ)

/-- The state after a call, whether it returned or raised. -/
noncomputable def Spec.Call.run : Call → World → World
  | .dcPoints, w => (World.dcPoints w).2
  | .derivative t, w => (World.derivative t w).2
  | .normal t, w => (World.normal t w).2
  | .extrema, w => (World.extrema w).2
  | .bbox, w => (World.bbox w).2
  | .boundsRectangle, w => (World.boundsRectangle w).2
  | .getLUT n, w => (World.getLUT n w).2
  | .length, w => (World.length w).2
  | .reduce, w => (World.reduce w).2
  | .overlaps r, w => (World.overlaps r w).2

/-- The state after a sequence of calls on a new object. -/
noncomputable def Spec.after (b : Bezier) (prec : Int) (calls : List Call) : World :=
  calls.foldl (fun w c => c.run w) ⟨{ val := b }, prec⟩

/-- The invariant of the caches. -/
structure Coherent (b : Bezier) (w : World) : Prop where
  val : w.obj.val = b
  dc : w.obj.dc = none ∨ w.obj.dc = some (dcPoints b.controlPoints)
  ext : w.obj.ext = none ∨ ∃ e e0, w.obj.ext = some e ∧ extrema b.controlPoints = .ok e0 ∧
    (e.x = e0.x ∨ e.x = addEnds e0.x) ∧ (e.y = e0.y ∨ e.y = addEnds e0.y) ∧
    (e.all = e0.all ∨ e.all = addEnds e0.all)
  len : w.obj.len = none ∨ ∃ l, w.obj.len = some l ∧ lengthOf b.controlPoints = .ok l
  box : w.obj.box = none ∨ ∃ l, w.obj.box = some l ∧ bbox b.controlPoints = .ok l
  rect : w.obj.rect = none ∨ ∃ l, w.obj.rect = some l ∧ boundsRectangle b.controlPoints = .ok l
  lut : lutOf b.controlPoints w.obj.lut.length = .ok w.obj.lut

namespace Coherent

theorem fresh (b : Bezier) (prec : Int) : Coherent b ⟨{ val := b }, prec⟩ where
  val := rfl
  dc := .inl rfl
  ext := .inl rfl
  len := .inl rfl
  box := .inl rfl
  rect := .inl rfl
  lut := by simp [lutOf]

theorem prec {b : Bezier} {w : World} (h : Coherent b w) (p : Int) : Coherent b { w with prec := p } :=
  ⟨h.val, h.dc, h.ext, h.len, h.box, h.rect, h.lut⟩

variable {b : Bezier} {w : World}

theorem pts (h : Coherent b w) : w.obj.pts = b.controlPoints := by
  unfold CachedBezier.pts; rw [h.val]

theorem dcPoints (h : Coherent b w) : (World.dcPoints w).1 = .ok (Bezier.dcPoints b.controlPoints) ∧
    Coherent b (World.dcPoints w).2 ∧ (World.dcPoints w).2.prec = w.prec := by
  unfold World.dcPoints
  have hp := h.pts
  split
  · rename_i d ds hd
    rcases h.dc with e | e
    · rw [e] at hd; cases hd
    · rw [e] at hd
      exact ⟨by rw [← Option.some.inj hd], h, rfl⟩
  · exact ⟨by simp only [hp], ⟨h.val, .inr (by simp only [hp]), h.ext, h.len, h.box, h.rect, h.lut⟩, rfl⟩

theorem derivative (h : Coherent b w) (t : ℝ) :
    (World.derivative t w).1 = Bezier.derivative b.controlPoints t ∧
    Coherent b (World.derivative t w).2 ∧ (World.derivative t w).2.prec = w.prec := by
  unfold World.derivative Bezier.derivative
  obtain ⟨h1, h2, h3⟩ := h.dcPoints
  generalize World.dcPoints w = r at h1 h2 h3
  obtain ⟨r, w'⟩ := r
  simp only at h1 h2 h3
  subst h1
  exact ⟨by simp only [h2.pts], h2, h3⟩

theorem normal (h : Coherent b w) (t : ℝ) :
    (World.normal t w).1 = Bezier.normal b.controlPoints t ∧
    Coherent b (World.normal t w).2 := by
  unfold World.normal Bezier.normal
  obtain ⟨h1, h2, h3⟩ := h.derivative t
  generalize World.derivative t w = r at h1 h2 h3
  obtain ⟨r, w'⟩ := r
  simp only at h1 h2
  rw [← h1]
  cases r with
  | error e => exact ⟨rfl, h2⟩
  | ok d => exact ⟨rfl, h2⟩

theorem extrema (h : Coherent b w) :
    (∀ e, (World.extrema w).1 = .error e ↔ Bezier.extrema b.controlPoints = .error e) ∧
    (∀ e, (World.extrema w).1 = .ok e → (World.extrema w).2.obj.ext = some e ∧
      ∃ e0, Bezier.extrema b.controlPoints = .ok e0 ∧
      (e.x = e0.x ∨ e.x = addEnds e0.x) ∧ (e.y = e0.y ∨ e.y = addEnds e0.y) ∧
      (e.all = e0.all ∨ e.all = addEnds e0.all)) ∧
    Coherent b (World.extrema w).2 := by
  unfold World.extrema
  rcases h.ext with hn | ⟨e, e0, he, h0, hx, hy, ha⟩
  · rw [hn]
    obtain ⟨h1, h2, h3⟩ := h.dcPoints
    generalize World.dcPoints w = r at h1 h2 h3
    obtain ⟨r, w'⟩ := r
    simp only at h1 h2
    subst h1
    simp only [h2.pts]
    change (∀ e, _ ↔ extremaOf (order b.controlPoints) (Bezier.dcPoints b.controlPoints) = _) ∧
      (∀ e, _ → _ ∧ ∃ e0, extremaOf (order b.controlPoints) (Bezier.dcPoints b.controlPoints) = _ ∧ _) ∧ _
    cases hex : extremaOf (order b.controlPoints) (Bezier.dcPoints b.controlPoints) with
    | error e => exact ⟨by simp, by simp, h2⟩
    | ok ex =>
      refine ⟨by simp, ?_, ⟨h2.val, h2.dc, .inr ⟨ex, ex, rfl, hex, .inl rfl, .inl rfl, .inl rfl⟩, h2.len,
        h2.box, h2.rect, h2.lut⟩⟩
      intro e he
      cases he
      exact ⟨rfl, ex, rfl, .inl rfl, .inl rfl, .inl rfl⟩
  · rw [he]
    refine ⟨by simp [h0], ?_, h⟩
    intro e' he'
    cases he'
    exact ⟨he, e0, h0, hx, hy, ha⟩

private theorem getminmax_eq (ps : Segment ℝ) (d : Fin 2) (l l0 : List ℝ) (h : l = l0 ∨ l = addEnds l0) :
    getminmax ps d l = getminmax ps d l0 := by
  rcases h with rfl | rfl
  · rfl
  · unfold getminmax; rw [addEnds_addEnds]

theorem bbox (h : Coherent b w) : (World.bbox w).1 = Bezier.bbox b.controlPoints ∧
    Coherent b (World.bbox w).2 := by
  unfold World.bbox
  rcases h.box with hn | ⟨l, hl, hb⟩
  · rw [hn]
    obtain ⟨h1, h2, h3⟩ := h.extrema
    generalize World.extrema w = r at h1 h2 h3
    obtain ⟨r, w'⟩ := r
    simp only at h1 h2 h3
    cases r with
    | error e =>
      refine ⟨?_, h3⟩
      unfold Bezier.bbox
      rw [(h1 e).mp rfl]
      rfl
    | ok ex =>
      obtain ⟨hw, e0, h0, hx, hy, ha⟩ := h2 ex rfl
      simp only [CachedBezier.pts, h3.val]
      rw [getminmax_eq _ _ _ _ hx, getminmax_eq _ _ _ _ hy]
      unfold Bezier.bbox
      rw [h0]
      simp only [ok_bind]
      cases hr : (getminmax b.controlPoints 0 e0.x).1 with
      | error e =>
        exact ⟨rfl, rfl, h3.dc, .inr ⟨_, e0, rfl, h0, .inr rfl, hy, ha⟩, h3.len, h3.box, h3.rect, h3.lut⟩
      | ok x =>
        simp only [ok_bind]
        cases hr2 : (getminmax b.controlPoints 1 e0.y).1 with
        | error e =>
          exact ⟨rfl, rfl, h3.dc, .inr ⟨_, e0, rfl, h0, .inr rfl, .inr rfl, ha⟩, h3.len, h3.box, h3.rect, h3.lut⟩
        | ok y =>
          refine ⟨rfl, rfl, h3.dc, .inr ⟨_, e0, rfl, h0, .inr rfl, .inr rfl, ha⟩, h3.len, .inr ⟨(x, y), rfl, ?_⟩, h3.rect, h3.lut⟩
          unfold Bezier.bbox
          rw [h0]
          simp only [ok_bind, hr, hr2, pure_eq_ok]
  · rw [hl]
    exact ⟨hb.symm, h⟩

theorem boundsRectangle (h : Coherent b w) :
    (World.boundsRectangle w).1 = Bezier.boundsRectangle b.controlPoints ∧
    Coherent b (World.boundsRectangle w).2 := by
  unfold World.boundsRectangle
  rcases h.rect with hn | ⟨l, hl, hb⟩
  · rw [hn]
    obtain ⟨h1, h2⟩ := h.bbox
    generalize World.bbox w = r at h1 h2
    obtain ⟨r, w'⟩ := r
    simp only at h1 h2
    unfold Bezier.boundsRectangle
    rw [← h1]
    cases r with
    | error e => exact ⟨rfl, h2⟩
    | ok x =>
      refine ⟨rfl, h2.val, h2.dc, h2.ext, h2.len, h2.box, .inr ⟨_, rfl, ?_⟩, h2.lut⟩
      unfold Bezier.boundsRectangle
      rw [← h1]
      rfl
  · rw [hl]
    exact ⟨hb.symm, h⟩

theorem getLUT (h : Coherent b w) (n : Int) : (World.getLUT n w).1 = lutOf b.controlPoints n ∧
    Coherent b (World.getLUT n w).2 := by
  unfold World.getLUT
  split_ifs with hn
  · exact ⟨by rw [← hn, h.lut], h⟩
  · rw [h.pts]
    cases hl : lutOf b.controlPoints n with
    | error e => exact ⟨rfl, h.val, h.dc, h.ext, h.len, h.box, h.rect, by simp [lutOf]⟩
    | ok l =>
      refine ⟨rfl, h.val, h.dc, h.ext, h.len, h.box, h.rect, ?_⟩
      simp only
      rcases le_or_gt n 0 with hneg | hpos
      · have e : (n - 1 + 1).toNat = 0 := by omega
        have : l = [] := by
          simp only [lutOf, e] at hl
          exact (Except.ok.inj hl).symm
        subst this
        simp [lutOf]
      · have : l.length = n.toNat := by
          have := hl
          unfold lutOf at this
          rw [mapM_eq_ok_iff] at this
          have := this.length_eq
          simp at this
          omega
        rw [this, Int.toNat_of_nonneg hpos.le, hl]

theorem lengthLoop (h : Coherent b w) (is : List Nat) (sum : ℝ)
    (hi : ∀ i ∈ is, i < butils.tValues.length ∧ i < butils.cValues.length) :
    (World.lengthLoop is sum w).1 = is.foldlM (fun sum (i : Nat) => (do
      let tv ← pyGet butils.tValues (i : Int)
      let cv ← pyGet butils.cValues (i : Int)
      let t := (tv : ℝ) * (1 / 2) + (1 / 2)
      return (cv : ℝ) * (← arcfun b.controlPoints t) + sum : Py ℝ)) sum ∧
    Coherent b (World.lengthLoop is sum w).2 ∧ (World.lengthLoop is sum w).2.prec = w.prec := by
  induction is generalizing sum w with
  | nil => exact ⟨rfl, h, rfl⟩
  | cons i is ih =>
    have hi' := hi i (by simp)
    rw [World.lengthLoop, List.foldlM_cons, pyGet_nat_lt _ _ hi'.1, pyGet_nat_lt _ _ hi'.2]
    simp only [ok_bind]
    obtain ⟨h1, h2, h3⟩ := h.derivative (((butils.tValues[i]'hi'.1 : ℚ) : ℝ) * (1 / 2) + 1 / 2)
    generalize World.derivative (((butils.tValues[i]'hi'.1 : ℚ) : ℝ) * (1 / 2) + 1 / 2) w = r at h1 h2 h3
    obtain ⟨r, w'⟩ := r
    simp only at h1 h2 h3
    unfold arcfun
    rw [← h1]
    cases r with
    | error e => exact ⟨rfl, h2, h3⟩
    | ok d =>
      obtain ⟨k1, k2, k3⟩ := ih h2 (((butils.cValues[i]'hi'.2 : ℚ) : ℝ) * Real.sqrt (d.1 * d.1 + d.2 * d.2) + sum)
        (fun j hj => hi j (by simp [hj]))
      exact ⟨k1, k2, k3.trans h3⟩

theorem length (h : Coherent b w) : (World.length w).1 = lengthOf b.controlPoints ∧
    Coherent b (World.length w).2 ∧
    ((World.length w).2.prec = w.prec ∨
      (World.length w).2.prec = w.prec + 2 ∧ ∃ e, lengthOf b.controlPoints = .error e) := by
  have hc : ∀ i ∈ List.range butils.tValues.length, i < butils.tValues.length ∧ i < butils.cValues.length := by
    intro i hi
    rw [List.mem_range] at hi
    exact ⟨hi, by simpa [butils.tValues, butils.cValues] using hi⟩
  obtain ⟨h1, h2, h3⟩ := (h.prec (w.prec + 2)).lengthLoop (List.range butils.tValues.length) 0 hc
  have key : ∀ x : Py ℝ × World, x = (match World.lengthLoop (List.range butils.tValues.length) 0 { w with prec := w.prec + 2 } with
      | (.error e, w) => (.error e, w)
      | (.ok sum, w) =>
        (.ok (1 / 2 * sum), { w with prec := w.prec - 2, obj := { w.obj with len := some (1 / 2 * sum) } })) →
      x.1 = lengthOf b.controlPoints ∧ Coherent b x.2 ∧ (x.2.prec = w.prec ∨
      x.2.prec = w.prec + 2 ∧ ∃ e, lengthOf b.controlPoints = .error e) := by
    rintro _ rfl
    generalize World.lengthLoop (List.range butils.tValues.length) 0 { w with prec := w.prec + 2 } = r at h1 h2 h3
    obtain ⟨r, w'⟩ := r
    simp only at h1 h2 h3
    have e : lengthOf b.controlPoints = (do let s ← r; return 1 / 2 * s) := by
      unfold lengthOf
      simp only
      rw [← h1]
    cases r with
    | error e' => exact ⟨e.symm, h2, .inr ⟨h3, e', e⟩⟩
    | ok s =>
      exact ⟨e.symm, ⟨h2.val, h2.dc, h2.ext, .inr ⟨_, rfl, e⟩, h2.box, h2.rect, h2.lut⟩, .inl (by simp only [h3]; omega)⟩
  unfold World.length
  rcases h.len with hn | ⟨l, hl, hb⟩
  · rw [hn]; exact key _ rfl
  · rw [hl]
    simp only
    split_ifs with h0
    · exact key _ rfl
    · exact ⟨hb.symm, h, .inl rfl⟩

theorem reduce (h : Coherent b w) : (World.reduce w).1 = Bezier.reduce b ∧
    Coherent b (World.reduce w).2 := by
  unfold World.reduce
  obtain ⟨h1, h2, h3⟩ := h.extrema
  generalize World.extrema w = r at h1 h2 h3
  obtain ⟨r, w'⟩ := r
  simp only at h1 h2 h3
  unfold Bezier.reduce
  cases r with
  | error e => rw [(h1 e).mp rfl]; exact ⟨rfl, h3⟩
  | ok ex =>
    obtain ⟨hw, e0, h0, hx, hy, ha⟩ := h2 ex rfl
    have e1 : addEnds ex.all = addEnds e0.all := by
      rcases ha with e | e <;> rw [e]
      rw [addEnds_addEnds]
    rw [h0]
    refine ⟨?_, h3.val, h3.dc, .inr ⟨_, e0, rfl, h0, hx, hy, .inr e1⟩, h3.len, h3.box, h3.rect, h3.lut⟩
    simp only [ok_bind, h3.val]
    unfold reduceWith
    rw [e1]
  
theorem overlaps (h : Coherent b w) (r2 : BoundsRectangle ℝ) :
    (World.overlaps r2 w).1 = (do
      let r1 ← Bezier.boundsRectangle b.controlPoints
      return (r1.intersection r2).isSome) ∧
    Coherent b (World.overlaps r2 w).2 := by
  unfold World.overlaps
  obtain ⟨h1, h2⟩ := h.boundsRectangle
  generalize World.boundsRectangle w = r at h1 h2
  obtain ⟨r, w'⟩ := r
  simp only at h1 h2
  rw [← h1]
  cases r with
  | error e => exact ⟨rfl, h2⟩
  | ok r1 => exact ⟨rfl, h2⟩

theorem run (h : Coherent b w) (c : Call) : Coherent b (c.run w) := by
  cases c with
  | dcPoints => exact h.dcPoints.2.1
  | derivative t => exact (h.derivative t).2.1
  | normal t => exact (h.normal t).2
  | extrema => exact h.extrema.2.2
  | bbox => exact h.bbox.2
  | boundsRectangle => exact h.boundsRectangle.2
  | getLUT n => exact (h.getLUT n).2
  | length => exact h.length.2.1
  | reduce => exact h.reduce.2
  | overlaps r => exact (h.overlaps r).2

theorem after (b : Bezier) (prec : Int) (calls : List Call) : Coherent b (after b prec calls) := by
  unfold Spec.after
  have : ∀ (calls : List Call) (w : World), Coherent b w → Coherent b (calls.foldl (fun w c => c.run w) w) := by
    intro calls
    induction calls with
    | nil => intro w h; exact h
    | cons c cs ih => intro w h; exact ih _ (h.run c)
  exact this calls _ (fresh b prec)

end Coherent

/-! ## C38 -/

/-- C38: whatever calls came before (including calls that raised), the derived values are those of a new object. -/
theorem C38_history (b : Bezier) (prec : Int) (calls : List Call) :
    (World.dcPoints (after b prec calls)).1 = (World.dcPoints (after b prec [])).1 ∧
    (∀ t, (World.derivative t (after b prec calls)).1 = (World.derivative t (after b prec [])).1) ∧
    (∀ t, (World.normal t (after b prec calls)).1 = (World.normal t (after b prec [])).1) ∧
    (World.bbox (after b prec calls)).1 = (World.bbox (after b prec [])).1 ∧
    (World.boundsRectangle (after b prec calls)).1 = (World.boundsRectangle (after b prec [])).1 ∧
    (∀ n, (World.getLUT n (after b prec calls)).1 = (World.getLUT n (after b prec [])).1) ∧
    (World.length (after b prec calls)).1 = (World.length (after b prec [])).1 ∧
    (World.reduce (after b prec calls)).1 = (World.reduce (after b prec [])).1 ∧
    (∀ r, (World.overlaps r (after b prec calls)).1 = (World.overlaps r (after b prec [])).1) ∧
    (after b prec calls).obj.val = b := by
  have h := Coherent.after b prec calls
  have h0 := Coherent.after b prec []
  exact ⟨h.dcPoints.1.trans h0.dcPoints.1.symm,
    fun t => (h.derivative t).1.trans (h0.derivative t).1.symm,
    fun t => (h.normal t).1.trans (h0.normal t).1.symm,
    h.bbox.1.trans h0.bbox.1.symm, h.boundsRectangle.1.trans h0.boundsRectangle.1.symm,
    fun n => (h.getLUT n).1.trans (h0.getLUT n).1.symm, h.length.1.trans h0.length.1.symm,
    h.reduce.1.trans h0.reduce.1.symm, fun r => (h.overlaps r).1.trans (h0.overlaps r).1.symm, h.val⟩

/-- C38: the values of a new object are the ones the uncached definitions give, so every theorem about those holds for the methods
after any history. -/
theorem C38_uncached (b : Bezier) (prec : Int) (calls : List Call) :
    (World.dcPoints (after b prec calls)).1 = .ok (dcPoints b.controlPoints) ∧
    (∀ t, (World.derivative t (after b prec calls)).1 = derivative b.controlPoints t) ∧
    (∀ t, (World.normal t (after b prec calls)).1 = normal b.controlPoints t) ∧
    (World.bbox (after b prec calls)).1 = bbox b.controlPoints ∧
    (World.boundsRectangle (after b prec calls)).1 = boundsRectangle b.controlPoints ∧
    (∀ n, (World.getLUT n (after b prec calls)).1 = lutOf b.controlPoints n) ∧
    (World.length (after b prec calls)).1 = lengthOf b.controlPoints ∧
    (World.reduce (after b prec calls)).1 = reduce b := by
  have h := Coherent.after b prec calls
  exact ⟨h.dcPoints.1, fun t => (h.derivative t).1, fun t => (h.normal t).1, h.bbox.1, h.boundsRectangle.1,
    fun n => (h.getLUT n).1, h.length.1, h.reduce.1⟩

private theorem extrema_fresh (b : Bezier) (prec : Int) :
    (World.extrema (after b prec [])).1 = extrema b.controlPoints := by
  simp only [after, List.foldl_nil, World.extrema, World.dcPoints, CachedBezier.pts, extrema]
  cases extremaOf (order b.controlPoints) (dcPoints b.controlPoints) <;> rfl

/-- C38: `extrema` may gain the entries 0 and 1, and nothing else happens to it. -/
theorem C38_extrema (b : Bezier) (prec : Int) (calls : List Call) (e0 : Extrema)
    (h0 : (World.extrema (after b prec [])).1 = .ok e0) :
    ∃ e, (World.extrema (after b prec calls)).1 = .ok e ∧
      (∀ t, t ≠ 0 → t ≠ 1 → (t ∈ e.x ↔ t ∈ e0.x) ∧ (t ∈ e.y ↔ t ∈ e0.y) ∧ (t ∈ e.all ↔ t ∈ e0.all)) ∧
      (∀ t, (t ∈ e0.x → t ∈ e.x) ∧ (t ∈ e0.y → t ∈ e.y) ∧ (t ∈ e0.all → t ∈ e.all)) := by
  have h := (Coherent.after b prec calls).extrema
  have e1 : extrema b.controlPoints = .ok e0 := by rw [← extrema_fresh b prec]; exact h0
  cases hr : (World.extrema (after b prec calls)).1 with
  | error er =>
    have := (h.1 er).mp hr
    rw [e1] at this; cases this
  | ok e =>
    obtain ⟨_, e0', h2, hx, hy, ha⟩ := h.2.1 e hr
    rw [e1] at h2
    cases h2
    refine ⟨e, rfl, fun t t0 t1 => ?_, fun t => ?_⟩
    · refine ⟨?_, ?_, ?_⟩
      · rcases hx with h | h <;> rw [h]; simp [mem_addEnds, t0, t1]
      · rcases hy with h | h <;> rw [h]; simp [mem_addEnds, t0, t1]
      · rcases ha with h | h <;> rw [h]; simp [mem_addEnds, t0, t1]
    · refine ⟨?_, ?_, ?_⟩
      · rcases hx with h | h <;> rw [h]
        · exact id
        · rw [mem_addEnds]; exact fun h => .inr (.inr h)
      · rcases hy with h | h <;> rw [h]
        · exact id
        · rw [mem_addEnds]; exact fun h => .inr (.inr h)
      · rcases ha with h | h <;> rw [h]
        · exact id
        · rw [mem_addEnds]; exact fun h => .inr (.inr h)

/-- C38: for every line the table of extrema is empty at first and contains 0 and 1 after reading `bbox`; `reduce` changes the
third list in the same way. -/
theorem C38_extrema_counterexample (b : Bezier) (prec : Int) (hb : b.controlPoints.length = 2) :
    (∃ e, (World.extrema (after b prec [])).1 = .ok e ∧ e.x = [] ∧ e.y = [] ∧ e.all = []) ∧
    (∃ e, (World.extrema (after b prec [.bbox])).1 = .ok e ∧ e.x = [0, 1] ∧ e.y = [0, 1] ∧ e.all = []) ∧
    (∃ e, (World.extrema (after b prec [.reduce])).1 = .ok e ∧ e.x = [] ∧ e.y = [] ∧ e.all = [0, 1]) := by
  have he : extremaOf (order b.controlPoints) (dcPoints b.controlPoints) = .ok ⟨[], [], []⟩ := by
    unfold extremaOf
    rw [extremaDim_line _ hb, extremaDim_line _ hb]
    rfl
  have hne : b.controlPoints ≠ [] := by intro e; rw [e] at hb; simp at hb
  obtain ⟨mx, Mx, ex, _⟩ := minmaxLoop_ok b.controlPoints hne 0 (addEnds [])
  obtain ⟨my, My, ey, _⟩ := minmaxLoop_ok b.controlPoints hne 1 (addEnds [])
  have a0 : addEnds ([] : List ℝ) = [0, 1] := by simp [addEnds]
  rw [a0] at ex ey
  refine ⟨⟨_, (extrema_fresh b prec).trans he, rfl, rfl, rfl⟩, ?_, ?_⟩
  · simp [after, Call.run, World.bbox, World.extrema, World.dcPoints, CachedBezier.pts, he, getminmax, ex, ey, a0]
  · simp [after, Call.run, World.reduce, World.extrema, World.dcPoints, CachedBezier.pts, he, a0]

end PathLib
