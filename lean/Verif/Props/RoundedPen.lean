import Verif.Model.RoundedPen
import Verif.Lemmas.Grid
import Verif.Lemmas.Float
import Verif.Props.SegmentPen

set_option linter.unusedSectionVars false
set_option linter.unusedSimpArgs false

/-!
# TrueType glyphs lose nothing to rounding: C95
-/

namespace PathLib
open Spec

namespace Spec

/-- `x` is an integer multiple of `2^-e`. -/
def Dyadic (e : ℕ) (x : ℝ) : Prop := ∃ m : ℤ, x = m / 2 ^ e

/-- The scales of the component are multiples of `2^-f`, each coordinate of the result is made of at most `r` times coordinates
of the component, and the offsets are integers between -32768 and 32768. With `f = 14` and `r = 4` these are all transformations that a
TrueType font can contain; with `f = 0` and `r = 1` components are moved but not scaled. -/
structure GridComponent (f r : ℕ) (t : ComponentTransform ℝ) : Prop where
  xScale : Dyadic f t.xScale
  xyScale : Dyadic f t.xyScale
  yxScale : Dyadic f t.yxScale
  yScale : Dyadic f t.yScale
  x : |t.xScale| + |t.yxScale| ≤ r
  y : |t.xyScale| + |t.yScale| ≤ r
  offset : OnGrid (t.xOffset, t.yOffset)

/-- A pen call with integer coordinates between -32768 and 32768. -/
def GridCall (f r : ℕ) : PenCall ℝ → Prop
  | .moveTo p => OnGrid p
  | .lineTo p => OnGrid p
  | .curveTo ps => ∀ p ∈ ps, OnGrid p
  | .qCurveTo ps => ∀ p ∈ ps, OnGrid p
  | .addComponent _ t => GridComponent f r t
  | _ => True

/-- A bound of the coordinates that occur in components nested `d` deep. -/
def reach (r : ℕ) : ℕ → ℕ
  | 0 => 32768
  | d + 1 => r * reach r d + 32768

end Spec

theorem Spec.Dyadic.mono {e e' : ℕ} {x : ℝ} (h : Dyadic e x) (he : e ≤ e') : Dyadic e' x := by
  obtain ⟨m, rfl⟩ := h
  refine ⟨m * 2 ^ (e' - e), ?_⟩
  obtain ⟨k, rfl⟩ := Nat.exists_eq_add_of_le he
  rw [Nat.add_sub_cancel_left]
  push_cast
  rw [pow_add]
  field_simp

theorem Spec.Dyadic.int (m : ℤ) : Dyadic 0 (m : ℝ) := ⟨m, by simp⟩

theorem Spec.Dyadic.add {e : ℕ} {x y : ℝ} (h : Dyadic e x) (h' : Dyadic e y) : Dyadic e (x + y) := by
  obtain ⟨m, rfl⟩ := h
  obtain ⟨n, rfl⟩ := h'
  exact ⟨m + n, by push_cast; ring⟩

theorem Spec.Dyadic.mul {e f : ℕ} {x y : ℝ} (h : Dyadic e x) (h' : Dyadic f y) : Dyadic (e + f) (x * y) := by
  obtain ⟨m, rfl⟩ := h
  obtain ⟨n, rfl⟩ := h'
  exact ⟨m * n, by push_cast; rw [pow_add]; field_simp⟩

theorem rnd_dyadic {e : ℕ} {x : ℝ} (h : Dyadic e x) (hx : |x| * 2 ^ e ≤ 2 ^ 53) : float.rnd x = x := by
  obtain ⟨m, rfl⟩ := h
  have hm : |m| ≤ 2 ^ 53 := by
    rw [abs_div, abs_of_pos (by positivity : (0 : ℝ) < 2 ^ e), div_mul_cancel₀ _ (by positivity)] at hx
    exact_mod_cast hx
  have := roundBits_repr 53 (by omega) m (-(e : ℤ)) hm
  rw [zpow_neg, zpow_natCast, ← div_eq_mul_inv] at this
  exact this

/-- Both coordinates are multiples of `2^-e` and at most `B`. -/
def Near (e B : ℕ) (p : Pt ℝ) : Prop := (Dyadic e p.1 ∧ |p.1| ≤ B) ∧ Dyadic e p.2 ∧ |p.2| ≤ B

theorem OnGrid.near {p : Pt ℝ} (h : OnGrid p) : Near 0 32768 p := by
  obtain ⟨m, n, hm, hn, rfl⟩ := h
  refine ⟨⟨Dyadic.int m, ?_⟩, Dyadic.int n, ?_⟩
  · show |(m : ℝ)| ≤ _; exact_mod_cast hm
  · show |(n : ℝ)| ≤ _; exact_mod_cast hn

theorem Near.mono {e e' B B' : ℕ} {p : Pt ℝ} (h : Near e B p) (he : e ≤ e') (hB : B ≤ B') : Near e' B' p :=
  ⟨⟨h.1.1.mono he, h.1.2.trans (by exact_mod_cast hB)⟩, h.2.1.mono he, h.2.2.trans (by exact_mod_cast hB)⟩

private theorem half_sum {x y : ℝ} (hx : Dyadic 0 x ∧ |x| ≤ (32768 : ℕ)) (hy : Dyadic 0 y ∧ |y| ≤ (32768 : ℕ)) :
    float.mul (1 / 2) (float.add x y) = 1 / 2 * (x + y) ∧ Dyadic 1 (1 / 2 * (x + y)) ∧ |1 / 2 * (x + y)| ≤ (32768 : ℕ) := by
  have h1 := hx.1.add hy.1
  have h2 := abs_add_le x y
  have h3 := hx.2
  have h4 := hy.2
  push_cast at h3 h4
  have e1 : float.add x y = x + y := rnd_dyadic h1 (by norm_num; linarith)
  have hd : Dyadic 1 (1 / 2 * (x + y)) := by
    have : Dyadic 1 (1 / 2 : ℝ) := ⟨1, by norm_num⟩
    have := this.mul h1
    simpa using this
  have hb : |1 / 2 * (x + y)| ≤ 32768 := by
    rw [abs_mul, abs_of_pos (by norm_num : (0 : ℝ) < 1 / 2)]
    linarith
  refine ⟨?_, hd, by exact_mod_cast hb⟩
  rw [e1]
  exact rnd_dyadic hd (by norm_num at hb ⊢; linarith)

private theorem get_mem {α : Type} {l : List α} {i : Int} {a : α} (h : pyGet l i = .ok a) : a ∈ l := by
  unfold pyGet at h
  simp only at h
  split_ifs at h
  · split at h
    · cases h; exact List.mem_of_getElem? (by assumption)
    · cases h
  · split at h
    · cases h; exact List.mem_of_getElem? (by assumption)
    · cases h

private theorem qLoop_eq (segment : Segment ℝ) (hs : ∀ p ∈ segment, OnGrid p) (is : List Nat) (startPoint : Pt ℝ)
    (h0 : Near 1 32768 startPoint) :
    Rounded.Pen.qLoop float segment startPoint is = SegmentPen.qLoop segment startPoint is ∧
    ∀ r, SegmentPen.qLoop segment startPoint is = .ok r → (∀ s ∈ r.1, ∀ p ∈ s, Near 1 32768 p) ∧ Near 1 32768 r.2 := by
  induction is generalizing startPoint with
  | nil =>
    refine ⟨rfl, ?_⟩
    intro r hr
    have := Except.ok.inj hr
    subst this
    exact ⟨by simp, h0⟩
  | cons i is ih =>
    unfold Rounded.Pen.qLoop SegmentPen.qLoop
    cases hp1 : pyGet segment (i : Int) with
    | error e => exact ⟨rfl, by intro r hr; simp [error_bind] at hr⟩
    | ok p1 =>
      cases hp2 : pyGet segment ((i + 1 : Nat) : Int) with
      | error e => exact ⟨rfl, by intro r hr; simp [ok_bind, error_bind] at hr⟩
      | ok p2 =>
        have g1 := OnGrid.near (hs _ (get_mem hp1))
        have g2 := OnGrid.near (hs _ (get_mem hp2))
        have a1 := half_sum g1.1 g2.1
        have a2 := half_sum g1.2 g2.2
        simp only [ok_bind, a1.1, a2.1]
        have hn : Near 1 32768 (1 / 2 * (p1.1 + p2.1), 1 / 2 * (p1.2 + p2.2)) := ⟨a1.2, a2.2⟩
        obtain ⟨h1, h2⟩ := ih _ hn
        rw [h1]
        refine ⟨rfl, ?_⟩
        intro r hr
        rw [bind_eq_ok] at hr
        obtain ⟨⟨rest, last⟩, hq, hr⟩ := hr
        have := Except.ok.inj hr
        subst this
        obtain ⟨k1, k2⟩ := h2 _ hq
        refine ⟨?_, k2⟩
        intro s hs'
        rcases List.mem_cons.mp hs' with rfl | hs'
        · intro p hp
          simp only [List.mem_cons, List.not_mem_nil, or_false] at hp
          rcases hp with rfl | rfl | rfl
          · exact h0
          · exact g1.mono (by omega) le_rfl
          · exact hn
        · exact k1 s hs'

private theorem qSegments_eq (segment : Segment ℝ) (hs : ∀ p ∈ segment, OnGrid p) :
    Rounded.Pen.qSegments float segment = SegmentPen.qSegments segment ∧
    ∀ r, SegmentPen.qSegments segment = .ok r → ∀ s ∈ r, ∀ p ∈ s, Near 1 32768 p := by
  have hn : ∀ p ∈ segment, Near 1 32768 p := fun p hp => (OnGrid.near (hs p hp)).mono (by omega) le_rfl
  unfold Rounded.Pen.qSegments SegmentPen.qSegments
  split_ifs with hl
  · refine ⟨rfl, ?_⟩
    intro r hr
    have := Except.ok.inj hr
    subst this
    intro s hs'
    rw [List.mem_singleton] at hs'
    subst hs'
    exact hn
  · cases hp : pyGet segment 0 with
    | error e => exact ⟨rfl, by intro r hr; simp [error_bind] at hr⟩
    | ok p0 =>
      obtain ⟨h1, h2⟩ := qLoop_eq segment hs (List.range' 1 (segment.length - 3)) p0 (hn _ (get_mem hp))
      simp only [ok_bind, h1, true_and]
      intro r hr
      rw [bind_eq_ok] at hr
      obtain ⟨⟨pieces, last⟩, hq, hr⟩ := hr
      simp only at hr
      rw [bind_eq_ok] at hr
      obtain ⟨a, ha, hr⟩ := hr
      rw [bind_eq_ok] at hr
      obtain ⟨b, hb, hr⟩ := hr
      have := Except.ok.inj hr
      subst this
      obtain ⟨k1, k2⟩ := h2 _ hq
      intro s hs'
      rcases List.mem_append.mp hs' with hs' | hs'
      · exact k1 s hs'
      · rw [List.mem_singleton] at hs'
        subst hs'
        intro p hp
        simp only [List.mem_cons, List.not_mem_nil, or_false] at hp
        rcases hp with rfl | rfl | rfl
        · exact k2
        · exact hn _ (get_mem ha)
        · exact hn _ (get_mem hb)

/-- One coordinate of a transformed point. -/
private theorem coordinate {e f r B : ℕ} {x y a c m : ℝ} (hx : Dyadic e x ∧ |x| ≤ B) (hy : Dyadic e y ∧ |y| ≤ B)
    (ha : Dyadic f a) (hc : Dyadic f c) (hr : |a| + |c| ≤ r) (hm : Dyadic 0 m ∧ |m| ≤ (32768 : ℕ))
    (hb : (r * B + 32768) * 2 ^ (e + f) ≤ 2 ^ 53) :
    float.add (float.add (float.mul x a) (float.mul y c)) (float.mul 1 m) = x * a + y * c + 1 * m ∧
    Dyadic (e + f) (x * a + y * c + 1 * m) ∧ |x * a + y * c + 1 * m| ≤ (r * B + 32768 : ℕ) := by
  have hb' : ((r : ℝ) * B + 32768) * 2 ^ (e + f) ≤ 2 ^ 53 := by exact_mod_cast hb
  have hB : (0 : ℝ) ≤ B := Nat.cast_nonneg B
  have fits : ∀ z : ℝ, Dyadic (e + f) z → |z| ≤ (r : ℝ) * B + 32768 → float.rnd z = z := by
    intro z hz hzb
    exact rnd_dyadic hz ((mul_le_mul_of_nonneg_right hzb (by positivity)).trans hb')
  have k1 : |x * a| ≤ B * |a| := by rw [abs_mul]; exact mul_le_mul_of_nonneg_right hx.2 (abs_nonneg a)
  have k2 : |y * c| ≤ B * |c| := by rw [abs_mul]; exact mul_le_mul_of_nonneg_right hy.2 (abs_nonneg c)
  have k3 : (B : ℝ) * |a| + B * |c| ≤ r * B := by nlinarith
  have n1 : (0 : ℝ) ≤ B * |a| := by positivity
  have n2 : (0 : ℝ) ≤ B * |c| := by positivity
  have k4 := abs_add_le (x * a) (y * c)
  have k5 := abs_add_le (x * a + y * c) m
  have k6 := hm.2
  push_cast at k6
  have d1 := hx.1.mul ha
  have d2 := hy.1.mul hc
  have d3 : Dyadic (e + f) m := hm.1.mono (by omega)
  have d4 := d1.add d2
  have d5 := d4.add d3
  have e1 : float.mul x a = x * a := fits _ d1 (by linarith)
  have e2 : float.mul y c = y * c := fits _ d2 (by linarith)
  have e3 : float.mul 1 m = m := by
    show float.rnd (1 * m) = m
    rw [one_mul]
    exact fits _ d3 (by nlinarith)
  have e4 : float.add (x * a) (y * c) = x * a + y * c := fits _ d4 (by linarith)
  have hfin : |x * a + y * c + m| ≤ (r : ℝ) * B + 32768 := by linarith
  rw [one_mul, e1, e2, e3, e4]
  exact ⟨fits _ d5 hfin, d5, by push_cast; exact hfin⟩

private theorem point_eq {e f r B : ℕ} {t : ComponentTransform ℝ} (ht : GridComponent f r t) {p : Pt ℝ} (hp : Near e B p)
    (hb : (r * B + 32768) * 2 ^ (e + f) ≤ 2 ^ 53) (T : Transform ℝ)
    (hT : T.transform = Transform.matrix t.xScale t.xyScale t.yxScale t.yScale t.xOffset t.yOffset 0 0 1) :
    ∃ q, Rounded.applyToPoint float T p = .ok q ∧ T.applyToPoint p = .ok q ∧ Near (e + f) (r * B + 32768) q := by
  have ho := OnGrid.near ht.offset
  have hx := coordinate hp.1 hp.2 ht.xScale ht.yxScale ht.x ho.1 hb
  have hy := coordinate hp.1 hp.2 ht.xyScale ht.yScale ht.y ho.2 hb
  refine ⟨(p.1 * t.xScale + p.2 * t.yxScale + 1 * t.xOffset, p.1 * t.xyScale + p.2 * t.yScale + 1 * t.yOffset), ?_, ?_, ?_⟩
  · have hz : float.add (float.add (float.mul p.1 0) (float.mul p.2 0)) (float.mul 1 1) = 1 := by
      have h0 : float.rnd 0 = 0 := float.rnd_zero
      have h1 : float.rnd 1 = 1 := (binary 52).one
      simp only [Rounding.add, Rounding.mul, mul_zero, h0, add_zero, zero_add, mul_one, h1]
    have hd : ∀ z : ℝ, float.rnd z = z → float.div z 1 = z := by
      intro z h
      show float.rnd (z / 1) = z
      rw [div_one, h]
    unfold Rounded.applyToPoint
    rw [hT]
    simp only [Transform.matrix, Rounded.multiplyRowByMatrix, ok_bind, pyGet_zero_cons, pyGet_one_cons, pyGet_two_cons, hz,
      Rounded.pdiv, one_ne_zero, if_false, hx.1, hy.1]
    rw [hd, hd]
    · rfl
    · have := hy.1; rw [← this]; exact (binary 52).idem _
    · have := hx.1; rw [← this]; exact (binary 52).idem _
  · unfold Transform.applyToPoint
    rw [hT]
    simp only [Transform.matrix, Transform.multiplyRowByMatrix, ok_bind, pyGet_zero_cons, pyGet_one_cons, pyGet_two_cons,
      mul_zero, zero_add, add_zero, mul_one, pdiv_of_ne _ (one_ne_zero (α := ℝ)), div_one, one_mul]
    rfl
  · exact ⟨hx.2, hy.2⟩

private theorem mapM_same {α β : Type} (f g : α → Py β) (P : β → Prop) (l : List α)
    (h : ∀ a ∈ l, ∃ b, f a = .ok b ∧ g a = .ok b ∧ P b) : ∃ r, l.mapM f = .ok r ∧ l.mapM g = .ok r ∧ ∀ b ∈ r, P b := by
  induction l with
  | nil => exact ⟨[], rfl, rfl, by simp⟩
  | cons a l ih =>
    obtain ⟨b, hf, hg, hb⟩ := h a (by simp)
    obtain ⟨r, h1, h2, h3⟩ := ih fun x hx => h x (by simp [hx])
    refine ⟨b :: r, ?_, ?_, ?_⟩
    · rw [List.mapM_cons, hf, h1]; rfl
    · rw [List.mapM_cons, hg, h2]; rfl
    · intro x hx
      rcases List.mem_cons.mp hx with rfl | hx
      · exact hb
      · exact h3 x hx

private theorem contours_eq {e f r B : ℕ} {t : ComponentTransform ℝ} (ht : GridComponent f r t) (contours : List (Contour ℝ))
    (hc : ∀ c ∈ contours, ∀ s ∈ c, ∀ p ∈ s, Near e B p) (hb : (r * B + 32768) * 2 ^ (e + f) ≤ 2 ^ 53) (T : Transform ℝ)
    (hT : T.transform = Transform.matrix t.xScale t.xyScale t.yxScale t.yScale t.xOffset t.yOffset 0 0 1) :
    ∃ q, Rounded.Pen.applyToContours float T contours = .ok q ∧ T.applyToContours contours = .ok q ∧
      ∀ c ∈ q, ∀ s ∈ c, ∀ p ∈ s, Near (e + f) (r * B + 32768) p :=
  mapM_same _ _ _ _ fun c h1 => mapM_same _ _ _ _ fun s h2 => mapM_same _ _ _ _ fun p h3 =>
    point_eq ht (hc c h1 s h2 p h3) hb T hT

/-- What is known about a pen while a glyph is drawn. -/
private structure Fine (E C : ℕ) (s : SegmentPen ℝ) : Prop where
  contours : ∀ c ∈ s.contours, ∀ seg ∈ c, ∀ p ∈ seg, Near E C p
  contour : ∀ c, s.contour = some c → ∀ seg ∈ c, ∀ p ∈ seg, Near 1 32768 p
  last : OnGrid s.lastOnCurve

private theorem Fine.append {E C : ℕ} {s : SegmentPen ℝ} (h : Fine E C s) (segs : List (Segment ℝ))
    (hs : ∀ seg ∈ segs, ∀ p ∈ seg, Near 1 32768 p) (c : Contour ℝ) (hc : s.contour = some c) :
    Fine E C { s with contour := some (c ++ segs) } := by
  refine ⟨h.contours, ?_, h.last⟩
  intro c' hc'
  cases hc'
  intro seg hseg
  rcases List.mem_append.mp hseg with h' | h'
  · exact h.contour c hc seg h'
  · exact hs seg h'

private theorem Fine.last' {E C : ℕ} {s : SegmentPen ℝ} (h : Fine E C s) {p : Pt ℝ} (hp : OnGrid p) :
    Fine E C { s with lastOnCurve := p } := ⟨h.contours, h.contour, hp⟩

private theorem lineTo_fine {E C : ℕ} {s : SegmentPen ℝ} (h : Fine E C s) {p : Pt ℝ} (hp : OnGrid p) :
    Fine E C (SegmentPen.lineTo s p).1 := by
  unfold SegmentPen.lineTo SegmentPen.append
  split_ifs
  · cases hc : s.contour with
    | none => simpa using h
    | some c =>
      refine (h.append [[s.lastOnCurve, p]] ?_ c hc).last' hp
      intro seg hseg q hq
      rw [List.mem_singleton] at hseg
      subst hseg
      simp only [List.mem_cons, List.not_mem_nil, or_false] at hq
      rcases hq with rfl | rfl
      · exact (OnGrid.near h.last).mono (by omega) le_rfl
      · exact (OnGrid.near hp).mono (by omega) le_rfl
  · exact h

private theorem curveTo_fine {E C : ℕ} {s : SegmentPen ℝ} (h : Fine E C s) {ps : List (Pt ℝ)} (hp : ∀ p ∈ ps, OnGrid p) :
    Fine E C (SegmentPen.curveTo s ps).1 := by
  unfold SegmentPen.curveTo SegmentPen.append
  cases hc : s.contour with
  | none => simpa using h
  | some c =>
    have hf : Fine E C { s with contour := some (c ++ [s.lastOnCurve :: ps]) } := by
      refine h.append [s.lastOnCurve :: ps] ?_ c hc
      intro seg hseg q hq
      rw [List.mem_singleton] at hseg
      subst hseg
      rcases List.mem_cons.mp hq with rfl | hq
      · exact (OnGrid.near h.last).mono (by omega) le_rfl
      · exact (OnGrid.near (hp q hq)).mono (by omega) le_rfl
    cases hg : pyGet ps (-1) with
    | error e => simpa [hg] using hf
    | ok p => simpa [hg] using hf.last' (hp p (get_mem hg))

private theorem qCurveTo_fine {E C : ℕ} {s : SegmentPen ℝ} (h : Fine E C s) {ps : List (Pt ℝ)} (hp : ∀ p ∈ ps, OnGrid p) :
    Rounded.Pen.qCurveTo float s ps = SegmentPen.qCurveTo s ps ∧ Fine E C (SegmentPen.qCurveTo s ps).1 := by
  have hseg : ∀ p ∈ s.lastOnCurve :: ps, OnGrid p := by
    intro p hq
    rcases List.mem_cons.mp hq with rfl | hq
    · exact h.last
    · exact hp p hq
  obtain ⟨h1, h2⟩ := qSegments_eq _ hseg
  unfold Rounded.Pen.qCurveTo SegmentPen.qCurveTo
  simp only [h1]
  cases hq : SegmentPen.qSegments (s.lastOnCurve :: ps) with
  | error e => exact ⟨rfl, by simpa using h⟩
  | ok pieces =>
    cases hc : s.contour with
    | none => exact ⟨rfl, by simpa [hc] using h⟩
    | some c =>
      have hf := h.append pieces (h2 _ hq) c hc
      cases hg : pyGet (s.lastOnCurve :: ps) (-1) with
      | error e => exact ⟨rfl, by simpa [hc, hg] using hf⟩
      | ok p => exact ⟨rfl, by simpa [hc, hg] using hf.last' (hseg p (get_mem hg))⟩

private theorem closePath_fine {E C : ℕ} (hE : 1 ≤ E) (hC : 32768 ≤ C) {s : SegmentPen ℝ} (h : Fine E C s) :
    Fine E C (SegmentPen.closePath s).1 := by
  unfold SegmentPen.closePath
  cases hc : s.contour with
  | none => simpa [hc] using h
  | some c =>
    rcases c with _ | ⟨seg, c⟩
    · simpa [hc] using h
    · have hn : ∀ c', (∀ seg ∈ c', ∀ p ∈ seg, Near 1 32768 p) → ∀ d ∈ s.contours ++ [c'], ∀ seg ∈ d, ∀ p ∈ seg, Near E C p := by
        intro c' hc' d hd
        rcases List.mem_append.mp hd with hd | hd
        · exact h.contours d hd
        · rw [List.mem_singleton] at hd
          subst hd
          exact fun seg hs p hp => (hc' seg hs p hp).mono hE hC
      cases hcl : SegmentPen.closing (seg :: c) with
      | error e => exact ⟨by simpa [hcl] using hn _ (h.contour _ hc), by simpa [hcl, hc] using h.contour, by simpa [hcl] using h.last⟩
      | ok c' =>
        have hc' : ∀ seg ∈ c', ∀ p ∈ seg, Near 1 32768 p := by
          unfold SegmentPen.closing at hcl
          simp only [bind_eq_ok] at hcl
          obtain ⟨s0, hs0, first, hfirst, s1, hs1, last, hlast, hcl⟩ := hcl
          split_ifs at hcl
          · have := Except.ok.inj hcl
            subst this
            intro sg hsg p hp
            rcases List.mem_append.mp hsg with hsg | hsg
            · exact h.contour _ hc sg hsg p hp
            · rw [List.mem_singleton] at hsg
              subst hsg
              simp only [List.mem_cons, List.not_mem_nil, or_false] at hp
              rcases hp with rfl | rfl
              · exact h.contour _ hc _ (get_mem hs1) _ (get_mem hlast)
              · exact h.contour _ hc _ (get_mem hs0) _ (get_mem hfirst)
          · have := Except.ok.inj hcl
            subst this
            exact h.contour _ hc
        exact ⟨by simpa [hcl] using hn _ hc', by simp [hcl], by simpa [hcl] using h.last⟩

private theorem call_fine {e f r B E C : ℕ} (hE : 1 ≤ E) (hC : 32768 ≤ C) {dgR dg : String → Py (List (Contour ℝ))}
    (H : ∀ name, dgR name = dg name ∧ ∀ cs, dg name = .ok cs → (r * B + 32768) * 2 ^ (e + f) ≤ 2 ^ 53 ∧ e + f ≤ E ∧
      r * B + 32768 ≤ C ∧ ∀ c ∈ cs, ∀ s ∈ c, ∀ p ∈ s, Near e B p) {s : SegmentPen ℝ} (h : Fine E C s) {c : PenCall ℝ}
    (hc : GridCall f r c) :
    Rounded.Pen.call float dgR s c = SegmentPen.call dg s c ∧ Fine E C (SegmentPen.call dg s c).1 := by
  cases c with
  | moveTo p => exact ⟨rfl, ⟨h.contours, by rintro c ⟨⟩; simp, hc⟩⟩
  | lineTo p => exact ⟨rfl, lineTo_fine h hc⟩
  | curveTo ps => exact ⟨rfl, curveTo_fine h hc⟩
  | qCurveTo ps => exact qCurveTo_fine h hc
  | closePath => exact ⟨rfl, closePath_fine hE hC h⟩
  | addPoint => exact ⟨rfl, h⟩
  | beginPath => exact ⟨rfl, h⟩
  | endPath => exact ⟨rfl, h⟩
  | addComponent name t =>
    have ht : GridComponent f r t := hc
    obtain ⟨h1, h2⟩ := H name
    show Rounded.Pen.addComponent float dgR s name t = SegmentPen.addComponent dg s name t ∧
      Fine E C (SegmentPen.addComponent dg s name t).1
    unfold Rounded.Pen.addComponent SegmentPen.addComponent
    rw [h1]
    have key : ∀ q : List (Contour ℝ), (∀ c ∈ q, ∀ seg ∈ c, ∀ p ∈ seg, Near E C p) →
        Fine E C { s with contours := s.contours ++ q } := by
      intro q hq
      refine ⟨?_, h.contour, h.last⟩
      intro c hc'
      rcases List.mem_append.mp hc' with hc' | hc'
      · exact h.contours c hc'
      · exact hq c hc'
    by_cases hid : t = SegmentPen.identityTransformation
    · simp only [hid, ne_eq, not_true_eq_false, if_false, pure_eq_ok, ok_bind]
      cases hd : dg name with
      | error er => exact ⟨rfl, by simpa [error_bind] using h⟩
      | ok cs =>
        refine ⟨rfl, ?_⟩
        obtain ⟨-, b2, b3, b4⟩ := h2 cs hd
        have hr : 1 ≤ r := by
          have := ht.x
          rw [hid] at this
          simp only [SegmentPen.identityTransformation, abs_one, abs_zero, add_zero] at this
          exact_mod_cast this
        simp only [ok_bind]
        refine key cs fun c hc' seg hseg p hp => (b4 c hc' seg hseg p hp).mono (by omega) ?_
        nlinarith
    · have hT : Transform.new [Transform.matrix t.xScale t.xyScale t.yxScale t.yScale t.xOffset t.yOffset 0 0 1] =
          .ok ⟨Transform.matrix t.xScale t.xyScale t.yxScale t.yScale t.xOffset t.yOffset 0 0 1⟩ := rfl
      simp only [hid, ne_eq, not_false_eq_true, if_true, pure_eq_ok, ok_bind, hT]
      cases hd : dg name with
      | error er => exact ⟨rfl, by simpa [error_bind] using h⟩
      | ok cs =>
        obtain ⟨b1, b2, b3, b4⟩ := h2 cs hd
        obtain ⟨q, q1, q2, q3⟩ := contours_eq ht cs b4 b1
          ⟨Transform.matrix t.xScale t.xyScale t.yxScale t.yScale t.xOffset t.yOffset 0 0 1⟩ rfl
        rw [ok_bind, q1, ok_bind, q2]
        exact ⟨rfl, key q fun c hc' seg hseg p hp => (q3 c hc' seg hseg p hp).mono b2 b3⟩

private theorem run_fine {e f r B E C : ℕ} (hE : 1 ≤ E) (hC : 32768 ≤ C) {dgR dg : String → Py (List (Contour ℝ))}
    (H : ∀ name, dgR name = dg name ∧ ∀ cs, dg name = .ok cs → (r * B + 32768) * 2 ^ (e + f) ≤ 2 ^ 53 ∧ e + f ≤ E ∧
      r * B + 32768 ≤ C ∧ ∀ c ∈ cs, ∀ s ∈ c, ∀ p ∈ s, Near e B p) (calls : List (PenCall ℝ)) (hc : ∀ c ∈ calls, GridCall f r c)
    (s : SegmentPen ℝ) (h : Fine E C s) :
    Rounded.Pen.run float dgR s calls = SegmentPen.run dg s calls ∧ Fine E C (SegmentPen.run dg s calls).1 := by
  induction calls generalizing s with
  | nil => exact ⟨rfl, h⟩
  | cons c cs ih =>
    obtain ⟨h1, h2⟩ := call_fine hE hC H h (hc c (by simp))
    unfold Rounded.Pen.run SegmentPen.run
    rw [h1]
    rcases hr : SegmentPen.call dg s c with ⟨s', _ | _⟩
    · rw [hr] at h2
      exact ⟨rfl, h2⟩
    · rw [hr] at h2
      exact ih (fun c' hc' => hc c' (by simp [hc'])) s' h2

private theorem reach_ge (r d : ℕ) : 32768 ≤ reach r d := by
  cases d with
  | zero => exact le_rfl
  | succ d => unfold reach; omega

private theorem reach_mono (r d : ℕ) : reach r d ≤ reach r (d + 1) := by
  rcases Nat.eq_zero_or_pos r with rfl | hr
  · cases d with
    | zero => show 32768 ≤ 0 * 32768 + 32768; omega
    | succ d => show 0 * reach 0 d + 32768 ≤ 0 * reach 0 (d + 1) + 32768; omega
  · show reach r d ≤ r * reach r d + 32768
    nlinarith

/-- The glyph set contains only calls with integer coordinates and component transformations as in `GridComponent`. -/
def Spec.GridFont (f r : ℕ) (glyphSet : GlyphSet ℝ) : Prop := ∀ name calls, glyphSet name = some calls → ∀ c ∈ calls, GridCall f r c

private theorem draw_fine {e f r B E C d : ℕ} (hE : 1 ≤ E) (hC : 32768 ≤ C) {glyphSet : GlyphSet ℝ}
    (H : ∀ name, Rounded.Pen.drawGlyph float d glyphSet name = SegmentPen.drawGlyph d glyphSet name ∧
      ∀ cs, SegmentPen.drawGlyph d glyphSet name = .ok cs → (r * B + 32768) * 2 ^ (e + f) ≤ 2 ^ 53 ∧ e + f ≤ E ∧
      r * B + 32768 ≤ C ∧ ∀ c ∈ cs, ∀ s ∈ c, ∀ p ∈ s, Near e B p) (hg : GridFont f r glyphSet) (name : String) :
    Rounded.Pen.drawGlyph float (d + 1) glyphSet name = SegmentPen.drawGlyph (d + 1) glyphSet name ∧
    ∀ cs, SegmentPen.drawGlyph (d + 1) glyphSet name = .ok cs → ∀ c ∈ cs, ∀ s ∈ c, ∀ p ∈ s, Near E C p := by
  unfold Rounded.Pen.drawGlyph SegmentPen.drawGlyph
  cases hn : glyphSet name with
  | none => exact ⟨rfl, by rintro cs ⟨⟩⟩
  | some calls =>
    obtain ⟨h1, h2⟩ := run_fine hE hC H calls (hg name calls hn)
      SegmentPen.init ⟨by simp [SegmentPen.init], by simp [SegmentPen.init], 0, 0, by simp, by simp, by simp [SegmentPen.init]⟩
    simp only [h1]
    rcases hr : SegmentPen.run (SegmentPen.drawGlyph d glyphSet) SegmentPen.init calls with ⟨s', _ | _⟩
    · exact ⟨rfl, by rintro cs ⟨⟩⟩
    · rw [hr] at h2
      refine ⟨rfl, ?_⟩
      intro cs hcs
      have := Except.ok.inj hcs
      subst this
      exact h2.contours

/-- C95: a glyph drawn in floating point arithmetic has exactly the contours of exact arithmetic, if components are nested at most `d`
deep and the numbers that can occur at this depth fit into 53 bits. All coordinates are multiples of `2^-(1+f*d)`. -/
theorem C95_exact (f r d : ℕ) (hd : reach r d * 2 ^ (1 + f * d) ≤ 2 ^ 53) (glyphSet : GlyphSet ℝ) (hg : GridFont f r glyphSet)
    (name : String) :
    Rounded.Pen.drawGlyph float (d + 1) glyphSet name = SegmentPen.drawGlyph (d + 1) glyphSet name ∧
    ∀ cs, SegmentPen.drawGlyph (d + 1) glyphSet name = .ok cs → ∀ c ∈ cs, ∀ s ∈ c, ∀ p ∈ s,
      (Dyadic (1 + f * d) p.1 ∧ |p.1| ≤ reach r d) ∧ Dyadic (1 + f * d) p.2 ∧ |p.2| ≤ reach r d := by
  show _ ∧ ∀ cs, SegmentPen.drawGlyph (d + 1) glyphSet name = .ok cs → ∀ c ∈ cs, ∀ s ∈ c, ∀ p ∈ s, Near (1 + f * d) (reach r d) p
  induction d generalizing name with
  | zero =>
    refine draw_fine (e := 0) (B := 0) (by omega) (reach_ge r 0) (fun name => ⟨rfl, ?_⟩) hg name
    rintro cs ⟨⟩
  | succ d ih =>
    have hle : reach r d * 2 ^ (1 + f * d) ≤ 2 ^ 53 :=
      le_trans (Nat.mul_le_mul (reach_mono r d) (Nat.pow_le_pow_right (by omega) (by nlinarith))) hd
    refine draw_fine (e := 1 + f * d) (B := reach r d) (by omega) (reach_ge r (d + 1)) (fun name => ⟨(ih hle name).1, ?_⟩) hg name
    intro cs hcs
    have h1 : 1 + f * d + f = 1 + f * (d + 1) := by rw [Nat.mul_succ]; omega
    exact ⟨h1 ▸ hd, by omega, le_rfl, (ih hle name).2 cs hcs⟩

private theorem run_mono (R : Rounding) (d d' : String → Py (List (Contour ℝ))) (h : ∀ n cs, d n = .ok cs → d' n = .ok cs)
    (calls : List (PenCall ℝ)) (s s' : SegmentPen ℝ) (hr : Rounded.Pen.run R d s calls = (s', .ok ())) :
    Rounded.Pen.run R d' s calls = (s', .ok ()) := by
  induction calls generalizing s with
  | nil => exact hr
  | cons c calls ih =>
    rw [Rounded.Pen.run] at hr ⊢
    have hcall : ∀ s1, Rounded.Pen.call R d s c = (s1, .ok ()) → Rounded.Pen.call R d' s c = (s1, .ok ()) := by
      intro s1 h1
      cases c with
      | addComponent n t =>
        simp only [Rounded.Pen.call] at h1 ⊢
        unfold Rounded.Pen.addComponent at h1 ⊢
        cases hn : d n with
        | error e =>
          rw [hn] at h1
          by_cases hid : t = SegmentPen.identityTransformation
          · simp only [hid, ne_eq, not_true_eq_false, if_false, pure_eq_ok, ok_bind, error_bind] at h1
            cases h1
          · simp only [hid, ne_eq, not_false_eq_true, if_true, pure_eq_ok, ok_bind, error_bind, Transform.new] at h1
            cases h1
        | ok cs => rw [hn] at h1; rw [h n cs hn]; exact h1
      | _ => exact h1
    cases hc : Rounded.Pen.call R d s c with
    | mk s1 r =>
      rw [hc] at hr
      cases r with
      | error e => simp at hr
      | ok u => rw [hcall s1 hc]; exact ih s1 hr

theorem Rounded.Pen.depth_irrelevant (R : Rounding) (depth extra : Nat) (gs : GlyphSet ℝ) (name : String) (cs : List (Contour ℝ))
    (h : Rounded.Pen.drawGlyph R depth gs name = .ok cs) : Rounded.Pen.drawGlyph R (depth + extra) gs name = .ok cs := by
  induction depth generalizing name cs with
  | zero => simp [Rounded.Pen.drawGlyph] at h
  | succ depth ih =>
    rw [show depth + 1 + extra = depth + extra + 1 by omega]
    rw [Rounded.Pen.drawGlyph] at h ⊢
    cases hg : gs name with
    | none => rw [hg] at h; simp at h
    | some calls =>
      rw [hg] at h
      simp only at h ⊢
      cases hr : Rounded.Pen.run R (Rounded.Pen.drawGlyph R depth gs) SegmentPen.init calls with
      | mk s' r =>
        rw [hr] at h
        cases r with
        | error e => simp at h
        | ok u => rw [run_mono R _ _ ih calls SegmentPen.init s' hr]; exact h

/-- C95: a glyph of a TrueType font (integer coordinates, component scales that are multiples of 1/16384 and at most 2) whose
components are nested at most two deep has in floating point arithmetic exactly the contours of exact arithmetic, whatever the depth of
Python's stack. -/
theorem C95_trueType (glyphSet : GlyphSet ℝ) (hg : GridFont 14 4 glyphSet) (name : String) (cs : List (Contour ℝ)) (extra : ℕ)
    (h : SegmentPen.drawGlyph 3 glyphSet name = .ok cs) :
    Rounded.Pen.drawGlyph float (3 + extra) glyphSet name = .ok cs ∧ SegmentPen.drawGlyph (3 + extra) glyphSet name = .ok cs := by
  have hd := (C95_exact 14 4 2 (by norm_num [reach]) glyphSet hg name).1
  exact ⟨Rounded.Pen.depth_irrelevant float 3 extra _ _ _ (hd.trans h), SegmentPen.C59_depth_irrelevant 3 extra _ _ _ h⟩

private theorem reach_one (d : ℕ) : reach 1 d = 32768 * (d + 1) := by
  induction d with
  | zero => rfl
  | succ d ih => show 1 * reach 1 d + 32768 = _; rw [ih]; ring

/-- C95: if components are only moved (or mirrored, or turned by quarter turns), their contours are exact however deep they are nested;
`2^37` is far beyond the depth of Python's stack. -/
theorem C95_moved (glyphSet : GlyphSet ℝ) (hg : GridFont 0 1 glyphSet) (name : String) (d : ℕ) (hd : d < 2 ^ 37) :
    Rounded.Pen.drawGlyph float (d + 1) glyphSet name = SegmentPen.drawGlyph (d + 1) glyphSet name :=
  (C95_exact 0 1 d (by rw [reach_one]; simp only [Nat.zero_mul, Nat.add_zero, pow_one]; norm_num; omega) glyphSet hg name).1

/-- A font with a glyph `a`, and glyphs `b`, `c` and `d` that each contain the previous one enlarged by a 16384th. -/
noncomputable def Spec.nestedFont : GlyphSet ℝ := fun n =>
  if n = "a" then some [.moveTo (32767, 0), .lineTo (0, 0), .closePath]
  else if n = "b" then some [.addComponent "a" ⟨16385 / 16384, 0, 0, 1, 0, 0⟩]
  else if n = "c" then some [.addComponent "b" ⟨16385 / 16384, 0, 0, 1, 0, 0⟩]
  else if n = "d" then some [.addComponent "c" ⟨16385 / 16384, 0, 0, 1, 0, 0⟩]
  else none

private theorem nestedFont_grid : GridFont 14 4 nestedFont := by
  have hz : ∀ f, Dyadic f 0 := fun f => ⟨0, by simp⟩
  have ht : GridComponent 14 4 ⟨16385 / 16384, 0, 0, 1, 0, 0⟩ := by
    refine ⟨⟨16385, by norm_num⟩, hz _, hz _, ⟨16384, by norm_num⟩, ?_, ?_, ⟨0, 0, by simp, by simp, by simp⟩⟩
    · rw [abs_of_pos (by norm_num)]; norm_num
    · norm_num
  intro name calls h c hc
  unfold nestedFont at h
  split_ifs at h <;> cases h
  · simp only [List.mem_cons, List.not_mem_nil, or_false] at hc
    rcases hc with rfl | rfl | rfl
    · exact ⟨32767, 0, by norm_num, by norm_num, by norm_num⟩
    · exact ⟨0, 0, by norm_num, by norm_num, by norm_num⟩
    · trivial
  all_goals
    simp only [List.mem_cons, List.not_mem_nil, or_false] at hc
    subst hc
    exact ht

private theorem draw_component (d : ℕ) (gs : GlyphSet ℝ) (n m : String) (t : ComponentTransform ℝ)
    (hn : gs n = some [.addComponent m t]) (ht : t ≠ SegmentPen.identityTransformation) :
    SegmentPen.drawGlyph (d + 1) gs n = (do
      let cs ← SegmentPen.drawGlyph d gs m
      Transform.applyToContours ⟨Transform.matrix t.xScale t.xyScale t.yxScale t.yScale t.xOffset t.yOffset 0 0 1⟩ cs) := by
  have hT : Transform.new [Transform.matrix t.xScale t.xyScale t.yxScale t.yScale t.xOffset t.yOffset 0 0 1] =
      .ok ⟨Transform.matrix t.xScale t.xyScale t.yxScale t.yScale t.xOffset t.yOffset 0 0 1⟩ := rfl
  rw [SegmentPen.drawGlyph, hn]
  simp only [SegmentPen.run, SegmentPen.call, SegmentPen.addComponent, ht, ne_eq, not_false_eq_true, if_true, pure_eq_ok, ok_bind,
    hT]
  cases SegmentPen.drawGlyph d gs m with
  | error e => rfl
  | ok cs =>
    rw [ok_bind]
    cases Transform.applyToContours ⟨Transform.matrix t.xScale t.xyScale t.yxScale t.yScale t.xOffset t.yOffset 0 0 1⟩ cs <;> rfl

private theorem draw_component_float (d : ℕ) (gs : GlyphSet ℝ) (n m : String) (t : ComponentTransform ℝ)
    (hn : gs n = some [.addComponent m t]) (ht : t ≠ SegmentPen.identityTransformation) :
    Rounded.Pen.drawGlyph float (d + 1) gs n = (do
      let cs ← Rounded.Pen.drawGlyph float d gs m
      Rounded.Pen.applyToContours float ⟨Transform.matrix t.xScale t.xyScale t.yxScale t.yScale t.xOffset t.yOffset 0 0 1⟩ cs) := by
  have hT : Transform.new [Transform.matrix t.xScale t.xyScale t.yxScale t.yScale t.xOffset t.yOffset 0 0 1] =
      .ok ⟨Transform.matrix t.xScale t.xyScale t.yxScale t.yScale t.xOffset t.yOffset 0 0 1⟩ := rfl
  rw [Rounded.Pen.drawGlyph, hn]
  simp only [Rounded.Pen.run, Rounded.Pen.call, Rounded.Pen.addComponent, ht, ne_eq, not_false_eq_true, if_true, pure_eq_ok, ok_bind,
    hT]
  cases Rounded.Pen.drawGlyph float d gs m with
  | error e => rfl
  | ok cs =>
    rw [ok_bind]
    cases Rounded.Pen.applyToContours float ⟨Transform.matrix t.xScale t.xyScale t.yxScale t.yScale t.xOffset t.yOffset 0 0 1⟩ cs <;> rfl

private theorem mem_of_mapM {α β : Type} {f : α → Py β} {l : List α} {r : List β} (h : l.mapM f = .ok r) :
    ∀ b ∈ r, ∃ a ∈ l, f a = .ok b := by
  induction l generalizing r with
  | nil => cases h; simp
  | cons a l ih =>
    rw [List.mapM_cons] at h
    simp only [bind_eq_ok] at h
    obtain ⟨b, hb, bs, hbs, hr⟩ := h
    cases hr
    intro x hx
    rcases List.mem_cons.mp hx with rfl | hx
    · exact ⟨a, by simp, hb⟩
    · obtain ⟨a', h1, h2⟩ := ih hbs x hx
      exact ⟨a', by simp [h1], h2⟩

/-- The coordinates of a transformed point are floating point numbers. -/
private theorem applyToPoint_float {T : Transform ℝ} {p q : Pt ℝ} (h : Rounded.applyToPoint float T p = .ok q) :
    float.rnd q.1 = q.1 := by
  unfold Rounded.applyToPoint at h
  simp only [bind_eq_ok] at h
  obtain ⟨rp, -, x, -, z, -, rx, hx, y, -, z', -, ry, -, h⟩ := h
  cases h
  unfold Rounded.pdiv at hx
  split_ifs at hx
  cases hx
  exact (binary 52).idem _

private theorem nestedFont_draw :
    SegmentPen.drawGlyph 3 nestedFont "c" =
      .ok [[[(32767 * (16385 / 16384) ^ 2, 0), (0, 0)], [(0, 0), (32767 * (16385 / 16384) ^ 2, 0)]]] ∧
    SegmentPen.drawGlyph 4 nestedFont "d" =
      .ok [[[(32767 * (16385 / 16384) ^ 3, 0), (0, 0)], [(0, 0), (32767 * (16385 / 16384) ^ 3, 0)]]] := by
  have ht : (⟨16385 / 16384, 0, 0, 1, 0, 0⟩ : ComponentTransform ℝ) ≠ SegmentPen.identityTransformation := by
    intro h
    have := congrArg ComponentTransform.xScale h
    norm_num [SegmentPen.identityTransformation] at this
  have hp : ∀ x y : ℝ, Transform.applyToPoint ⟨Transform.matrix (16385 / 16384) 0 0 1 0 0 0 0 1⟩ (x, y) =
      .ok (x * (16385 / 16384), y) := by
    intro x y
    unfold Transform.applyToPoint
    simp only [Transform.matrix, Transform.multiplyRowByMatrix, ok_bind, pyGet_zero_cons, pyGet_one_cons, pyGet_two_cons,
      mul_zero, zero_add, add_zero, mul_one, pdiv_of_ne _ (one_ne_zero (α := ℝ)), div_one, one_mul]
    rfl
  have hs : ∀ x : ℝ, Transform.applyToContours ⟨Transform.matrix (16385 / 16384) 0 0 1 0 0 0 0 1⟩
      [[[(x, 0), (0, 0)], [(0, 0), (x, 0)]]] =
      .ok [[[(x * (16385 / 16384), 0), (0, 0)], [(0, 0), (x * (16385 / 16384), 0)]]] := by
    intro x
    simp only [Transform.applyToContours, Transform.applyToContour, Transform.applyToSegment, List.mapM_cons, List.mapM_nil, hp,
      ok_bind, pure_eq_ok, zero_mul]
  have ha : SegmentPen.drawGlyph 1 nestedFont "a" = .ok [[[(32767, 0), (0, 0)], [(0, 0), (32767, 0)]]] := by
    have h0 : nestedFont "a" = some [.moveTo (32767, 0), .lineTo (0, 0), .closePath] := by simp [nestedFont]
    have h1 : ((32767, 0) : Pt ℝ) ≠ (0, 0) := by simp
    rw [SegmentPen.drawGlyph, h0]
    simp [SegmentPen.run, SegmentPen.call, SegmentPen.moveTo, SegmentPen.lineTo, SegmentPen.append, SegmentPen.closePath,
      SegmentPen.closing, SegmentPen.init, h1, h1.symm, pyGet]
  have hc : SegmentPen.drawGlyph 3 nestedFont "c" =
      .ok [[[(32767 * (16385 / 16384) ^ 2, 0), (0, 0)], [(0, 0), (32767 * (16385 / 16384) ^ 2, 0)]]] := by
    rw [draw_component 2 nestedFont "c" "b" _ (by simp [nestedFont]) ht,
      draw_component 1 nestedFont "b" "a" _ (by simp [nestedFont]) ht, ha]
    simp only [ok_bind, hs]
    norm_num
  refine ⟨hc, ?_⟩
  rw [draw_component 3 nestedFont "d" "c" _ (by simp [nestedFont]) ht, hc]
  simp only [ok_bind, hs]
  norm_num

/-- A case of C95: a component in a component, both scaled. -/
example (extra : ℕ) : Rounded.Pen.drawGlyph float (3 + extra) nestedFont "c" =
    .ok [[[(32767 * (16385 / 16384) ^ 2, 0), (0, 0)], [(0, 0), (32767 * (16385 / 16384) ^ 2, 0)]]] :=
  (C95_trueType nestedFont nestedFont_grid "c" _ extra nestedFont_draw.1).1

/-- C95: three nested enlargements are too many: the exact coordinate has 57 significant bits, which no floating point number has. -/
theorem C95_three :
    SegmentPen.drawGlyph 4 nestedFont "d" =
      .ok [[[(32767 * (16385 / 16384) ^ 3, 0), (0, 0)], [(0, 0), (32767 * (16385 / 16384) ^ 3, 0)]]] ∧
    Rounded.Pen.drawGlyph float 4 nestedFont "d" ≠ SegmentPen.drawGlyph 4 nestedFont "d" := by
  have ht : (⟨16385 / 16384, 0, 0, 1, 0, 0⟩ : ComponentTransform ℝ) ≠ SegmentPen.identityTransformation := by
    intro h
    have := congrArg ComponentTransform.xScale h
    norm_num [SegmentPen.identityTransformation] at this
  have hd := nestedFont_draw.2
  refine ⟨hd, ?_⟩
  rw [hd]
  intro h
  rw [draw_component_float 3 nestedFont "d" "c" _ (by simp [nestedFont]) ht, bind_eq_ok] at h
  obtain ⟨cs, -, h⟩ := h
  obtain ⟨c, -, h⟩ := mem_of_mapM h _ (by simp; rfl)
  obtain ⟨s, -, h⟩ := mem_of_mapM h _ (List.mem_cons_self ..)
  obtain ⟨p, -, h⟩ := mem_of_mapM h _ (List.mem_cons_self ..)
  have h1 := applyToPoint_float h
  have h2 : ((32767 * (16385 / 16384) ^ 3 : ℝ)) = ((32767 * (16385 / 16384) ^ 3 : ℚ) : ℝ) := by push_cast; rfl
  have h3 : roundBits 53 (32767 * (16385 / 16384) ^ 3 : ℝ) = 32767 * (16385 / 16384) ^ 3 := h1
  rw [h2, roundQ_cast] at h3
  have h4 : roundQ 53 (32767 * (16385 / 16384) ^ 3) = 32767 * (16385 / 16384) ^ 3 := by exact_mod_cast h3
  exact absurd h4 (by decide +kernel)

end PathLib
