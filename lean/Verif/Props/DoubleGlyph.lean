import Verif.Props.Double
import Verif.Props.RoundedPen
import Verif.Props.RoundedGlyph

/-!
# Glyphs in double precision: C124
-/

set_option linter.unusedSectionVars false
set_option linter.unusedSimpArgs false

namespace PathLib

open Spec

/-- All numbers in the call are moderate: coordinates of points, and scales and offsets of components. -/
def Spec.ModerateCall : PenCall ℝ → Prop
  | .moveTo p => ModeratePt p
  | .lineTo p => ModeratePt p
  | .curveTo points => ∀ p ∈ points, ModeratePt p
  | .qCurveTo points => ∀ p ∈ points, ModeratePt p
  | .addComponent _ t => ModeratePt (t.xScale, t.xyScale) ∧ ModeratePt (t.yxScale, t.yScale) ∧ ModeratePt (t.xOffset, t.yOffset)
  | _ => True

namespace DoubleGlyph

open Rounded.Pen

/-- All numbers in the call are safe. -/
def SafeCall (e k : ℕ) : PenCall ℝ → Prop
  | .moveTo p => SafePt e k p p
  | .lineTo p => SafePt e k p p
  | .curveTo points => ∀ p ∈ points, SafePt e k p p
  | .qCurveTo points => ∀ p ∈ points, SafePt e k p p
  | .addComponent _ t => SafePt e k (t.xScale, t.xyScale) (t.xScale, t.xyScale) ∧ SafePt e k (t.yxScale, t.yScale) (t.yxScale, t.yScale) ∧
      SafePt e k (t.xOffset, t.yOffset) (t.xOffset, t.yOffset)
  | _ => True

/-- All points of the contour are safe. -/
def SafeContour (e k : ℕ) (c : Contour ℝ) : Prop := ∀ s ∈ c, ∀ p ∈ s, SafePt e k p p

/-- What is known of the pen. -/
structure SafePen (a b e k : ℕ) (s : SegmentPen ℝ) : Prop where
  contours : ∀ c ∈ s.contours, SafeContour e k c
  contour : ∀ c, s.contour = some c → SafeContour e k c
  last : SafePt a b s.lastOnCurve s.lastOnCurve

section
variable {c : ℝ} {a b e k : ℕ}

theorem safe_half : Safe 1 0 (1 / 2 : ℝ) (1 / 2) := ⟨rfl, ⟨1, by norm_num⟩, by norm_num [abs_of_pos]⟩

theorem middle_eq {p q : Pt ℝ} (hp : SafePt a b p p) (hq : SafePt a b q q) (ha : a + 1 ≤ 1074) (hb : b + 1 ≤ 1023) :
    ((double c).mul (1 / 2) ((double c).add p.1 q.1), (double c).mul (1 / 2) ((double c).add p.2 q.2)) =
      (float.mul (1 / 2) (float.add p.1 q.1), float.mul (1 / 2) (float.add p.2 q.2)) ∧
    SafePt (a + 1) (b + 1) (float.mul (1 / 2) (float.add p.1 q.1), float.mul (1 / 2) (float.add p.2 q.2))
      (float.mul (1 / 2) (float.add p.1 q.1), float.mul (1 / 2) (float.add p.2 q.2)) := by
  have h1 := safe_half.mul (c := c) (hp.1.add (c := c) hq.1 (by omega) hb) (by omega) (by omega)
  have h2 := safe_half.mul (c := c) (hp.2.add (c := c) hq.2 (by omega) hb) (by omega) (by omega)
  have e1 := h1.eq
  have e2 := h2.eq
  rw [e1] at h1
  rw [e2] at h2
  refine ⟨Prod.ext e1 e2, h1.mono (by omega) (by omega), h2.mono (by omega) (by omega)⟩

theorem qLoop_eq {segment : Segment ℝ} (hs : ∀ p ∈ segment, SafePt a b p p) (ha : a + 1 ≤ 1074) (hb : b + 1 ≤ 1023) (is : List ℕ)
    {start : Pt ℝ} (h0 : SafePt (a + 1) (b + 1) start start) :
    qLoop (double c) segment start is = qLoop float segment start is ∧
    ∀ r, qLoop float segment start is = .ok r → SafeContour (a + 1) (b + 1) r.1 ∧ SafePt (a + 1) (b + 1) r.2 r.2 := by
  induction is generalizing start with
  | nil => exact ⟨rfl, by rintro r ⟨⟩; exact ⟨by simp [SafeContour], h0⟩⟩
  | cons i is ih =>
    rw [qLoop, qLoop]
    cases g1 : pyGet segment (i : Int) with
    | error e => exact ⟨rfl, by rintro r ⟨⟩⟩
    | ok p1 =>
      cases g2 : pyGet segment ((i + 1 : ℕ) : Int) with
      | error e => exact ⟨rfl, by rintro r ⟨⟩⟩
      | ok p2 =>
        simp only [ok_bind]
        have s1 := hs _ (RoundedGlyph.pyGet_mem g1)
        obtain ⟨m1, m2⟩ := middle_eq (c := c) s1 (hs _ (RoundedGlyph.pyGet_mem g2)) ha hb
        rw [m1]
        obtain ⟨i1, i2⟩ := ih m2
        rw [i1]
        refine ⟨rfl, ?_⟩
        intro r hr
        obtain ⟨⟨rest, last⟩, g3, hr⟩ := bind_eq_ok.mp hr
        cases hr
        obtain ⟨k1, k2⟩ := i2 _ g3
        refine ⟨?_, k2⟩
        intro s hs
        rcases List.mem_cons.mp hs with rfl | hs
        · intro p hp
          simp only [List.mem_cons, List.not_mem_nil, or_false] at hp
          rcases hp with rfl | rfl | rfl
          · exact h0
          · exact s1.mono (by omega) (by omega)
          · exact m2
        · exact k1 s hs

theorem qSegments_eq {segment : Segment ℝ} (hs : ∀ p ∈ segment, SafePt a b p p) (ha : a + 1 ≤ 1074) (hb : b + 1 ≤ 1023) :
    qSegments (double c) segment = qSegments float segment ∧
    ∀ r, qSegments float segment = .ok r → SafeContour (a + 1) (b + 1) r := by
  have hs' : ∀ p ∈ segment, SafePt (a + 1) (b + 1) p p := fun p hp => (hs p hp).mono (by omega) (by omega)
  unfold qSegments
  split_ifs
  · refine ⟨rfl, ?_⟩
    rintro r ⟨⟩
    intro s h
    rw [List.mem_singleton.mp h]
    exact hs'
  · cases g0 : pyGet segment 0 with
    | error e => exact ⟨rfl, by rintro r ⟨⟩⟩
    | ok p0 =>
      simp only [ok_bind]
      obtain ⟨i1, i2⟩ := qLoop_eq (c := c) hs ha hb (List.range' 1 (segment.length - 3)) (hs' _ (RoundedGlyph.pyGet_mem g0))
      rw [i1]
      refine ⟨rfl, ?_⟩
      intro r hr
      obtain ⟨⟨pieces, start⟩, g1, hr⟩ := bind_eq_ok.mp hr
      obtain ⟨p2, g2, hr⟩ := bind_eq_ok.mp hr
      obtain ⟨p3, g3, hr⟩ := bind_eq_ok.mp hr
      cases hr
      obtain ⟨k1, k2⟩ := i2 _ g1
      intro s h
      rcases List.mem_append.mp h with h | h
      · exact k1 s h
      · rw [List.mem_singleton.mp h]
        intro p hp
        simp only [List.mem_cons, List.not_mem_nil, or_false] at hp
        rcases hp with rfl | rfl | rfl
        · exact k2
        · exact hs' _ (RoundedGlyph.pyGet_mem g2)
        · exact hs' _ (RoundedGlyph.pyGet_mem g3)

theorem sum_safe {f l e k : ℕ} {w0 w1 w2 x0 x1 x2 : ℝ} (he : f + e ≤ 1074) (hk : l + k + 2 ≤ 1023)
    (a0 : Safe f l w0 w0) (a1 : Safe f l w1 w1) (a2 : Safe f l w2 w2) (h0 : Safe e k x0 x0) (h1 : Safe e k x1 x1) (h2 : Safe e k x2 x2) :
    Safe (f + e) (l + k + 2)
      ((double c).add ((double c).add ((double c).mul w0 x0) ((double c).mul w1 x1)) ((double c).mul w2 x2))
      (float.add (float.add (float.mul w0 x0) (float.mul w1 x1)) (float.mul w2 x2)) := by
  have m0 := a0.mul (c := c) h0 he (by omega)
  have m1 := a1.mul (c := c) h1 he (by omega)
  have m2 := (a2.mul (c := c) h2 he (by omega)).mono (le_refl (f + e)) (show l + k ≤ l + k + 1 by omega)
  exact (m0.add m1 he (by omega)).add m2 he (by omega)

/-- The divisor of an affine transformation is exactly 1. -/
theorem third_one (R : Rounding) (h1 : R.rnd 1 = 1) (x y : ℝ) : R.add (R.add (R.mul x 0) (R.mul y 0)) (R.mul 1 1) = 1 := by
  have h0 : R.rnd 0 = 0 := R.rnd_zero
  simp [Rounding.add, Rounding.mul, h0, h1]

theorem double_one : (double c).rnd 1 = 1 := by
  have h : Safe 0 0 (1:ℝ) 1 := by simpa using Safe.int 1 (k := 0) (by norm_num)
  have := (h.round (c := c) (by norm_num) (by norm_num)).eq
  rw [this]
  have := roundBits_power 0
  rwa [zpow_zero] at this

theorem float_one : float.rnd 1 = 1 := by
  have := roundBits_power 0
  rwa [zpow_zero] at this

theorem point_safe {t : ComponentTransform ℝ} (ht : SafeCall a b (.addComponent "" t)) {p : Pt ℝ} (hp : SafePt e k p p) (he : e + a ≤ 1074)
    (hk : k + b + 2 ≤ 1023) :
    ∃ q, Rounded.applyToPoint (double c) ⟨Transform.matrix t.xScale t.xyScale t.yxScale t.yScale t.xOffset t.yOffset 0 0 1⟩ p = .ok q ∧
      Rounded.applyToPoint float ⟨Transform.matrix t.xScale t.xyScale t.yxScale t.yScale t.xOffset t.yOffset 0 0 1⟩ p = .ok q ∧
      SafePt (e + a) (k + b + 2) q q := by
  obtain ⟨⟨a1, a2⟩, ⟨b1, b2⟩, c1, c2⟩ := ht
  have s1 : Safe e k (1:ℝ) 1 := Safe.mono (by simpa using Safe.int 1 (k := 0) (by norm_num)) (by omega) (by omega)
  have hx := sum_safe (c := c) he hk hp.1 hp.2 s1 a1 b1 c1
  have hy := sum_safe (c := c) he hk hp.1 hp.2 s1 a2 b2 c2
  have rx := hx.round (c := c) he hk
  have ry := hy.round (c := c) he hk
  have key : ∀ R : Rounding, R.rnd 1 = 1 →
      Rounded.applyToPoint R ⟨Transform.matrix t.xScale t.xyScale t.yxScale t.yScale t.xOffset t.yOffset 0 0 1⟩ p =
        .ok (R.rnd (R.add (R.add (R.mul p.1 t.xScale) (R.mul p.2 t.yxScale)) (R.mul 1 t.xOffset)),
          R.rnd (R.add (R.add (R.mul p.1 t.xyScale) (R.mul p.2 t.yScale)) (R.mul 1 t.yOffset))) := by
    intro R h1
    simp only [Rounded.applyToPoint, Rounded.multiplyRowByMatrix, Transform.matrix, ok_bind, pyGet_zero_cons, pyGet_one_cons,
      pyGet_two_cons, third_one R h1, Rounded.pdiv, one_ne_zero, if_false, Rounding.div, div_one, pure_eq_ok]
  refine ⟨_, key _ double_one, ?_, ?_⟩
  · rw [key _ float_one, rx.eq, ry.eq]
  · have e1 := rx.eq
    have e2 := ry.eq
    have f1 := rx
    have f2 := ry
    rw [← e1] at f1
    rw [← e2] at f2
    exact ⟨f1, f2⟩

theorem mapM_same {α β : Type} {f g : α → Py β} {P : β → Prop} (l : List α) (h : ∀ x ∈ l, ∃ y, f x = .ok y ∧ g x = .ok y ∧ P y) :
    ∃ r, l.mapM f = .ok r ∧ l.mapM g = .ok r ∧ ∀ y ∈ r, P y := by
  induction l with
  | nil => exact ⟨[], rfl, rfl, by simp⟩
  | cons x l ih =>
    obtain ⟨y, h1, h2, h3⟩ := h x (by simp)
    obtain ⟨r, i1, i2, i3⟩ := ih fun x hx => h x (by simp [hx])
    refine ⟨y :: r, ?_, ?_, ?_⟩
    · rw [List.mapM_cons, h1, i1]; rfl
    · rw [List.mapM_cons, h2, i2]; rfl
    · intro z hz
      rcases List.mem_cons.mp hz with rfl | hz
      · exact h3
      · exact i3 z hz

theorem contours_safe {t : ComponentTransform ℝ} (ht : SafeCall a b (.addComponent "" t)) {cs : List (Contour ℝ)}
    (hc : ∀ x ∈ cs, SafeContour e k x) (he : e + a ≤ 1074) (hk : k + b + 2 ≤ 1023) :
    ∃ q, applyToContours (double c) ⟨Transform.matrix t.xScale t.xyScale t.yxScale t.yScale t.xOffset t.yOffset 0 0 1⟩ cs = .ok q ∧
      applyToContours float ⟨Transform.matrix t.xScale t.xyScale t.yxScale t.yScale t.xOffset t.yOffset 0 0 1⟩ cs = .ok q ∧
      ∀ x ∈ q, SafeContour (e + a) (k + b + 2) x :=
  mapM_same cs fun x h1 => mapM_same x fun s h2 => mapM_same s fun p h3 => point_safe ht (hc x h1 s h2 p h3) he hk

theorem contour_append {x y : Contour ℝ} (hx : SafeContour e k x) (hy : SafeContour e k y) : SafeContour e k (x ++ y) := by
  intro s hs
  rcases List.mem_append.mp hs with h | h
  · exact hx s h
  · exact hy s h

theorem contour_single {s : Segment ℝ} (h : ∀ p ∈ s, SafePt e k p p) : SafeContour e k [s] := by
  intro s' hs
  rw [List.mem_singleton.mp hs]
  exact h

variable {e' k' : ℕ}

theorem call_eq {d d' : String → Py (List (Contour ℝ))} (hd : ∀ name, d name = d' name ∧ ∀ cs, d' name = .ok cs → ∀ x ∈ cs, SafeContour e' k' x)
    (he' : e' + a ≤ e) (hk' : k' + b + 2 ≤ k) (ha : a + 1 ≤ e) (hb : b + 1 ≤ k) (he : e ≤ 1074) (hk : k ≤ 1023)
    {s : SegmentPen ℝ} (hs : SafePen a b e k s) {x : PenCall ℝ} (hx : SafeCall a b x) :
    call (double c) d s x = call float d' s x ∧ SafePen a b e k (call float d' s x).1 := by
  obtain ⟨h1, h2, h3⟩ := hs
  have up : ∀ {p : Pt ℝ}, SafePt a b p p → SafePt e k p p := fun h => h.mono (by omega) (by omega)
  cases x with
  | moveTo p => exact ⟨rfl, h1, by rintro c ⟨rfl⟩; simp [SafeContour], hx⟩
  | lineTo p =>
    refine ⟨rfl, ?_⟩
    simp only [call, SegmentPen.lineTo, SegmentPen.append]
    split_ifs
    · cases hcc : s.contour with
      | none => exact ⟨h1, by simp [hcc], h3⟩
      | some y =>
        refine ⟨h1, ?_, hx⟩
        rintro _ ⟨rfl⟩
        refine contour_append (h2 y hcc) (contour_single ?_)
        intro q hq
        simp only [List.mem_cons, List.not_mem_nil, or_false] at hq
        rcases hq with rfl | rfl
        · exact up h3
        · exact up hx
    · exact ⟨h1, h2, h3⟩
  | curveTo ps =>
    refine ⟨rfl, ?_⟩
    simp only [call, SegmentPen.curveTo, SegmentPen.append]
    cases hcc : s.contour with
    | none => exact ⟨h1, by simp [hcc], h3⟩
    | some y =>
      have new : SafeContour e k (y ++ [s.lastOnCurve :: ps]) := by
        refine contour_append (h2 y hcc) (contour_single ?_)
        intro q hq
        rcases List.mem_cons.mp hq with rfl | hq
        · exact up h3
        · exact up (hx q hq)
      dsimp only
      cases g : pyGet ps (-1) with
      | error er => exact ⟨h1, by rintro _ ⟨rfl⟩; exact new, h3⟩
      | ok p => exact ⟨h1, by rintro _ ⟨rfl⟩; exact new, hx p (RoundedGlyph.pyGet_mem g)⟩
  | qCurveTo ps =>
    have hall : ∀ p ∈ s.lastOnCurve :: ps, SafePt a b p p := by
      intro p hp
      rcases List.mem_cons.mp hp with rfl | hp
      · exact h3
      · exact hx p hp
    obtain ⟨q1, q2⟩ := qSegments_eq (c := c) hall (by omega) (by omega)
    simp only [call]
    unfold qCurveTo
    simp only [q1]
    refine ⟨trivial, ?_⟩
    cases hq : qSegments float (s.lastOnCurve :: ps) with
    | error er => exact ⟨h1, h2, h3⟩
    | ok pieces =>
      cases hcc : s.contour with
      | none => exact ⟨h1, by simp [hcc], h3⟩
      | some y =>
        have new : SafeContour e k (y ++ pieces) :=
          contour_append (h2 y hcc) fun s hs p hp => (q2 _ hq s hs p hp).mono (by omega) (by omega)
        dsimp only
        cases g : pyGet (s.lastOnCurve :: ps) (-1) with
        | error er => exact ⟨h1, by rintro _ ⟨rfl⟩; exact new, h3⟩
        | ok p => exact ⟨h1, by rintro _ ⟨rfl⟩; exact new, hall p (RoundedGlyph.pyGet_mem g)⟩
  | closePath =>
    refine ⟨rfl, ?_⟩
    simp only [call]
    have store : ∀ y, SafeContour e k y → ∀ z ∈ s.contours ++ [y], SafeContour e k z := by
      intro y hy z hz
      rcases List.mem_append.mp hz with h | h
      · exact h1 z h
      · rw [List.mem_singleton.mp h]; exact hy
    unfold SegmentPen.closePath
    split
    · exact ⟨h1, h2, h3⟩
    · exact ⟨h1, h2, h3⟩
    · rename_i y _ hcc
      split
      · exact ⟨store y (h2 y hcc), h2, h3⟩
      · rename_i y' hcl
        refine ⟨store y' ?_, by rintro _ ⟨rfl⟩; simp [SafeContour], h3⟩
        unfold SegmentPen.closing at hcl
        obtain ⟨s0, g0, hcl⟩ := bind_eq_ok.mp hcl
        obtain ⟨p, gp, hcl⟩ := bind_eq_ok.mp hcl
        obtain ⟨sn, gn, hcl⟩ := bind_eq_ok.mp hcl
        obtain ⟨q, gq, hcl⟩ := bind_eq_ok.mp hcl
        have hp := h2 y hcc s0 (RoundedGlyph.pyGet_mem g0) p (RoundedGlyph.pyGet_mem gp)
        have hq := h2 y hcc sn (RoundedGlyph.pyGet_mem gn) q (RoundedGlyph.pyGet_mem gq)
        split_ifs at hcl
        · cases hcl
          refine contour_append (h2 y hcc) (contour_single ?_)
          intro r hr
          simp only [List.mem_cons, List.not_mem_nil, or_false] at hr
          rcases hr with rfl | rfl
          · exact hq
          · exact hp
        · cases hcl
          exact h2 y hcc
  | addComponent name t =>
    obtain ⟨d1, d2⟩ := hd name
    have store : ∀ cs, (∀ z ∈ cs, SafeContour e k z) → SafePen a b e k { s with contours := s.contours ++ cs } := by
      intro cs hcs
      refine ⟨?_, h2, h3⟩
      intro z hz
      rcases List.mem_append.mp hz with h | h
      · exact h1 z h
      · exact hcs z h
    simp only [call]
    unfold addComponent
    rw [d1]
    split_ifs with ht
    · simp only [Transform.new_single, ok_bind, pure_eq_ok]
      cases g : d' name with
      | error er => exact ⟨rfl, h1, h2, h3⟩
      | ok cs =>
        obtain ⟨q, q1, q2, q3⟩ := contours_safe (c := c) (e := e') (k := k') (a := a) (b := b) (t := t) hx (d2 cs g) (by omega) (by omega)
        simp only [ok_bind, q1, q2]
        exact ⟨trivial, store q fun z hz s hs p hp => (q3 z hz s hs p hp).mono he' hk'⟩
    · simp only [pure_eq_ok, ok_bind]
      cases g : d' name with
      | error er => exact ⟨trivial, h1, h2, h3⟩
      | ok cs => exact ⟨trivial, store cs fun z hz s hs p hp => (d2 cs g z hz s hs p hp).mono (by omega) (by omega)⟩
  | addPoint => exact ⟨rfl, h1, h2, h3⟩
  | beginPath => exact ⟨rfl, h1, h2, h3⟩
  | endPath => exact ⟨rfl, h1, h2, h3⟩

theorem run_eq {d d' : String → Py (List (Contour ℝ))} (hd : ∀ name, d name = d' name ∧ ∀ cs, d' name = .ok cs → ∀ x ∈ cs, SafeContour e' k' x)
    (he' : e' + a ≤ e) (hk' : k' + b + 2 ≤ k) (ha : a + 1 ≤ e) (hb : b + 1 ≤ k) (he : e ≤ 1074) (hk : k ≤ 1023)
    (calls : List (PenCall ℝ)) (hx : ∀ x ∈ calls, SafeCall a b x) {s : SegmentPen ℝ} (hs : SafePen a b e k s) :
    run (double c) d s calls = run float d' s calls ∧ SafePen a b e k (run float d' s calls).1 := by
  induction calls generalizing s with
  | nil => exact ⟨rfl, hs⟩
  | cons x xs ih =>
    obtain ⟨c1, c2⟩ := call_eq (c := c) hd he' hk' ha hb he hk hs (hx x (by simp))
    rw [run, run, c1]
    rcases hr : call float d' s x with ⟨s', _ | _⟩
    · rw [hr] at c2; exact ⟨rfl, c2⟩
    · rw [hr] at c2; exact ih (fun x h => hx x (by simp [h])) c2

theorem draw_eq {gs : GlyphSet ℝ} (hg : ∀ name calls, gs name = some calls → ∀ x ∈ calls, SafeCall a b x) (d : ℕ) (hd : 1 + a * d ≤ 1074)
    (hd' : (b + 2) * d ≤ 1023) (name : String) :
    drawGlyph (double c) d gs name = drawGlyph float d gs name ∧
    ∀ cs, drawGlyph float d gs name = .ok cs → ∀ x ∈ cs, SafeContour (1 + a * d) ((b + 2) * d) x := by
  induction d generalizing name with
  | zero => exact ⟨rfl, by rintro cs ⟨⟩⟩
  | succ d ih =>
    rw [Nat.mul_add, Nat.mul_one] at hd hd'
    rw [drawGlyph, drawGlyph]
    cases hn : gs name with
    | none => exact ⟨rfl, by rintro cs ⟨⟩⟩
    | some calls =>
      have h0 : SafePt a b ((0:ℝ), (0:ℝ)) (0, 0) := ⟨⟨rfl, ⟨0, by simp⟩, by simp⟩, ⟨rfl, ⟨0, by simp⟩, by simp⟩⟩
      obtain ⟨r1, r2⟩ := run_eq (c := c) (e := 1 + a * (d + 1)) (k := (b + 2) * (d + 1)) (fun n => ih (by omega) (by omega) n)
        (by rw [Nat.mul_add]; omega) (by rw [Nat.mul_add]; omega) (by rw [Nat.mul_add]; omega) (by rw [Nat.mul_add]; omega)
        (by rw [Nat.mul_add]; omega) (by rw [Nat.mul_add]; omega) calls (hg name calls hn)
        (s := SegmentPen.init) ⟨by simp [SegmentPen.init], by simp [SegmentPen.init], h0⟩
      simp only [r1]
      rcases hr : run float (drawGlyph float d gs) SegmentPen.init calls with ⟨s', _ | _⟩
      · exact ⟨trivial, by rintro cs ⟨⟩⟩
      · rw [hr] at r2
        refine ⟨trivial, ?_⟩
        intro cs hcs
        have := Except.ok.inj hcs
        subst this
        exact r2.contours

theorem safe_call {x : PenCall ℝ} (h : ModerateCall x) : SafeCall 100 100 x := by
  have k : ∀ {p : Pt ℝ}, ModeratePt p → SafePt 100 100 p p := fun h => ⟨safe_moderate h.1, safe_moderate h.2⟩
  cases x with
  | moveTo p => exact k h
  | lineTo p => exact k h
  | curveTo ps => exact fun p hp => k (h p hp)
  | qCurveTo ps => exact fun p hp => k (h p hp)
  | addComponent _ t => exact ⟨k h.1, k h.2.1, k h.2.2⟩
  | _ => trivial

theorem grid_call {x : PenCall ℝ} (h : GridCall 14 4 x) : SafeCall 14 15 x := by
  have i : ∀ {m : ℤ}, |m| ≤ 32768 → Safe 14 15 (m : ℝ) m := by
    intro m hm
    have : |(m : ℝ)| ≤ 2 ^ 15 := by
      have : ((|m| : ℤ) : ℝ) ≤ 32768 := by exact_mod_cast hm
      rw [Int.cast_abs] at this
      norm_num
      exact this
    exact (Safe.int m this).mono (by norm_num) (le_refl _)
  have k : ∀ {p : Pt ℝ}, OnGrid p → SafePt 14 15 p p := by
    rintro _ ⟨m, n, hm, hn, rfl⟩
    exact ⟨i hm, i hn⟩
  have dy : ∀ {y z : ℝ}, Dyadic 14 y → |y| + |z| ≤ (4:ℕ) → Safe 14 15 y y := by
    rintro y z ⟨m, hm⟩ hy
    refine ⟨rfl, ⟨m, by rw [hm, zpow_neg, div_eq_mul_inv]; norm_cast⟩, ?_⟩
    have := abs_nonneg z
    norm_num at hy ⊢
    linarith
  cases x with
  | moveTo p => exact k h
  | lineTo p => exact k h
  | curveTo ps => exact fun p hp => k (h p hp)
  | qCurveTo ps => exact fun p hp => k (h p hp)
  | addComponent _ t =>
    exact ⟨⟨dy h.xScale h.x, dy h.xyScale h.y⟩, ⟨dy h.yxScale (by rw [add_comm]; exact h.x), dy h.yScale (by rw [add_comm]; exact h.y)⟩, k h.offset⟩
  | _ => trivial

/-- More stack does not change a result. -/
theorem depth_more (R : Rounding) (depth extra : ℕ) (gs : GlyphSet ℝ) (name : String) (cs : List (Contour ℝ))
    (h : drawGlyph R depth gs name = .ok cs) : drawGlyph R (depth + extra) gs name = .ok cs :=
  Rounded.Pen.depth_irrelevant R depth extra gs name cs h

end
end DoubleGlyph

section
variable {c : ℝ}

/-- C124: drawing a glyph neither underflows nor overflows, if all coordinates, scales and offsets in the font are moderate and components
are nested less than ten deep. -/
theorem C124_glyph (gs : GlyphSet ℝ) (hg : ∀ name calls, gs name = some calls → ∀ x ∈ calls, ModerateCall x) (depth : ℕ) (hd : depth ≤ 10)
    (name : String) : Rounded.Pen.drawGlyph (double c) depth gs name = Rounded.Pen.drawGlyph float depth gs name :=
  (DoubleGlyph.draw_eq (a := 100) (b := 100) (fun n calls h x hx => DoubleGlyph.safe_call (hg n calls h x hx)) depth (by omega) (by omega)
    name).1

example : ∃ gs : GlyphSet ℝ, (∀ name calls, gs name = some calls → ∀ x ∈ calls, ModerateCall x) ∧
    gs "a" = some [.moveTo (3, 5), .qCurveTo [(10, 20), (30, 21), (7, 8)], .closePath] ∧
    gs "b" = some [.addComponent "a" ⟨1 / 4, 0, 3, 1, 100, -20⟩] := by
  refine ⟨fun n => if n = "a" then some [.moveTo (3, 5), .qCurveTo [(10, 20), (30, 21), (7, 8)], .closePath]
    else if n = "b" then some [.addComponent "a" ⟨1 / 4, 0, 3, 1, 100, -20⟩] else none, ?_, by simp, by simp⟩
  have i : ∀ m : ℤ, |m| ≤ 32768 → Moderate (m : ℝ) := fun m hm => (C124_grid (p := ((m : ℝ), (m : ℝ))) ⟨m, m, hm, hm, rfl⟩).1
  have q : Moderate (1 / 4) := by
    refine ⟨?_, Or.inr ⟨by norm_num [abs_of_pos], by norm_num [abs_of_pos]⟩⟩
    have := roundBits_power (-2)
    rwa [show (2:ℝ) ^ (-2 : ℤ) = 1 / 4 by norm_num] at this
  have n0 : Moderate 0 := by simpa using i 0 (by norm_num)
  have n1 : Moderate 1 := by simpa using i 1 (by norm_num)
  have n3 : Moderate 3 := by simpa using i 3 (by norm_num)
  have n5 : Moderate 5 := by simpa using i 5 (by norm_num)
  have n7 : Moderate 7 := by simpa using i 7 (by norm_num)
  have n8 : Moderate 8 := by simpa using i 8 (by norm_num)
  have n10 : Moderate 10 := by simpa using i 10 (by norm_num)
  have n20 : Moderate 20 := by simpa using i 20 (by norm_num)
  have n21 : Moderate 21 := by simpa using i 21 (by norm_num)
  have n30 : Moderate 30 := by simpa using i 30 (by norm_num)
  have n100 : Moderate 100 := by simpa using i 100 (by norm_num)
  have m20 : Moderate (-20) := by simpa using i (-20) (by norm_num)
  intro name calls h x hx
  dsimp only at h
  split_ifs at h
  · cases h
    simp only [List.mem_cons, List.not_mem_nil, or_false] at hx
    rcases hx with rfl | rfl | rfl
    · exact ⟨n3, n5⟩
    · intro p hp
      simp only [List.mem_cons, List.not_mem_nil, or_false] at hp
      rcases hp with rfl | rfl | rfl
      · exact ⟨n10, n20⟩
      · exact ⟨n30, n21⟩
      · exact ⟨n7, n8⟩
    · trivial
  · cases h
    simp only [List.mem_cons, List.not_mem_nil, or_false] at hx
    subst hx
    exact ⟨⟨q, n0⟩, ⟨n3, n1⟩, ⟨n100, m20⟩⟩

/-- C124: with the numbers that a TrueType font can contain, components may be nested almost sixty deep. -/
theorem C124_trueType (gs : GlyphSet ℝ) (hg : GridFont 14 4 gs) (depth : ℕ) (hd : depth ≤ 60) (name : String) :
    Rounded.Pen.drawGlyph (double c) depth gs name = Rounded.Pen.drawGlyph float depth gs name :=
  (DoubleGlyph.draw_eq (a := 14) (b := 15) (fun n calls h x hx => DoubleGlyph.grid_call (hg n calls h x hx)) depth (by omega) (by omega)
    name).1

/-- C124: a glyph of a TrueType font with components nested at most two deep has, drawn with double precision, exactly the contours of
exact arithmetic. -/
theorem C124_trueType_exact (gs : GlyphSet ℝ) (hg : GridFont 14 4 gs) (name : String) (cs : List (Contour ℝ)) (extra : ℕ)
    (h : SegmentPen.drawGlyph 3 gs name = .ok cs) :
    Rounded.Pen.drawGlyph (double c) (3 + extra) gs name = .ok cs := by
  have h3 := (C95_trueType gs hg name cs 0 h).1
  rw [Nat.add_zero, ← C124_trueType (c := c) gs hg 3 (by norm_num) name] at h3
  exact DoubleGlyph.depth_more _ 3 extra gs name cs h3

end
end PathLib
