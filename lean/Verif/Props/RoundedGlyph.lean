import Verif.Props.NumberText
import Verif.Model.RoundedPen

set_option linter.unusedSectionVars false
set_option linter.unusedSimpArgs false

/-!
# From the pen calls of a glyph to SVG text, in floating point: C123
-/

namespace PathLib
open Spec Spec.Svg Spec.Decimal NumberText

/-- Both coordinates are floating point numbers. -/
def Spec.FloatPt (R : Rounding) (p : Pt ℝ) : Prop := R.rnd p.1 = p.1 ∧ R.rnd p.2 = p.2

/-- The points in the call have floating point coordinates. Nothing is said of the transformations of components. -/
def Spec.FloatCall (R : Rounding) : PenCall ℝ → Prop
  | .moveTo p => FloatPt R p
  | .lineTo p => FloatPt R p
  | .curveTo points => ∀ p ∈ points, FloatPt R p
  | .qCurveTo points => ∀ p ∈ points, FloatPt R p
  | _ => True

/-- The middle of two points as computed: half of the rounded sum. -/
noncomputable def Spec.roundedMiddle (R : Rounding) (p q : Pt ℝ) : Pt ℝ :=
  (R.rnd (1 / 2 * R.rnd (p.1 + q.1)), R.rnd (1 / 2 * R.rnd (p.2 + q.2)))

/-- The pieces of the TrueType spline with computed middles. -/
noncomputable def Spec.roundedSpline (R : Rounding) (start : Pt ℝ) (offs : List (Pt ℝ)) (stop : Pt ℝ) : List (Segment ℝ) :=
  match offs with
  | [] => [[start, stop]]
  | [o] => [[start, o, stop]]
  | o :: o' :: rest => [start, o, roundedMiddle R o o'] :: roundedSpline R (roundedMiddle R o o') (o' :: rest) stop

namespace RoundedGlyph
open Rounded.Pen

variable (R : Rounding)

theorem qLoop_spec (rest : List (Pt ℝ)) : ∀ (pre : List (Pt ℝ)) (o e sp : Pt ℝ),
    ∃ ps last, qLoop R (pre ++ (o :: rest) ++ [e]) sp (List.range' pre.length rest.length) = .ok (ps, last) ∧
      ps ++ [[last, (o :: rest).getLast (by simp), e]] = roundedSpline R sp (o :: rest) e := by
  induction rest with
  | nil => intro pre o e sp; exact ⟨[], sp, rfl, rfl⟩
  | cons o' rest ih =>
    intro pre o e sp
    obtain ⟨ps, last, h1, h2⟩ := ih (pre ++ [o]) o' e (roundedMiddle R o o')
    refine ⟨[sp, o, roundedMiddle R o o'] :: ps, last, ?_, ?_⟩
    · have e1 : pre ++ (o :: o' :: rest) ++ [e] = (pre ++ [o]) ++ (o' :: rest) ++ [e] := by simp
      have g1 : pyGet (pre ++ (o :: o' :: rest) ++ [e]) (pre.length : Nat) = .ok o := by
        rw [pyGet_nat]; simp
      have g2 : pyGet (pre ++ (o :: o' :: rest) ++ [e]) ((pre.length + 1 : Nat) : Int) = .ok o' := by
        rw [pyGet_nat, e1]; simp
      rw [List.length_cons, List.range'_succ, qLoop]
      simp only [g1, g2, ok_bind]
      rw [show List.range' (pre.length + 1) rest.length = List.range' (pre ++ [o]).length rest.length by simp, e1]
      change (qLoop R _ (roundedMiddle R o o') _ >>= _) = _
      rw [h1]
      rfl
    · rw [roundedSpline, ← h2]
      simp [List.getLast_cons]

theorem qSegments_spec (start e : Pt ℝ) (offs : List (Pt ℝ)) :
    qSegments R (start :: offs ++ [e]) = .ok (roundedSpline R start offs e) := by
  match offs with
  | [] => rfl
  | [o] => rfl
  | o :: o' :: rest =>
    unfold qSegments
    rw [if_neg (by simp)]
    obtain ⟨ps, last, h1, h2⟩ := qLoop_spec R (o' :: rest) [start] o e start
    have hl : (start :: (o :: o' :: rest) ++ [e]).length - 3 = (o' :: rest).length := by simp
    rw [hl]
    simp only [List.cons_append, pyGet_zero_cons, ok_bind]
    have h1' : qLoop R (start :: o :: o' :: (rest ++ [e])) start (List.range' 1 (o' :: rest).length) = .ok (ps, last) := h1
    simp only [h1', ok_bind]
    rw [pyGet_neg_one _ (by simp)]
    have g : pyGet (start :: o :: o' :: (rest ++ [e])) (-2) = .ok ((o :: o' :: rest).getLast (by simp)) := by
      unfold pyGet
      have : ((-2 : Int) + ((start :: o :: o' :: (rest ++ [e])).length : Int)).toNat = rest.length + 2 := by
        simp; omega
      simp only [show (-2 : Int) < 0 by decide, if_true, this]
      rw [if_neg (by simp; omega)]
      have e2 : start :: o :: o' :: (rest ++ [e]) = ((start :: o :: o' :: rest) ++ [e]) := by simp
      rw [e2, List.getElem?_append_left (by simp), List.getElem?_eq_getElem (by simp)]
      simp only
      congr 1
      rw [List.getLast_eq_getElem]
      simp
    rw [g]
    simp only [ok_bind, pure_eq_ok, ← h2]
    congr 4
    simp

/-- Segments of two to four points with floating point coordinates. -/
def Fit (c : Contour ℝ) : Prop := ∀ s ∈ c, (2 ≤ s.length ∧ s.length ≤ 4) ∧ ∀ p ∈ s, FloatPt R p

structure PenFit (s : SegmentPen ℝ) : Prop where
  inv : PenInv s
  stored : ∀ c ∈ s.contours, Fit R c
  opened : ∀ c, s.contour = some c → Fit R c
  last : FloatPt R s.lastOnCurve

theorem fit_append {c d : Contour ℝ} (hc : Fit R c) (hd : Fit R d) : Fit R (c ++ d) := by
  intro s hs
  rcases List.mem_append.mp hs with h | h
  · exact hc s h
  · exact hd s h

theorem fit_single (seg : Segment ℝ) (h2 : 2 ≤ seg.length) (h4 : seg.length ≤ 4) (h : ∀ p ∈ seg, FloatPt R p) : Fit R [seg] := by
  intro s hs
  rw [List.mem_singleton.mp hs]
  exact ⟨⟨h2, h4⟩, h⟩

theorem float_two {a b : Pt ℝ} (ha : FloatPt R a) (hb : FloatPt R b) : ∀ p ∈ [a, b], FloatPt R p := by
  intro p hp
  simp only [List.mem_cons, List.not_mem_nil, or_false] at hp
  rcases hp with rfl | rfl
  exacts [ha, hb]

theorem float_three {a b c : Pt ℝ} (ha : FloatPt R a) (hb : FloatPt R b) (hc : FloatPt R c) : ∀ p ∈ [a, b, c], FloatPt R p := by
  intro p hp
  simp only [List.mem_cons, List.not_mem_nil, or_false] at hp
  rcases hp with rfl | rfl | rfl
  exacts [ha, hb, hc]

theorem pyGet_mem {α : Type} {l : List α} {i : Int} {a : α} (h : pyGet l i = .ok a) : a ∈ l := by
  unfold pyGet at h
  simp only at h
  split_ifs at h
  · split at h
    · cases h; exact List.mem_of_getElem? (by assumption)
    · cases h
  · split at h
    · cases h; exact List.mem_of_getElem? (by assumption)
    · cases h

theorem connected_single (s : Segment ℝ) (h : s ≠ []) : Connected [s] := ⟨by simpa using h, List.isChain_singleton s⟩

theorem connected_append (c d : Contour ℝ) (p : Pt ℝ) (hc : Connected c)
    (hl : ∀ sn, c.getLast? = some sn → sn.getLast? = some p) (hd : Connected d)
    (hh : ∀ s0, d.head? = some s0 → s0.head? = some p) : Connected (c ++ d) := by
  refine ⟨?_, ?_⟩
  · intro s hs
    rcases List.mem_append.mp hs with h | h
    · exact hc.1 s h
    · exact hd.1 s h
  · rw [List.isChain_append]
    refine ⟨hc.2, hd.2, ?_⟩
    intro x hx y hy
    exact ⟨p, hl x hx, hh y hy⟩

theorem map_connected (f : Pt ℝ → Pt ℝ) (c : Contour ℝ) (h : Connected c) : Connected (c.map (List.map f)) := by
  refine ⟨?_, ?_⟩
  · intro s hs
    obtain ⟨s', h1, rfl⟩ := List.mem_map.mp hs
    simpa using h.1 s' h1
  · rw [List.isChain_map]
    refine h.2.imp ?_
    rintro a b ⟨p, h1, h2⟩
    exact ⟨f p, by simp [h1], by simp [h2]⟩

theorem map_closed (f : Pt ℝ → Pt ℝ) (c : Contour ℝ) (h : Closed c) : Closed (c.map (List.map f)) := by
  obtain ⟨s0, sn, p, h1, h2, h3, h4⟩ := h
  exact ⟨s0.map f, sn.map f, f p, by simp [h1], by simp [h2], by simp [h3], by simp [h4]⟩

theorem spline_connected (start stop : Pt ℝ) (offs : List (Pt ℝ)) :
    Connected (roundedSpline R start offs stop) ∧ (∀ s0, (roundedSpline R start offs stop).head? = some s0 → s0.head? = some start) ∧
      (∀ sn, (roundedSpline R start offs stop).getLast? = some sn → sn.getLast? = some stop) ∧ roundedSpline R start offs stop ≠ [] := by
  induction offs generalizing start with
  | nil =>
    refine ⟨connected_single _ (by simp), ?_, ?_, by simp [roundedSpline]⟩ <;> simp [roundedSpline]
  | cons o rest ih =>
    cases rest with
    | nil =>
      refine ⟨connected_single _ (by simp), ?_, ?_, by simp [roundedSpline]⟩ <;> simp [roundedSpline]
    | cons o' rest =>
      obtain ⟨h1, h2, h3, h4⟩ := ih (roundedMiddle R o o')
      rw [roundedSpline]
      refine ⟨?_, by simp, ?_, by simp⟩
      · exact connected_append [[start, o, roundedMiddle R o o']] _ (roundedMiddle R o o') (connected_single _ (by simp)) (by simp) h1 h2
      · intro sn hs
        rw [List.getLast?_cons, Option.some.injEq] at hs
        apply h3
        rw [← hs]
        rw [List.getLast?_eq_some_getLast h4]
        rfl

theorem spline_fit (hR : ∀ x, R.rnd (R.rnd x) = R.rnd x) (start stop : Pt ℝ) (offs : List (Pt ℝ)) (h0 : FloatPt R start) (h1 : FloatPt R stop)
    (ho : ∀ p ∈ offs, FloatPt R p) : Fit R (roundedSpline R start offs stop) := by
  induction offs generalizing start with
  | nil => exact fit_single R _ (by simp) (by simp) (float_two R h0 h1)
  | cons o rest ih =>
    have hoo := ho o (by simp)
    cases rest with
    | nil => exact fit_single R _ (by simp) (by simp) (float_three R h0 hoo h1)
    | cons o' rest =>
      have hm : FloatPt R (roundedMiddle R o o') := ⟨hR _, hR _⟩
      rw [roundedSpline]
      intro s hs
      rcases List.mem_cons.mp hs with rfl | hs
      · exact ⟨by simp, float_three R h0 hoo hm⟩
      · exact ih _ hm (fun p hp => ho p (by simp [hp])) s hs

/-- What `mapM` returns is the image under the function, where it succeeds. -/
noncomputable def total (f : Pt ℝ → Py (Pt ℝ)) (p : Pt ℝ) : Pt ℝ := match f p with
  | .ok q => q
  | .error _ => p

theorem mapM_map {α β : Type} {f : α → Py β} {g : α → β} (hg : ∀ a b, f a = .ok b → b = g a) {l : List α} {r : List β}
    (h : l.mapM f = .ok r) : r = l.map g ∧ ∀ a ∈ l, f a = .ok (g a) := by
  induction l generalizing r with
  | nil => cases h; simp
  | cons a l ih =>
    rw [List.mapM_cons] at h
    simp only [bind_eq_ok] at h
    obtain ⟨b, hb, bs, hbs, hr⟩ := h
    cases hr
    obtain ⟨h1, h2⟩ := ih hbs
    rw [h1, hg a b hb]
    refine ⟨rfl, fun x hx => ?_⟩
    rcases List.mem_cons.mp hx with rfl | hx
    · rw [hb, hg _ b hb]
    · exact h2 x hx

theorem contours_map (T : Transform ℝ) (cs cs' : List (Contour ℝ)) (h : applyToContours R T cs = .ok cs') :
    cs' = cs.map (List.map (List.map (total (Rounded.applyToPoint R T)))) ∧
    ∀ c ∈ cs, ∀ s ∈ c, ∀ p ∈ s, Rounded.applyToPoint R T p = .ok (total (Rounded.applyToPoint R T) p) := by
  have k0 : ∀ a b, Rounded.applyToPoint R T a = .ok b → b = total (Rounded.applyToPoint R T) a := by
    intro a b h; unfold total; rw [h]
  have k1 : ∀ a b, applyToSegment R T a = .ok b → b = a.map (total (Rounded.applyToPoint R T)) := fun a b h => (mapM_map k0 h).1
  have k2 : ∀ a b, applyToContour R T a = .ok b → b = a.map (List.map (total (Rounded.applyToPoint R T))) :=
    fun a b h => (mapM_map k1 h).1
  obtain ⟨m1, m2⟩ := mapM_map k2 h
  exact ⟨m1, fun c hc s hs p hp => (mapM_map k0 ((mapM_map k1 (m2 c hc)).2 s hs)).2 p hp⟩

theorem point_float (hR : ∀ x, R.rnd (R.rnd x) = R.rnd x) {T : Transform ℝ} {p q : Pt ℝ} (h : Rounded.applyToPoint R T p = .ok q) :
    FloatPt R q := by
  unfold Rounded.applyToPoint at h
  simp only [bind_eq_ok] at h
  obtain ⟨rp, -, x, -, z, -, rx, hx, y, -, z', -, ry, hy, h⟩ := h
  cases h
  unfold Rounded.pdiv at hx hy
  split_ifs at hx hy
  cases hx; cases hy
  exact ⟨hR _, hR _⟩

/-- What is known of the contours of a drawn glyph. -/
def Drawn (cs : List (Contour ℝ)) : Prop := ∀ c ∈ cs, (Connected c ∧ Closed c) ∧ Fit R c

theorem call_fit (hR : ∀ x, R.rnd (R.rnd x) = R.rnd x) (d : String → Py (List (Contour ℝ)))
    (hd : ∀ name cs, d name = .ok cs → Drawn R cs) (s : SegmentPen ℝ) (hs : PenFit R s) (c : PenCall ℝ)
    (hc : Ordinary c) (hf : FloatCall R c) : PenFit R (call R d s c).1 := by
  obtain ⟨h0, h1, h2, h3⟩ := hs
  have base := SegmentPen.C57_call d (fun n cs h c hc => (hd n cs h c hc).1) s h0 c
  cases c with
  | moveTo p => exact ⟨base, h1, by rintro c ⟨rfl⟩; simp [Fit], hf⟩
  | lineTo p =>
    simp only [call]
    simp only [SegmentPen.call] at base
    simp only [SegmentPen.lineTo, SegmentPen.append] at base ⊢
    split_ifs at base ⊢
    · cases hcc : s.contour with
      | none => simp only [hcc] at base ⊢; exact ⟨base, h1, by simp [hcc], h3⟩
      | some c =>
        simp only [hcc] at base ⊢
        refine ⟨base, h1, ?_, hf⟩
        rintro _ ⟨rfl⟩
        exact fit_append R (h2 c hcc) (fit_single R _ (by simp) (by simp) (float_two R h3 hf))
    · exact ⟨base, h1, h2, h3⟩
  | curveTo ps =>
    simp only [call]
    simp only [SegmentPen.call] at base
    simp only [SegmentPen.curveTo, SegmentPen.append] at base ⊢
    cases hcc : s.contour with
    | none => simp only [hcc] at base ⊢; exact ⟨base, h1, by simp [hcc], h3⟩
    | some c =>
      have hne : ps ≠ [] := by rintro rfl; simpa using hc.1
      simp only [hcc] at base ⊢
      rw [pyGet_neg_one _ hne] at base ⊢
      refine ⟨base, h1, ?_, hf _ (List.getLast_mem hne)⟩
      rintro _ ⟨rfl⟩
      refine fit_append R (h2 c hcc) ?_
      intro s hs
      rw [List.mem_singleton] at hs
      subst hs
      have := hc.1
      have := hc.2
      simp only [List.length_cons]
      refine ⟨by omega, ?_⟩
      intro p hp
      rcases List.mem_cons.mp hp with rfl | hp
      · exact h3
      · exact hf p hp
  | qCurveTo ps =>
    have hne : ps ≠ [] := by rintro rfl; simp [Spec.Ordinary] at hc
    obtain ⟨offs, stop, rfl⟩ : ∃ offs stop, ps = offs ++ [stop] := ⟨ps.dropLast, ps.getLast hne, (List.dropLast_append_getLast hne).symm⟩
    simp only [call]
    unfold qCurveTo
    have hq := qSegments_spec R s.lastOnCurve stop offs
    simp only [List.cons_append] at hq
    simp only [hq]
    cases hcc : s.contour with
    | none => exact ⟨h0, h1, h2, h3⟩
    | some c =>
      rw [pyGet_neg_one _ (by simp)]
      have hl : (s.lastOnCurve :: (offs ++ [stop])).getLast (by simp) = stop := by simp
      simp only [hl]
      obtain ⟨k1, k2, k3, k4⟩ := spline_connected R s.lastOnCurve stop offs
      refine ⟨⟨h0.stored, ?_⟩, h1, ?_, hf _ (by simp)⟩
      · rintro _ ⟨rfl⟩
        obtain ⟨m1, m2⟩ := h0.opened c hcc
        refine ⟨connected_append c _ s.lastOnCurve m1 m2 k1 k2, ?_⟩
        intro sn hsn
        apply k3
        rw [List.getLast?_append, List.getLast?_eq_some_getLast k4] at hsn
        rw [← hsn, List.getLast?_eq_some_getLast k4]; rfl
      · rintro _ ⟨rfl⟩
        exact fit_append R (h2 c hcc) (spline_fit R hR _ _ _ h3 (hf _ (by simp)) fun p hp => hf p (by simp [hp]))
  | closePath =>
    simp only [call]
    simp only [SegmentPen.call] at base
    suffices h : (∀ c ∈ (SegmentPen.closePath s).1.contours, Fit R c) ∧ (∀ c, (SegmentPen.closePath s).1.contour = some c → Fit R c) ∧
        FloatPt R (SegmentPen.closePath s).1.lastOnCurve from ⟨base, h.1, h.2.1, h.2.2⟩
    clear base
    unfold SegmentPen.closePath
    split
    · exact ⟨h1, h2, h3⟩
    · exact ⟨h1, h2, h3⟩
    · rename_i c _ hcc
      split
      · rename_i e hcl
        refine ⟨?_, h2, h3⟩
        intro c' hc'
        rcases List.mem_append.mp hc' with h | h
        · exact h1 _ h
        · rw [List.mem_singleton.mp h]; exact h2 c hcc
      · rename_i c' hcl
        refine ⟨?_, by rintro _ ⟨rfl⟩; simp [Fit], h3⟩
        intro c'' hc'
        rcases List.mem_append.mp hc' with h | h
        · exact h1 _ h
        · rw [List.mem_singleton.mp h]
          unfold SegmentPen.closing at hcl
          obtain ⟨s0, g0, hcl⟩ := bind_eq_ok.mp hcl
          obtain ⟨a, ga, hcl⟩ := bind_eq_ok.mp hcl
          obtain ⟨sn, gn, hcl⟩ := bind_eq_ok.mp hcl
          obtain ⟨b, gb, hcl⟩ := bind_eq_ok.mp hcl
          have ha := (h2 c hcc s0 (pyGet_mem g0)).2 a (pyGet_mem ga)
          have hb := (h2 c hcc sn (pyGet_mem gn)).2 b (pyGet_mem gb)
          split_ifs at hcl
          · cases hcl
            exact fit_append R (h2 c hcc) (fit_single R _ (by simp) (by simp) (float_two R hb ha))
          · cases hcl
            exact h2 c hcc
  | addComponent name t =>
    have store : ∀ cs, Drawn R cs → PenFit R { s with contours := s.contours ++ cs } := by
      intro cs hcs
      refine ⟨⟨?_, h0.opened⟩, ?_, h2, h3⟩
      · intro c hc
        rcases List.mem_append.mp hc with h' | h'
        · exact h0.stored c h'
        · exact (hcs c h').1
      · intro c hc
        rcases List.mem_append.mp hc with h' | h'
        · exact h1 c h'
        · exact (hcs c h').2
    simp only [call]
    unfold addComponent
    simp only
    split
    · exact ⟨h0, h1, h2, h3⟩
    · rename_i contours hres
      apply store
      split_ifs at hres with ht
      · simp only [Transform.new_single, ok_bind, pure_eq_ok] at hres
        obtain ⟨cs, hcs, hres⟩ := bind_eq_ok.mp hres
        have hcs := hd name cs hcs
        obtain ⟨m1, m2⟩ := contours_map R _ _ _ hres
        rw [m1]
        intro c hc
        obtain ⟨c', k1, rfl⟩ := List.mem_map.mp hc
        refine ⟨⟨map_connected _ _ (hcs c' k1).1.1, map_closed _ _ (hcs c' k1).1.2⟩, ?_⟩
        intro sg hsg
        obtain ⟨sg', k2, rfl⟩ := List.mem_map.mp hsg
        refine ⟨by simpa using ((hcs c' k1).2 sg' k2).1, ?_⟩
        intro p hp
        obtain ⟨p', k3, rfl⟩ := List.mem_map.mp hp
        exact point_float R hR (m2 c' k1 sg' k2 p' k3)
      · rw [pure_eq_ok, ok_bind] at hres
        obtain ⟨cs, hcs, hres⟩ := bind_eq_ok.mp hres
        cases hres
        exact hd name _ hcs
  | addPoint => exact ⟨h0, h1, h2, h3⟩
  | beginPath => exact ⟨h0, h1, h2, h3⟩
  | endPath => exact ⟨h0, h1, h2, h3⟩

theorem rnd_zero : R.rnd 0 = 0 := by
  have := R.error 0
  simpa using this

theorem draw_fit (hR : ∀ x, R.rnd (R.rnd x) = R.rnd x) (gs : GlyphSet ℝ)
    (hgs : ∀ name calls, gs name = some calls → ∀ c ∈ calls, Spec.Ordinary c ∧ FloatCall R c) (depth : Nat)
    (name : String) (cs : List (Contour ℝ)) (h : drawGlyph R depth gs name = .ok cs) : Drawn R cs := by
  induction depth generalizing name cs with
  | zero => simp [drawGlyph] at h
  | succ depth ih =>
    rw [drawGlyph] at h
    cases hg : gs name with
    | none => rw [hg] at h; simp at h
    | some calls =>
      rw [hg] at h
      have key : ∀ (calls : List (PenCall ℝ)) (s : SegmentPen ℝ), (∀ c ∈ calls, Spec.Ordinary c ∧ FloatCall R c) → PenFit R s →
          PenFit R (run R (drawGlyph R depth gs) s calls).1 := by
        intro calls
        induction calls with
        | nil => intro s _ hs; exact hs
        | cons c cs ih2 =>
          intro s ho hs
          have := call_fit R hR (drawGlyph R depth gs) (fun n cs h => ih n cs h) s hs c (ho c (by simp)).1 (ho c (by simp)).2
          rw [Rounded.Pen.run]
          cases h : call R (drawGlyph R depth gs) s c with
          | mk s' r =>
            rw [h] at this
            cases r with
            | error e => exact this
            | ok u => exact ih2 s' (fun c hc => ho c (by simp [hc])) this
      have := key calls SegmentPen.init (hgs name calls hg)
        ⟨SegmentPen.C57_init, by simp [SegmentPen.init], by simp [SegmentPen.init], rnd_zero R, rnd_zero R⟩
      cases hr : run R (drawGlyph R depth gs) SegmentPen.init calls with
      | mk s' r =>
        rw [hr] at this
        simp only [hr] at h
        cases r with
        | error e => simp at h
        | ok u => cases h; exact fun c hc => ⟨this.inv.stored c hc, this.stored c hc⟩

end RoundedGlyph

/-- C123: in floating point too `qCurveTo` appends the pieces of a spline, with the implied points as computed, and moves to the end
point. -/
theorem C123_qCurveTo (R : Rounding) (s : SegmentPen ℝ) (c : Contour ℝ) (hc : s.contour = some c) (offs : List (Pt ℝ)) (stop : Pt ℝ) :
    Rounded.Pen.qCurveTo R s (offs ++ [stop]) =
      ({ s with contour := some (c ++ roundedSpline R s.lastOnCurve offs stop), lastOnCurve := stop }, .ok ()) := by
  unfold Rounded.Pen.qCurveTo
  have h := RoundedGlyph.qSegments_spec R s.lastOnCurve stop offs
  simp only [List.cons_append] at h
  simp only [h, hc]
  rw [pyGet_neg_one _ (by simp)]
  simp

/-- C123: the contours of a glyph drawn in floating point are connected and closed, consist of lines, quadratics and cubics and have
floating point coordinates, whatever the transformations of components. -/
theorem C123_drawGlyph (R : Binary) (gs : GlyphSet ℝ)
    (hgs : ∀ name calls, gs name = some calls → ∀ c ∈ calls, PathLib.Spec.Ordinary c ∧ FloatCall R.toRounding c) (depth : Nat)
    (name : String) (cs : List (Contour ℝ)) (h : Rounded.Pen.drawGlyph R.toRounding depth gs name = .ok cs) :
    ∀ c ∈ cs, Connected c ∧ Closed c ∧ ∀ s ∈ c, 2 ≤ s.length ∧ s.length ≤ 4 ∧ ∀ p ∈ s, FloatPt R.toRounding p := by
  intro c hc
  obtain ⟨⟨h1, h2⟩, h3⟩ := RoundedGlyph.draw_fit R.toRounding R.idem gs hgs depth name cs h c hc
  exact ⟨h1, h2, fun s hs => ⟨(h3 s hs).1.1, (h3 s hs).1.2, (h3 s hs).2⟩⟩

/-- C123: from a font to SVG, with rounding and printing: when a glyph can be drawn, its outline has one contour object per contour, in
order, whose path data, printed by Python and read into floating point numbers, draws exactly the contours that the pen collected. -/
theorem C123_outline (R : Binary) (repr : ℝ → Decimal) (hrepr : Shortest R.toRounding repr) (gs : GlyphSet ℝ)
    (hgs : ∀ name calls, gs name = some calls → ∀ c ∈ calls, PathLib.Spec.Ordinary c ∧ FloatCall R.toRounding c) (depth : Nat)
    (name : String) (cs : List (Contour ℝ)) (h : Rounded.Pen.drawGlyph R.toRounding depth gs name = .ok cs) :
    ∃ o, BOutline.new cs = .ok o ∧ List.Forall₂ (fun bc c => bc.start = bc.stop ∧
      interpret (readRounded R.toRounding) (BContour.d (fun x => reprText (repr x)) bc) =
        some (Event.move bc.start :: (c.filter fun s => !isDot s).map Event.draw)) o.bContours cs := by
  have hall := C123_drawGlyph R gs hgs depth name cs h
  have hne : ∀ c ∈ cs, c ≠ [] := by
    rintro c hc rfl
    obtain ⟨s0, sn, p, h1, _⟩ := (hall _ hc).2.1
    simp at h1
  obtain ⟨o, ho, hf⟩ := C52_outline cs fun c hc => ⟨hne c hc, fun s hs => ((hall c hc).2.2 s hs).1⟩
  refine ⟨o, ho, ?_⟩
  rw [List.forall₂_iff_get] at hf ⊢
  refine ⟨hf.1, fun i h1 h2 => ?_⟩
  have hnew := hf.2 i h1 h2
  have hc : cs.get ⟨i, h2⟩ ∈ cs := List.get_mem cs ⟨i, h2⟩
  obtain ⟨hcon, ⟨s0, sn, p, e1, e2, e3, e4⟩, hs⟩ := hall _ hc
  obtain ⟨-, -, -, -, hends⟩ := C52_history _ _ hnew []
  simp only [List.foldl_nil] at hends
  obtain ⟨k1, k2⟩ := hends s0 sn e1 e2
  refine ⟨?_, C122_contour R.toRounding repr hrepr _ _ hnew hcon (fun s h => (hs s h).2.1) fun s h => (hs s h).2.2⟩
  rw [e3] at k1; rw [e4] at k2
  exact (Option.some.inj k1).symm.trans (Option.some.inj k2)

/-- C123: and in the SVG element that the plotter writes for the contours. -/
theorem C123_plot {C : Type} (R : Binary) (repr : ℝ → Decimal) (hrepr : Shortest R.toRounding repr) (gs : GlyphSet ℝ)
    (hgs : ∀ name calls, gs name = some calls → ∀ c ∈ calls, PathLib.Spec.Ordinary c ∧ FloatCall R.toRounding c) (depth : Nat)
    (name : String) (cs : List (Contour ℝ)) (h : Rounded.Pen.drawGlyph R.toRounding depth gs name = .ok cs)
    (attributes : StrokeAttributes ℝ C → List (List Char × List Char)) (text : StrokeAttributes ℝ C → List Char)
    (ht : StrokeText attributes text) (color : Option C) (close : Bool) (s : ContourPlotter ℝ C) (hm : s.poly = false) :
    ∃ s' d, ContourPlotter.drawContours (fun x => reprText (repr x)) cs color false close s = (.ok (), s') ∧
      s'.content = s.content ++ [.path d { s.stroke with color := color.getD s.stroke.color }] ∧
      Xml.read (ContourPlotter.contoursText text d { s.stroke with color := color.getD s.stroke.color }) =
        some ("path".toList, ("d".toList, d) :: ("fill".toList, "none".toList) ::
          attributes { s.stroke with color := color.getD s.stroke.color }) ∧
      interpret (readRounded R.toRounding) d = some (cs.flatMap (contourEvents close)) := by
  have hall := C123_drawGlyph R gs hgs depth name cs h
  refine C122_plot R.toRounding repr hrepr attributes text ht cs (fun c hc => ⟨?_, (hall c hc).1⟩)
    (fun c hc s hs => ⟨((hall c hc).2.2 s hs).1, ((hall c hc).2.2 s hs).2.1⟩) (fun c hc s hs => ((hall c hc).2.2 s hs).2.2) color close s hm
  rintro rfl
  obtain ⟨s0, sn, p, h1, _⟩ := (hall _ hc).2.1
  simp at h1

/-- C123 on a glyph with an implied point: the hypotheses can be met. -/
example :
    let gs : GlyphSet ℝ := fun n => if n = "o" then some [.moveTo (0, 0), .lineTo (1, 0), .qCurveTo [(1, 1), (0, 1), (0, 0)], .closePath] else none
    (∀ name calls, gs name = some calls → ∀ c ∈ calls, PathLib.Spec.Ordinary c ∧ FloatCall (binary 52).toRounding c) ∧
    Rounded.Pen.drawGlyph (binary 52).toRounding 1 gs "o" =
      .ok [[[(0, 0), (1, 0)], [(1, 0), (1, 1), (1 / 2, 1)], [(1 / 2, 1), (0, 1), (0, 0)]]] := by
  have r0 : (binary 52).rnd 0 = 0 := RoundedGlyph.rnd_zero _
  have r1 : (binary 52).rnd 1 = 1 := (binary 52).one
  have r2 : (binary 52).rnd 2 = 2 := by have := (binary 52).double 1; norm_num [r1] at this; exact this
  have rh : (binary 52).rnd (1 / 2) = 1 / 2 := by have := (binary 52).double (1 / 2); norm_num [r1] at this ⊢; linarith
  have hm : roundedMiddle (binary 52).toRounding (1, 1) (0, 1) = (1 / 2, 1) := by
    unfold roundedMiddle
    norm_num [r0, r1, r2]
    norm_num at rh
    exact rh
  refine ⟨?_, ?_⟩
  · intro name calls h c hc
    dsimp only at h
    split_ifs at h
    cases h
    simp only [List.mem_cons, List.not_mem_nil, or_false] at hc
    rcases hc with rfl | rfl | rfl | rfl <;> simp [PathLib.Spec.Ordinary, FloatCall, FloatPt, r0, r1]
  · have hq := C123_qCurveTo (binary 52).toRounding ⟨[], some [[(0, 0), (1, 0)]], (1, 0)⟩ _ rfl [(1, 1), (0, 1)] (0, 0)
    simp only [roundedSpline, hm, List.cons_append, List.nil_append] at hq
    simp [Rounded.Pen.drawGlyph, Rounded.Pen.run, Rounded.Pen.call, SegmentPen.init, SegmentPen.moveTo, SegmentPen.lineTo,
      SegmentPen.append, hq, SegmentPen.closePath, SegmentPen.closing, pyGet]

end PathLib
