import Verif.Lemmas.Svg
import Verif.Model.ContourPlotter
import Verif.Props.BContourPath

/-!
# Properties of `ContourPlotter`: C60, C61, C62, C68, C70
-/

set_option linter.unusedSectionVars false
set_option linter.unusedSimpArgs false

namespace PathLib

open Bezier Spec Spec.Svg ContourPlotter
open BContour (pointToString Path)

variable {K C : Type} [Field K] [DecidableEq K]

/-! ## C70: pushing and popping attributes -/

/-- C70: pushing fill attributes saves the current ones and sets those that are given, except an opacity of 0; popping
restores them. -/
theorem C70_fill (color : Option C) (opacity : Option K) (s : ContourPlotter K C) :
    let s' := pushFillAttributes color opacity s
    s'.fill.color = color.getD s.fill.color ∧
    s'.fill.opacity = (if opacity = some 0 then s.fill.opacity else opacity.getD s.fill.opacity) ∧
    s'.stroke = s.stroke ∧ s'.content = s.content ∧ popFillAttributes s' = (.ok (), s) := by
  intro s'
  refine ⟨rfl, ?_, rfl, rfl, ?_⟩
  · show (match opacity with | some x => if x ≠ 0 then x else s.fill.opacity | none => s.fill.opacity) = _
    rcases opacity with _ | x
    · rfl
    · by_cases h : x = 0 <;> simp [h]
  · simp [s', popFillAttributes, pushFillAttributes]

/-- C70: the same for stroke attributes; a width of 0, an opacity of 0 and an empty dash pattern are ignored. -/
theorem C70_stroke (width : Option K) (color : Option C) (opacity : Option K) (dash : Option (List Char))
    (s : ContourPlotter K C) :
    let s' := pushStrokeAttributes width color opacity dash s
    s'.stroke.color = color.getD s.stroke.color ∧
    s'.stroke.width = (if width = some 0 then s.stroke.width else width.getD s.stroke.width) ∧
    s'.stroke.opacity = (if opacity = some 0 then s.stroke.opacity else opacity.getD s.stroke.opacity) ∧
    s'.stroke.dash = (if dash = some [] then s.stroke.dash else dash.or s.stroke.dash) ∧
    s'.fill = s.fill ∧ s'.content = s.content ∧ popStrokeAtributes s' = (.ok (), s) := by
  intro s'
  refine ⟨rfl, ?_, ?_, ?_, rfl, rfl, ?_⟩
  · show (match width with | some x => if x ≠ 0 then x else s.stroke.width | none => s.stroke.width) = _
    rcases width with _ | x
    · rfl
    · by_cases h : x = 0 <;> simp [h]
  · show (match opacity with | some x => if x ≠ 0 then x else s.stroke.opacity | none => s.stroke.opacity) = _
    rcases opacity with _ | x
    · rfl
    · by_cases h : x = 0 <;> simp [h]
  · show (match dash with | some d => if d ≠ [] then some d else s.stroke.dash | none => s.stroke.dash) = _
    rcases dash with _ | d
    · rfl
    · by_cases h : d = [] <;> simp [h]
  · simp [s', popStrokeAtributes, pushStrokeAttributes]

/-- C70: a width, an opacity or a dash pattern that Python takes for false is not set, so that a fully transparent fill or stroke,
an invisible line, or going back to a solid line cannot be asked for. -/
theorem C70_zero_counterexample (s : ContourPlotter K C) (color : Option C) :
    (pushFillAttributes color (some 0) s).fill.opacity = s.fill.opacity ∧
    (pushStrokeAttributes (some 0) color (some 0) (some []) s).stroke = { s.stroke with color := color.getD s.stroke.color } := by
  simp [pushFillAttributes, pushStrokeAttributes]

/-- C70: popping more often than pushing raises `IndexError` and changes nothing. -/
theorem C70_unbalanced (s : ContourPlotter K C) :
    (s.fillStack = [] → popFillAttributes s = (.error .indexError, s)) ∧
    (s.strokeStack = [] → popStrokeAtributes s = (.error .indexError, s)) := by
  constructor <;> intro h <;> simp [popFillAttributes, popStrokeAtributes, h]

/-! ## C60 -/

/-- The calls on a plotter whose effect on the attributes is meant to be undone. -/
inductive Spec.PlotOp (K C : Type)
  | pushFill (color : Option C) (opacity : Option K)
  | popFill
  | pushStroke (width : Option K) (color : Option C) (opacity : Option K) (dash : Option (List Char))
  | popStroke
  | contours (cs : List (Contour K)) (color : Option C) (close : Bool)
  | paths (ps : List (PlotPath K)) (color : Option C)
  | points (ps : List (Pt K)) (color : Option C)
  | curve (s : Segment K) (color : Option C)
  | circles (ps : List (Pt K)) (radius : K) (colors : List C)
  | text (x y : K) (alignment t : List Char) (margin : Bool)

/-- The calls that draw. -/
def Spec.PlotOp.Draws : PlotOp K C → Prop
  | .pushFill .. | .popFill | .pushStroke .. | .popStroke => False
  | _ => True

/-- The calls that find a first point wherever they look for one. -/
def Spec.PlotOp.HasPoints : PlotOp K C → Prop
  | .contours cs _ _ => ∀ c ∈ cs, ∃ s c', c = s :: c' ∧ s ≠ []
  | .points ps _ => ps ≠ []
  | .curve s _ => s ≠ []
  | .circles ps _ _ => ps ≠ []
  | _ => True

/-- Sequences of calls with every pop matching a push of the same kind. -/
inductive Spec.WellNested : List (PlotOp K C) → Prop
  | nil : WellNested []
  | draw (op : PlotOp K C) (h : op.Draws) : WellNested [op]
  | fill (color : Option C) (opacity : Option K) {l : List (PlotOp K C)} (h : WellNested l) :
      WellNested (.pushFill color opacity :: l ++ [.popFill])
  | stroke (width : Option K) (color : Option C) (opacity : Option K) (dash : Option (List Char)) {l : List (PlotOp K C)}
      (h : WellNested l) : WellNested (.pushStroke width color opacity dash :: l ++ [.popStroke])
  | append {l l' : List (PlotOp K C)} (h : WellNested l) (h' : WellNested l') : WellNested (l ++ l')

/-- Execute a call. -/
def ContourPlotter.exec (str : K → List Char) (op : PlotOp K C) (s : ContourPlotter K C) : Py Unit × ContourPlotter K C :=
  match op with
  | .pushFill color opacity => (.ok (), pushFillAttributes color opacity s)
  | .popFill => popFillAttributes s
  | .pushStroke w c o d => (.ok (), pushStrokeAttributes w c o d s)
  | .popStroke => popStrokeAtributes s
  | .contours cs color close => drawContours str cs color false close s
  | .paths ps color => drawPaths str ps color false s
  | .points ps color => drawPointsAsSegments str ps color s
  | .curve seg color => drawCurve str seg color s
  | .circles ps r colors => drawPointsAsCircles ps r colors false s
  | .text x y a t m => (.ok (), drawText x y a t m s)

/-- Execute calls until one raises. -/
def ContourPlotter.execs (str : K → List Char) (ops : List (PlotOp K C)) (s : ContourPlotter K C) :
    Py Unit × ContourPlotter K C :=
  match ops with
  | [] => (.ok (), s)
  | op :: ops =>
    match exec str op s with
    | (.error e, s) => (.error e, s)
    | (.ok _, s) => execs str ops s

/-- The fill and stroke attributes with their stacks and the label font size. -/
def ContourPlotter.attributes (s : ContourPlotter K C) :
    FillAttributes K C × StrokeAttributes K C × List (FillAttributes K C) × List (StrokeAttributes K C) × (K × K) :=
  (s.fill, s.stroke, s.fillStack, s.strokeStack, s.labelFontSize)

private theorem attributes_iff (s s' : ContourPlotter K C) : s'.attributes = s.attributes ↔
    s'.fill = s.fill ∧ s'.stroke = s.stroke ∧ s'.fillStack = s.fillStack ∧ s'.strokeStack = s.strokeStack ∧
      s'.labelFontSize = s.labelFontSize := by
  simp [attributes, Prod.ext_iff]

theorem popColor_push (color : Option C) (s s' : ContourPlotter K C)
    (h : s'.attributes = (pushColor color s).attributes) :
    ∃ s'', popColor color s' = (.ok (), s'') ∧ s''.attributes = s.attributes ∧ s''.content = s'.content ∧
      s''.lastCommand = s'.lastCommand ∧ s''.pen = s'.pen ∧ s''.poly = s'.poly := by
  rw [attributes_iff] at h
  obtain ⟨h1, h2, h3, h4, h5⟩ := h
  rcases color with _ | c
  · exact ⟨s', rfl, (attributes_iff _ _).mpr ⟨h1, h2, h3, h4, h5⟩, rfl, rfl, rfl, rfl⟩
  · have h4' : s'.strokeStack = s.strokeStack ++ [s.stroke] := h4
    refine ⟨{ s' with strokeStack := s'.strokeStack.dropLast, stroke := s.stroke }, ?_, ?_, rfl, rfl, rfl, rfl⟩
    · simp [popColor, popStrokeAtributes, h4']
    · rw [attributes_iff]
      exact ⟨h1, rfl, h3, by simp [h4'], h5⟩

theorem pushColor_poly (color : Option C) (s : ContourPlotter K C) : (pushColor color s).poly = s.poly := by
  cases color <;> rfl

theorem pushColor_last (color : Option C) (s : ContourPlotter K C) : (pushColor color s).lastCommand = s.lastCommand := by
  cases color <;> rfl

theorem pushColor_content (color : Option C) (s : ContourPlotter K C) : (pushColor color s).content = s.content := by
  cases color <;> rfl

theorem pushColor_stroke (color : Option C) (s : ContourPlotter K C) :
    (pushColor color s).stroke = { s.stroke with color := color.getD s.stroke.color } := by
  cases color <;> rfl

/-- `drawContours` in terms of its loop. -/
theorem drawContours_ok (str : K → List Char) (cs : List (Contour K)) (color : Option C) (close : Bool)
    (s : ContourPlotter K C) (st : Path K)
    (h : contoursLoop str s.poly close cs { commands := [], lastCommand := s.lastCommand, pen := (pushColor color s).pen } = (.ok (), st)) :
    ∃ s', drawContours str cs color false close s = (.ok (), s') ∧ s'.attributes = s.attributes ∧
      s'.content = s.content ++ [.path st.commands.flatten { s.stroke with color := color.getD s.stroke.color }] ∧
      s'.lastCommand = st.lastCommand ∧ s'.poly = s.poly := by
  unfold drawContours
  simp only [Bool.false_eq_true, if_false]
  rw [pushColor_poly, pushColor_last, h]
  simp only
  obtain ⟨s'', e1, e2, e3, e4, _, e6⟩ := popColor_push color s
    { pushColor color s with lastCommand := st.lastCommand, pen := st.pen } rfl
  have e1' : popColor color
      { poly := s.poly, lastCommand := st.lastCommand, fill := (pushColor color s).fill, stroke := (pushColor color s).stroke
        fillStack := (pushColor color s).fillStack, strokeStack := (pushColor color s).strokeStack
        labelFontSize := (pushColor color s).labelFontSize, pen := st.pen
        content := (pushColor color s).content } = (.ok (), s'') := by
    rw [← e1, ← pushColor_poly color s]
  rw [e1']
  refine ⟨_, rfl, e2, ?_, e4, ?_⟩
  · show s''.content ++ _ = _
    rw [e3, pushColor_stroke]
    show (pushColor color s).content ++ _ = _
    rw [pushColor_content]
  · show s''.poly = _
    rw [e6]
    exact pushColor_poly color s

private theorem contoursLoop_total (str : K → List Char) (poly close : Bool) (cs : List (Contour K))
    (h : ∀ c ∈ cs, ∃ s c', c = s :: c' ∧ s ≠ []) (st : Path K) : ∃ st', contoursLoop str poly close cs st = (.ok (), st') := by
  induction cs generalizing st with
  | nil => exact ⟨st, rfl⟩
  | cons c cs ih =>
    obtain ⟨s, c', rfl, hs⟩ := h c (by simp)
    obtain ⟨p, s', rfl⟩ := List.exists_cons_of_ne_nil hs
    unfold contoursLoop
    simp only [pyGet_zero_cons, ok_bind]
    exact ih (fun c hc => h c (by simp [hc])) _

private theorem contoursLoop_ok (str : K → List Char) (poly close : Bool) (cs : List (Contour K)) (st st' : Path K)
    (h : contoursLoop str poly close cs st = (.ok (), st')) : ∀ c ∈ cs, ∃ s c', c = s :: c' ∧ s ≠ [] := by
  induction cs generalizing st with
  | nil => simp
  | cons c cs ih =>
    unfold contoursLoop at h
    rcases c with _ | ⟨s, c'⟩
    · simp [pyGet_nil] at h
    · rcases s with _ | ⟨p, s⟩
      · simp [pyGet_zero_cons, pyGet_nil] at h
      · simp only [pyGet_zero_cons, ok_bind] at h
        intro c hc
        rcases List.mem_cons.mp hc with rfl | hc
        · exact ⟨_, _, rfl, by simp⟩
        · exact ih _ h c hc

private theorem contoursLoop_error (str : K → List Char) (poly close : Bool) (cs : List (Contour K)) (st st' : Path K) (e : PyErr)
    (h : contoursLoop str poly close cs st = (.error e, st')) :
    e = .indexError ∧ ¬ ∀ c ∈ cs, ∃ s c', c = s :: c' ∧ s ≠ [] := by
  refine ⟨?_, fun hc => by obtain ⟨st'', e'⟩ := contoursLoop_total str poly close cs hc st; rw [h] at e'; simp at e'⟩
  induction cs generalizing st with
  | nil => simp [contoursLoop] at h
  | cons c cs ih =>
    unfold contoursLoop at h
    rcases c with _ | ⟨s, c'⟩
    · simp [pyGet_nil] at h
      exact h.1.symm
    · rcases s with _ | ⟨p, s⟩
      · simp [pyGet_zero_cons, pyGet_nil] at h
        exact h.1.symm
      · simp only [pyGet_zero_cons, ok_bind] at h
        exact ih _ h

theorem drawPath_attributes (str : K → List Char) (ps : List (PlotPath K)) (s : ContourPlotter K C) :
    (ps.foldl (drawPath str) s).attributes = s.attributes := by
  induction ps generalizing s with
  | nil => rfl
  | cons p ps ih => rw [List.foldl_cons, ih]; rfl

private theorem circlesLoop_stroke (radius : K) (colors : List C) (i : Nat) (ps : List (Pt K)) (s : ContourPlotter K C) :
    let s' := circlesLoop radius colors false i ps s
    s'.fill = s.fill ∧ s'.fillStack = s.fillStack ∧ s'.strokeStack = s.strokeStack ∧
      s'.labelFontSize = s.labelFontSize ∧ (colors = [] → s'.stroke = s.stroke) := by
  induction ps generalizing i s with
  | nil => exact ⟨rfl, rfl, rfl, rfl, fun _ => rfl⟩
  | cons p ps ih =>
    intro s'
    have := ih (i + 1) { (match colors[i % colors.length]? with
      | some c => if false then { s with fill := { s.fill with color := c } } else { s with stroke := { s.stroke with color := c } }
      | none => s : ContourPlotter K C) with content := (match colors[i % colors.length]? with
      | some c => if false then { s with fill := { s.fill with color := c } } else { s with stroke := { s.stroke with color := c } }
      | none => s : ContourPlotter K C).content ++ [Item.circle p radius (match colors[i % colors.length]? with
      | some c => if false then { s with fill := { s.fill with color := c } } else { s with stroke := { s.stroke with color := c } }
      | none => s : ContourPlotter K C).stroke] }
    obtain ⟨h1, h2, h3, h5, h4⟩ := this
    refine ⟨h1.trans ?_, h2.trans ?_, h3.trans ?_, h5.trans ?_, ?_⟩
    · rcases colors[i % colors.length]? with _ | c <;> rfl
    · rcases colors[i % colors.length]? with _ | c <;> rfl
    · rcases colors[i % colors.length]? with _ | c <;> rfl
    · rcases colors[i % colors.length]? with _ | c <;> rfl
    · rintro rfl
      exact (h4 rfl).trans rfl

/-- C60: a call that draws and completes leaves the attributes and their stacks as they were. -/
theorem C60_draw (str : K → List Char) (op : PlotOp K C) (hd : op.Draws) (s s' : ContourPlotter K C)
    (h : exec str op s = (.ok (), s')) : s'.attributes = s.attributes := by
  cases op with
  | pushFill => exact hd.elim
  | popFill => exact hd.elim
  | pushStroke => exact hd.elim
  | popStroke => exact hd.elim
  | contours cs color close =>
    rcases hl : contoursLoop str s.poly close cs { commands := [], lastCommand := s.lastCommand, pen := (pushColor color s).pen } with ⟨r, st⟩
    rcases r with e | ⟨⟩
    · have : drawContours str cs color false close s = (.ok (), s') := h
      unfold drawContours at this
      simp only [Bool.false_eq_true, if_false] at this
      rw [pushColor_poly, pushColor_last, hl] at this
      simp at this
    · obtain ⟨s'', e1, e2, _⟩ := drawContours_ok str cs color close s st hl
      have : drawContours str cs color false close s = (.ok (), s') := h
      rw [e1] at this
      simp only [Prod.mk.injEq] at this
      rw [← this.2]
      exact e2
  | curve seg color =>
    rcases hl : contoursLoop str s.poly false [[seg]] { commands := [], lastCommand := s.lastCommand, pen := (pushColor color s).pen } with ⟨r, st⟩
    rcases r with e | ⟨⟩
    · have : drawContours str [[seg]] color false false s = (.ok (), s') := h
      unfold drawContours at this
      simp only [Bool.false_eq_true, if_false] at this
      rw [pushColor_poly, pushColor_last, hl] at this
      simp at this
    · obtain ⟨s'', e1, e2, _⟩ := drawContours_ok str [[seg]] color false s st hl
      have : drawContours str [[seg]] color false false s = (.ok (), s') := h
      rw [e1] at this
      simp only [Prod.mk.injEq] at this
      rw [← this.2]
      exact e2
  | paths ps color =>
    have h' : popColor color (ps.foldl (drawPath str) (pushColor color s)) = (.ok (), s') := h
    obtain ⟨s'', e1, e2, _⟩ := popColor_push color s _ (drawPath_attributes str ps (pushColor color s))
    rw [e1] at h'
    simp only [Prod.mk.injEq] at h'
    rw [← h'.2]
    exact e2
  | points ps color =>
    rcases ps with _ | ⟨p, ps⟩
    · simp [exec, drawPointsAsSegments] at h
    · simp only [exec, drawPointsAsSegments] at h
      obtain ⟨s'', e1, e2, _⟩ := popColor_push color s { pushColor color s with
        pen := (ps.foldl (pointStep str) ('L', ['M' :: pointToString str p], p)).2.2
        content := (pushColor color s).content ++
          [.path (ps.foldl (pointStep str) ('L', ['M' :: pointToString str p], p)).2.1.flatten (pushColor color s).stroke] } rfl
      rw [e1] at h
      simp only [Prod.mk.injEq] at h
      rw [← h.2]
      exact e2
  | circles ps r colors =>
    rcases ps with _ | ⟨p, ps⟩
    · simp [exec, drawPointsAsCircles] at h
    · rcases colors with _ | ⟨c, colors⟩
      · have h' : circlesLoop r [] false 0 (p :: ps) s = s' := by
          simpa [exec, drawPointsAsCircles] using h
        obtain ⟨h1, h2, h3, h5, h4⟩ := circlesLoop_stroke r [] 0 (p :: ps) s
        rw [h'] at h1 h2 h3 h4 h5
        exact (attributes_iff _ _).mpr ⟨h1, h4 rfl, h2, h3, h5⟩
      · have h' : popStrokeAtributes (circlesLoop r (c :: colors) false 0 (p :: ps)
            (pushStrokeAttributes none (some c) none none s)) = (.ok (), s') := by
          simpa [exec, drawPointsAsCircles] using h
        obtain ⟨h1, h2, h3, h5, _⟩ := circlesLoop_stroke r (c :: colors) 0 (p :: ps) (pushStrokeAttributes none (some c) none none s)
        have h3' : (circlesLoop r (c :: colors) false 0 (p :: ps)
            (pushStrokeAttributes none (some c) none none s)).strokeStack = s.strokeStack ++ [s.stroke] := h3
        unfold popStrokeAtributes at h'
        rw [h3'] at h'
        simp only [List.getLast?_append, List.getLast?_singleton, Option.some_or, Prod.mk.injEq, true_and] at h'
        rw [← h']
        exact (attributes_iff _ _).mpr ⟨h1, rfl, h2, by simp, h5⟩
  | text x y a t m =>
    simp only [exec, Prod.mk.injEq, true_and] at h
    rw [← h]
    rfl

/-- C60: a call that draws completes exactly if it finds the first points it looks for; otherwise it raises `IndexError`. -/
theorem C60_completes (str : K → List Char) (op : PlotOp K C) (hd : op.Draws) (s : ContourPlotter K C) :
    (op.HasPoints → ∃ s', exec str op s = (.ok (), s')) ∧
    (¬ op.HasPoints → ∃ s', exec str op s = (.error .indexError, s')) := by
  have key : ∀ cs (color : Option C) close,
      ((∀ c ∈ cs, ∃ s c', c = s :: c' ∧ s ≠ []) → ∃ s', drawContours str cs color false close s = (.ok (), s')) ∧
      ((¬ ∀ c ∈ cs, ∃ s c', c = s :: c' ∧ s ≠ []) → ∃ s', drawContours str cs color false close s = (.error .indexError, s')) := by
    intro cs color close
    constructor
    · intro hp
      obtain ⟨st, hl⟩ := contoursLoop_total str s.poly close cs hp
        { commands := [], lastCommand := s.lastCommand, pen := (pushColor color s).pen }
      obtain ⟨s', e, _⟩ := drawContours_ok str cs color close s st hl
      exact ⟨s', e⟩
    · intro hp
      rcases hl : contoursLoop str s.poly close cs { commands := [], lastCommand := s.lastCommand, pen := (pushColor color s).pen } with ⟨r, st⟩
      rcases r with e | ⟨⟩
      · obtain ⟨rfl, _⟩ := contoursLoop_error str s.poly close cs _ st e hl
        unfold drawContours
        simp only [Bool.false_eq_true, if_false]
        rw [pushColor_poly, pushColor_last, hl]
        exact ⟨_, rfl⟩
      · exact absurd (contoursLoop_ok str s.poly close cs _ st hl) hp
  cases op with
  | pushFill => exact hd.elim
  | popFill => exact hd.elim
  | pushStroke => exact hd.elim
  | popStroke => exact hd.elim
  | contours cs color close => exact key cs color close
  | curve seg color =>
    obtain ⟨k1, k2⟩ := key [[seg]] color false
    exact ⟨fun hp => k1 (by simpa using (show seg ≠ [] from hp)), fun hp => k2 (by simpa using (show ¬ seg ≠ [] from hp))⟩
  | paths ps color =>
    refine ⟨fun _ => ?_, fun hp => (hp trivial).elim⟩
    obtain ⟨s'', e1, _⟩ := popColor_push color s _ (drawPath_attributes str ps (pushColor color s))
    exact ⟨s'', e1⟩
  | points ps color =>
    rcases ps with _ | ⟨p, ps⟩
    · exact ⟨fun hp => absurd rfl hp, fun _ => ⟨_, rfl⟩⟩
    · refine ⟨fun _ => ?_, fun hp => absurd (List.cons_ne_nil _ _) hp⟩
      obtain ⟨s'', e1, _⟩ := popColor_push color s { pushColor color s with
        pen := (ps.foldl (pointStep str) ('L', ['M' :: pointToString str p], p)).2.2
        content := (pushColor color s).content ++
          [.path (ps.foldl (pointStep str) ('L', ['M' :: pointToString str p], p)).2.1.flatten (pushColor color s).stroke] } rfl
      exact ⟨s'', e1⟩
  | circles ps r colors =>
    rcases ps with _ | ⟨p, ps⟩
    · exact ⟨fun hp => absurd rfl hp, fun _ => ⟨_, rfl⟩⟩
    · refine ⟨fun _ => ?_, fun hp => absurd (List.cons_ne_nil _ _) hp⟩
      rcases colors with _ | ⟨c, colors⟩
      · exact ⟨circlesLoop r [] false 0 (p :: ps) s, by simp [exec, drawPointsAsCircles]⟩
      · obtain ⟨_, _, h3, _⟩ := circlesLoop_stroke r (c :: colors) 0 (p :: ps) (pushStrokeAttributes none (some c) none none s)
        have h3' : (circlesLoop r (c :: colors) false 0 (p :: ps)
            (pushStrokeAttributes none (some c) none none s)).strokeStack = s.strokeStack ++ [s.stroke] := h3
        simp [exec, drawPointsAsCircles, popStrokeAtributes, h3']
  | text x y t => exact ⟨fun _ => ⟨_, rfl⟩, fun hp => (hp trivial).elim⟩

private theorem execs_append (str : K → List Char) (l l' : List (PlotOp K C)) (s : ContourPlotter K C) :
    execs str (l ++ l') s = match execs str l s with
      | (.error e, s) => (.error e, s)
      | (.ok _, s) => execs str l' s := by
  induction l generalizing s with
  | nil => rfl
  | cons op l ih =>
    simp only [List.cons_append, execs]
    rcases exec str op s with ⟨_ | ⟨⟩, s1⟩
    · rfl
    · exact ih s1

/-- C60: a well-nested sequence of calls that completes leaves the attributes and their stacks as they were. -/
theorem C60_balanced (str : K → List Char) (ops : List (PlotOp K C)) (hw : WellNested ops) (s s' : ContourPlotter K C)
    (h : execs str ops s = (.ok (), s')) : s'.attributes = s.attributes := by
  induction hw generalizing s s' with
  | nil => simp only [execs, Prod.mk.injEq, true_and] at h; rw [h]
  | draw op hd =>
    simp only [execs] at h
    rcases he : exec str op s with ⟨_ | ⟨⟩, s1⟩
    · rw [he] at h; simp at h
    · rw [he] at h
      simp only [Prod.mk.injEq, true_and] at h
      rw [← h]
      exact C60_draw str op hd s s1 he
  | @fill color opacity l hl ih =>
    rw [List.cons_append, execs] at h
    simp only [exec] at h
    rw [execs_append] at h
    rcases he : execs str l (pushFillAttributes color opacity s) with ⟨_ | ⟨⟩, s1⟩
    · rw [he] at h; simp at h
    · rw [he] at h
      obtain ⟨a1, a2, a3, a4, a5⟩ := (attributes_iff _ _).mp (ih _ _ he)
      have a3' : s1.fillStack = s.fillStack ++ [s.fill] := a3
      simp only [execs, exec, popFillAttributes, a3', List.getLast?_append, List.getLast?_singleton, Option.some_or,
        Prod.mk.injEq, true_and] at h
      rw [← h]
      exact (attributes_iff _ _).mpr ⟨rfl, a2, by simp, a4, a5⟩
  | @stroke w color o d l hl ih =>
    rw [List.cons_append, execs] at h
    simp only [exec] at h
    rw [execs_append] at h
    rcases he : execs str l (pushStrokeAttributes w color o d s) with ⟨_ | ⟨⟩, s1⟩
    · rw [he] at h; simp at h
    · rw [he] at h
      obtain ⟨a1, a2, a3, a4, a5⟩ := (attributes_iff _ _).mp (ih _ _ he)
      have a4' : s1.strokeStack = s.strokeStack ++ [s.stroke] := a4
      simp only [execs, exec, popStrokeAtributes, a4', List.getLast?_append, List.getLast?_singleton, Option.some_or,
        Prod.mk.injEq, true_and] at h
      rw [← h]
      exact (attributes_iff _ _).mpr ⟨a1, rfl, a3, by simp, a5⟩
  | append hl hl' ih ih' =>
    rw [execs_append] at h
    rename_i l l'
    rcases he : execs str l s with ⟨_ | ⟨⟩, s1⟩
    · rw [he] at h; simp at h
    · rw [he] at h
      exact (ih' _ _ h).trans (ih _ _ he)

/-- C60: it completes if every drawing call in it finds its first points. -/
theorem C60_balanced_completes (str : K → List Char) (ops : List (PlotOp K C)) (hw : WellNested ops)
    (hp : ∀ op ∈ ops, op.HasPoints) (s : ContourPlotter K C) :
    ∃ s', execs str ops s = (.ok (), s') ∧ s'.attributes = s.attributes := by
  suffices h : ∃ s', execs str ops s = (.ok (), s') by
    obtain ⟨s', e⟩ := h
    exact ⟨s', e, C60_balanced str ops hw s s' e⟩
  induction hw generalizing s with
  | nil => exact ⟨s, rfl⟩
  | draw op hd =>
    obtain ⟨s', e⟩ := (C60_completes str op hd s).1 (hp op (by simp))
    exact ⟨s', by simp [execs, e]⟩
  | @fill color opacity l hl ih =>
    obtain ⟨s1, e⟩ := ih (fun op h => hp op (by simp [h])) (pushFillAttributes color opacity s)
    obtain ⟨_, _, a3, _⟩ := (attributes_iff _ _).mp (C60_balanced str l hl _ _ e)
    have a3' : s1.fillStack = s.fillStack ++ [s.fill] := a3
    rw [List.cons_append, execs]
    simp only [exec]
    rw [execs_append, e]
    simp [execs, exec, popFillAttributes, a3']
  | @stroke w color o d l hl ih =>
    obtain ⟨s1, e⟩ := ih (fun op h => hp op (by simp [h])) (pushStrokeAttributes w color o d s)
    obtain ⟨_, _, _, a4, _⟩ := (attributes_iff _ _).mp (C60_balanced str l hl _ _ e)
    have a4' : s1.strokeStack = s.strokeStack ++ [s.stroke] := a4
    rw [List.cons_append, execs]
    simp only [exec]
    rw [execs_append, e]
    simp [execs, exec, popStrokeAtributes, a4']
  | append hl hl' ih ih' =>
    obtain ⟨s1, e⟩ := ih (fun op h => hp op (by simp [h])) s
    obtain ⟨s2, e'⟩ := ih' (fun op h => hp op (by simp [h])) s1
    exact ⟨s2, by rw [execs_append, e]; exact e'⟩

/-- C60: a drawing call that raises leaves the pushed attributes behind: drawing an empty contour, or no points, in some colour. -/
theorem C60_raise_counterexample (str : K → List Char) (c : C) (s : ContourPlotter K C) :
    (∃ s', exec str (.contours [[]] (some c) true) s = (.error .indexError, s') ∧ s'.attributes ≠ s.attributes) ∧
    (∃ s', exec str (.points [] (some c)) s = (.error .indexError, s') ∧ s'.attributes ≠ s.attributes) := by
  have hne : ∀ s' : ContourPlotter K C, s'.strokeStack = s.strokeStack ++ [s.stroke] → s'.attributes ≠ s.attributes := by
    intro s' h he
    have := ((attributes_iff _ _).mp he).2.2.2.1
    rw [h] at this
    have := congrArg List.length this
    simp at this
  refine ⟨⟨{ pushColor (some c) s with lastCommand := s.lastCommand, pen := s.pen }, ?_, hne _ rfl⟩,
    ⟨pushColor (some c) s, rfl, hne _ rfl⟩⟩
  simp [exec, drawContours, contoursLoop, pyGet_nil, pushColor, pushStrokeAttributes]

/-- C60: circles filled in given colours change the fill colour for whatever is drawn next. -/
theorem C60_discs_counterexample (p : Pt K) (r : K) (c : C) (s : ContourPlotter K C) (hc : s.fill.color ≠ c) :
    ∃ s', drawPointsAsCircles [p] r [c] true s = (.ok (), s') ∧ s'.fill.color = c ∧ s'.attributes ≠ s.attributes := by
  refine ⟨_, rfl, rfl, ?_⟩
  intro h
  have := ((attributes_iff _ _).mp h).1
  exact hc (by rw [← this]; rfl)

/-- C60: an arrow between points changes the stroke colour and loses the dash pattern. -/
theorem C60_arrow_counterexample {K : Type} [Field K] [LinearOrder K] (p q : Pt K) (color : Option C) (s : ContourPlotter K C) :
    (drawArrowBetweenPoints p q color s).stroke = { s.stroke with color := color.getD s.stroke.color, dash := none } := by
  cases color <;> rfl

/-- A plotter for the examples. -/
private def plotter (poly : Bool) : ContourPlotter ℚ Nat :=
  { poly := poly, lastCommand := none, fill := { color := 0, opacity := 1 }
    stroke := { width := 1, color := 0, opacity := 1, dash := none }
    fillStack := [], strokeStack := [], labelFontSize := (8, 8), pen := (0, 0), content := [] }

private def strq (x : ℚ) : List Char := (toString x.num).toList

/-- A well-nested history with a nested push. -/
example : WellNested (K := ℚ) (C := Nat) [.pushFill (some 3) none, .pushStroke (some 2) none none none,
    .contours [[[(0, 0), (1, 1)]]] (some 7) true, .popStroke, .popFill] :=
  .fill (some 3) none (l := [.pushStroke (some 2) none none none, .contours [[[(0, 0), (1, 1)]]] (some 7) true, .popStroke])
    (.stroke (some 2) none none none (.draw (.contours [[[(0, 0), (1, 1)]]] (some 7) true) trivial))

/-! ## C62 -/

/-- C62: asking for filled drawing always raises `TypeError` and draws nothing. -/
theorem C62_counterexample (str : K → List Char) (color : Option C) (close : Bool) (s : ContourPlotter K C)
    (cs : List (Contour K)) (ps : List (PlotPath K)) :
    drawContours str cs color true close s = (.error .typeError, s) ∧ drawPaths str ps color true s = (.error .typeError, s) :=
  ⟨rfl, rfl⟩

/-! ## C61 -/

/-- The text written for a command in `drawContours`. -/
def contourPre (poly : Bool) (n : Char) (last : Option Char) : Char :=
  if n = 'L' then 'L' else (getCommand poly n last).1

def pathPre (poly : Bool) (n : Char) (last : Option Char) : Char := (getCommand poly n last).1

def nxt (poly : Bool) (n : Char) (last : Option Char) : Option Char := (getCommand poly n last).2

theorem contourStep_writes (str : K → List Char) (poly : Bool) :
    Writes str (contourPre poly) (nxt poly) (contourStep str poly) := by
  intro st s h2 h4 hpen
  match s, h2, h4, hpen with
  | [a, p], _, _, hpen =>
    simp only [List.head?_cons, Option.some.injEq] at hpen
    subst hpen
    have hiff : (st.pen.1 = p.1 ∧ st.pen.2 = p.2) ↔ st.pen = p := (Prod.ext_iff).symm
    simp only [commandOf, contourStep, argsOf, emit, emitL, hiff, contourPre, nxt]
    split_ifs <;> simp
  | [a, p1, p2], _, _, _ => simp [commandOf, contourStep, argsOf, emit, contourPre, nxt]
  | [a, p1, p2, p3], _, _, _ => simp [commandOf, contourStep, argsOf, emit, contourPre, nxt]

theorem pathStep_writes (str : K → List Char) (poly : Bool) :
    Writes str (pathPre poly) (nxt poly) (pathStep str poly) := by
  intro st s h2 h4 hpen
  match s, h2, h4, hpen with
  | [a, p], _, _, hpen =>
    simp only [List.head?_cons, Option.some.injEq] at hpen
    subst hpen
    have hiff : (st.pen.1 = p.1 ∧ st.pen.2 = p.2) ↔ st.pen = p := (Prod.ext_iff).symm
    simp only [commandOf, pathStep, argsOf, emit, hiff, pathPre, nxt]
    split_ifs <;> simp
  | [a, p1, p2], _, _, _ => simp [commandOf, pathStep, argsOf, emit, pathPre, nxt]
  | [a, p1, p2, p3], _, _, _ => simp [commandOf, pathStep, argsOf, emit, pathPre, nxt]

theorem nxt_true (n : Char) (last : Option Char) : nxt true n last = some n := by
  unfold nxt getCommand
  by_cases h : last = some n <;> simp [h]

theorem path_keeps (poly : Bool) : Keeps (pathPre poly) (nxt poly) := by
  intro n last m
  cases poly with
  | false => exact .inl rfl
  | true =>
    rw [nxt_true]
    unfold pathPre getCommand
    by_cases h : n = m
    · subst h; simp
    · simp [h]

theorem contour_keeps (poly : Bool) : Keeps (contourPre poly) (nxt poly) := by
  intro n last m
  by_cases hm : m = 'L'
  · subst hm; exact .inl rfl
  · have := path_keeps poly n last m
    simpa [contourPre, pathPre, hm] using this

theorem nxt_fold (poly : Bool) (l : List Char) (last : Option Char) :
    l.foldl (fun l n => nxt poly n l) last = if poly then l.getLast?.or last else last := by
  cases poly with
  | false => induction l with
    | nil => rfl
    | cons n l ih => simp [nxt, getCommand]
  | true =>
    simp only [nxt_true, if_true]
    rcases List.eq_nil_or_concat l with rfl | ⟨l, n, rfl⟩
    · rfl
    · simp

/-- What a contour should draw: a move to its first point, its segments except lines of length zero, and a closing line. -/
def Spec.contourEvents (close : Bool) (c : Contour K) : List (Event K) :=
  match c.head?.bind List.head? with
  | some p => .move p :: (c.filter fun s => !isDot s).map Event.draw ++ if close then [.close] else []
  | none => []

/-- The last command used by a contour, or the one before if it uses none. -/
def Spec.lastCommand (last : Option Char) (c : Contour K) : Option Char := (c.filterMap commandOf).getLast?.or last

/-- No contour starts with the command that the previous one ended with, unless that is `L`. -/
def Spec.NoClash (last : Option Char) : List (Contour K) → Prop
  | [] => True
  | c :: cs => (∀ x ∈ (c.filterMap commandOf).head?, x = 'L' ∨ last ≠ some x) ∧ NoClash (Spec.lastCommand last c) cs

/-- A contour that path data can describe. -/
def Spec.Drawable (str : K → List Char) (read : List Char → Option K) (c : Contour K) : Prop :=
  c ≠ [] ∧ Connected c ∧ (∀ s ∈ c, 2 ≤ s.length ∧ s.length ≤ 4) ∧ ∀ s ∈ c, ∀ p ∈ s, PrintablePt str read p

theorem contoursLoop_draws (str : K → List Char) (read : List Char → Option K) (poly close : Bool) (cs : List (Contour K))
    (hc : ∀ c ∈ cs, Drawable str read c) (st : Path K) (hm : poly = false ∨ NoClash st.lastCommand cs) :
    ∃ st' text ts, contoursLoop str poly close cs st = (.ok (), st') ∧ st'.commands = st.commands ++ text ∧
      st'.lastCommand = (if poly then cs.foldl Spec.lastCommand st.lastCommand else st.lastCommand) ∧
      Starts text.flatten ∧ tokens read [] text.flatten = some ts ∧ (ts = [] ∨ ∃ ts', ts = .cmd 'M' :: ts') ∧
      (text.flatten = [] ∨ ∃ cs', text.flatten = 'M' :: cs') ∧
      ∀ cur pen start, run cur pen start ts = some (cs.flatMap (contourEvents close)) := by
  induction cs generalizing st with
  | nil => exact ⟨st, [], [], rfl, by simp, by cases poly <;> rfl, starts_nil, tokens_nil read, .inl rfl, .inl rfl, by simp [run]⟩
  | cons c cs ih =>
    obtain ⟨hne, hcon, hlen, hpr⟩ := hc c (by simp)
    obtain ⟨s, c', rfl⟩ := List.exists_cons_of_ne_nil hne
    have hs := hlen s (by simp)
    obtain ⟨p, s', rfl⟩ : ∃ p s', s = p :: s' := List.exists_cons_of_ne_nil (by rintro rfl; simp at hs)
    have pp : PrintablePt str read p := hpr _ (List.mem_cons_self) p (by simp)
    unfold contoursLoop
    simp only [pyGet_zero_cons, ok_bind]
    have hfirst : ∀ x ∈ (((p :: s') :: c').filterMap commandOf).head?,
        contourPre poly x st.lastCommand = x ∨ (contourPre poly x st.lastCommand = ' ' ∧ 'L' = x) := by
      intro x hx
      left
      unfold contourPre
      split_ifs with hL
      · exact hL.symm
      · unfold getCommand
        rcases hm with hm | hm
        · simp [hm]
        · have := (hm.1 x hx).resolve_left hL
          cases poly <;> simp [this]
    obtain ⟨f1, text1, f2, f3, f4⟩ := fold_draws str read (contourStep_writes str poly) (contour_keeps poly) ((p :: s') :: c')
      hlen hcon.2 hpr { st with pen := p, commands := st.commands ++ ['M' :: pointToString str p] } 'L' (by simp) hfirst
    rw [nxt_fold] at f1
    have f1' : (List.foldl (contourStep str poly) { st with pen := p, commands := st.commands ++ ['M' :: pointToString str p] }
        ((p :: s') :: c')).lastCommand = if poly then Spec.lastCommand st.lastCommand ((p :: s') :: c') else st.lastCommand := f1
    generalize List.foldl (contourStep str poly) { st with pen := p, commands := st.commands ++ ['M' :: pointToString str p] }
        ((p :: s') :: c') = st1 at f1' f2
    let st2 : Path K := if close then { st1 with commands := st1.commands ++ [['Z']] } else st1
    have hlast2 : st2.lastCommand = st1.lastCommand := by cases close <;> rfl
    have hcmd2 : st2.commands = st.commands ++ (['M' :: pointToString str p] ++ text1 ++ if close then [['Z']] else []) := by
      have : st2.commands = st1.commands ++ if close then [['Z']] else [] := by cases close <;> simp [st2]
      rw [this, f2]
      simp
    obtain ⟨st', text, ts, e1, e2, e3, e4, e5, e6, -, e7⟩ := ih (fun c hc' => hc c (by simp [hc'])) st2 (by
      rcases hm with hm | hm
      · exact .inl hm
      · cases poly with
        | false => exact .inl rfl
        | true =>
          right
          rw [hlast2, f1']
          exact hm.2)
    have hZ : ∃ tsR, tokens read [] ((if close then ['Z'] else []) ++ text.flatten) = some tsR ∧
        ∀ cur pen start, run cur pen start tsR =
          some ((if close then [.close] else []) ++ cs.flatMap (contourEvents close)) := by
      cases close with
      | false => exact ⟨ts, by simpa using e5, by simpa using e7⟩
      | true =>
        refine ⟨.cmd 'Z' :: ts, ?_, ?_⟩
        · simp only [if_true, List.cons_append, List.nil_append]
          rw [tokens_cmd read (by decide), e5]
          rfl
        · intro cur pen start
          rw [run_Z, e7]
          rfl
    have hstartZ : Starts ((if close then ['Z'] else []) ++ text.flatten) := by
      refine starts_append ?_ e4
      cases close
      · exact starts_nil
      · exact .inr ⟨_, _, rfl, .inl (by decide)⟩
    obtain ⟨tsR, z1, z2⟩ := hZ
    obtain ⟨ts1, cur', pen', t1, t2⟩ := f4 _ hstartZ
    rw [z1] at t1
    have hflat : ((['M' :: pointToString str p] ++ text1 ++ if close then [['Z']] else []) ++ text).flatten =
        'M' :: (pointToString str p ++ (text1.flatten ++ ((if close then ['Z'] else []) ++ text.flatten))) := by
      cases close <;> simp
    refine ⟨st', (['M' :: pointToString str p] ++ text1 ++ if close then [['Z']] else []) ++ text,
      .cmd 'M' :: .num p.1 :: .num p.2 :: (ts1 ++ tsR), e1, ?_, ?_, ?_, ?_, .inr ⟨_, rfl⟩, .inr ⟨_, hflat⟩, ?_⟩
    · rw [e2, hcmd2]
      simp
    · rw [e3, hlast2, f1']
      cases poly <;> rfl
    · rw [hflat]
      exact .inr ⟨_, _, rfl, .inl (by decide)⟩
    · rw [hflat, tokens_cmd read (by decide), tokens_point read pp (starts_append f3 hstartZ), t1]
      rfl
    · intro cur pen start
      rw [run.eq_def]
      simp only [show ¬ 'M' = 'Z' by decide, if_false]
      rw [run_M]
      have := t2 p tsR
      rw [z2] at this
      rw [show (run 'L' (p.1, p.2) (p.1, p.2) (ts1 ++ tsR)) = _ from this]
      simp [contourEvents, List.flatMap_cons]

/-- C61: `drawContours` appends one path that, read as SVG, draws the contours; in the current stroke attributes except for the
colour. In poly mode this needs that no contour starts with the command that was used last. -/
theorem C61_drawContours (str : K → List Char) (read : List Char → Option K) (cs : List (Contour K))
    (hc : ∀ c ∈ cs, Drawable str read c) (color : Option C) (close : Bool) (s : ContourPlotter K C)
    (hm : s.poly = false ∨ NoClash s.lastCommand cs) :
    ∃ s' d, drawContours str cs color false close s = (.ok (), s') ∧
      s'.content = s.content ++ [.path d { s.stroke with color := color.getD s.stroke.color }] ∧
      interpret read d = some (cs.flatMap (contourEvents close)) ∧
      s'.lastCommand = if s.poly then cs.foldl Spec.lastCommand s.lastCommand else s.lastCommand := by
  obtain ⟨st, text, ts, e1, e2, e3, _, e5, e6, _, e7⟩ := contoursLoop_draws str read s.poly close cs hc
    { commands := [], lastCommand := s.lastCommand, pen := (pushColor color s).pen } hm
  obtain ⟨s', d1, _, d3, d4, _⟩ := drawContours_ok str cs color close s st e1
  refine ⟨s', _, d1, d3, ?_, d4.trans e3⟩
  rw [e2, List.nil_append]
  unfold interpret
  rw [e5, Option.bind_some]
  rcases e6 with rfl | ⟨ts', rfl⟩
  · have := e7 'Z' (0, 0) (0, 0)
    rw [run.eq_def] at this
    exact this
  · exact e7 'Z' (0, 0) (0, 0)

/-- C61: in poly mode the claim is false: two contours that begin with a quadratic curve. The second one is written without its
command, and read as lines. -/
theorem C61_poly_counterexample :
    let c1 : Contour ℚ := [[(0, 0), (1, 2), (3, 3)], [(3, 3), (0, 0)]]
    let c2 : Contour ℚ := [[(5, 5), (6, 7), (9, 9)]]
    (∃ s', drawContours strq [c2, c2] none false true (plotter true) = (.ok (), s') ∧
      s'.content = [.path "M5,5Q6,7 9,9ZM5,5 6,7 9,9Z".toList (plotter true).stroke]) ∧
    (∃ s', drawContours strq [c1, c2] none false true (plotter true) = (.ok (), s') ∧
      s'.content = [.path "M0,0Q1,2 3,3L0,0ZM5,5Q6,7 9,9Z".toList (plotter true).stroke]) ∧
    ∀ read : List Char → Option ℚ, read ['5'] = some 5 → read ['6'] = some 6 → read ['7'] = some 7 → read ['9'] = some 9 →
      interpret read "M5,5Q6,7 9,9ZM5,5 6,7 9,9Z".toList = some [.move (5, 5), .draw [(5, 5), (6, 7), (9, 9)], .close,
        .move (5, 5), .draw [(5, 5), (6, 7)], .draw [(6, 7), (9, 9)], .close] := by
  refine ⟨⟨_, rfl, by decide +kernel⟩, ⟨_, rfl, by decide +kernel⟩, ?_⟩
  intro read h5 h6 h7 h9
  have e : "M5,5Q6,7 9,9ZM5,5 6,7 9,9Z".toList = ['M', '5', ',', '5', 'Q', '6', ',', '7', ' ', '9', ',', '9', 'Z',
    'M', '5', ',', '5', ' ', '6', ',', '7', ' ', '9', ',', '9', 'Z'] := by decide +kernel
  rw [e]
  simp [interpret, interpretTokens, tokens, isCommand, isSeparator, flush, run, h5, h6, h7, h9]

/-- Contours that can be drawn, and do not clash in poly mode. -/
example : ∃ read : List Char → Option ℚ, ∀ c ∈ ([[[(0, 0), (3, 3)], [(3, 3), (0, 3), (3, 0)]], [[(0, 3), (3, 3)]]] : List (Contour ℚ)),
    Drawable strq read c := by
  refine ⟨fun w => if w = ['0'] then some 0 else some 3, ?_⟩
  have h0 : Printable strq (fun w => if w = ['0'] then some (0 : ℚ) else some 3) 0 := by
    have : strq 0 = ['0'] := by decide +kernel
    simp only [Printable, this]
    decide
  have h3 : Printable strq (fun w => if w = ['0'] then some (0 : ℚ) else some 3) 3 := by
    have : strq 3 = ['3'] := by decide +kernel
    simp only [Printable, this]
    decide
  intro c hc
  simp at hc
  rcases hc with rfl | rfl
  · refine ⟨by simp, ⟨by simp, by simp [Spec.Joined]⟩, by simp, ?_⟩
    simp only [List.forall_mem_cons, List.not_mem_nil, IsEmpty.forall_iff, implies_true, PrintablePt, h0, h3, and_self]
  · refine ⟨by simp, ⟨by simp, by simp [Spec.Joined]⟩, by simp, ?_⟩
    simp only [List.forall_mem_cons, List.not_mem_nil, IsEmpty.forall_iff, implies_true, PrintablePt, h0, h3, and_self]

example : NoClash (some 'V') ([[[(0, 0), (3, 3)], [(3, 3), (0, 3), (3, 0)]], [[(0, 3), (3, 3)]]] : List (Contour ℚ)) := by
  simp [NoClash, commandOf, Spec.lastCommand]

theorem drawPath_draws (str : K → List Char) (read : List Char → Option K) (path : PlotPath K) (s : ContourPlotter K C)
    (hlen : ∀ s ∈ path.segments, 2 ≤ s.length ∧ s.length ≤ 4) (hcon : Connected path.segments)
    (hstart : ∀ s ∈ path.segments.head?, s.head? = some path.start)
    (hpr : ∀ s ∈ path.segments, ∀ p ∈ s, PrintablePt str read p) (hps : PrintablePt str read path.start)
    (hm : s.poly = false ∨ ∀ x ∈ (path.segments.filterMap commandOf).head?, x = 'L' ∨ s.lastCommand ≠ some x) :
    (drawPath str s path).lastCommand =
      (if s.poly then Spec.lastCommand s.lastCommand path.segments else s.lastCommand) ∧
    ∃ d, (drawPath str s path).content = s.content ++ [.path d s.stroke] ∧
      interpret read d = some (.move path.start :: (path.segments.filter fun s => !isDot s).map Event.draw) := by
  have hfirst : ∀ x ∈ (path.segments.filterMap commandOf).head?,
      pathPre s.poly x s.lastCommand = x ∨ (pathPre s.poly x s.lastCommand = ' ' ∧ 'L' = x) := by
    intro x hx
    unfold pathPre getCommand
    rcases hm with hm | hm
    · simp [hm]
    · rcases hm x hx with rfl | h
      · cases s.poly
        · simp
        · by_cases h : s.lastCommand = some 'L' <;> simp [h]
      · cases s.poly <;> simp [h]
  obtain ⟨f1, text, f2, f3, f4⟩ := fold_draws str read (pathStep_writes str s.poly) (path_keeps s.poly) path.segments hlen hcon.2 hpr
    { commands := ['M' :: pointToString str path.start], lastCommand := s.lastCommand, pen := path.start } 'L' hstart hfirst
  rw [nxt_fold] at f1
  refine ⟨f1, _, rfl, ?_⟩
  rw [f2]
  obtain ⟨ts, cur', pen', t1, t2⟩ := f4 [] starts_nil
  rw [List.append_nil] at t1
  have hflat : (['M' :: pointToString str path.start] ++ text).flatten = 'M' :: (pointToString str path.start ++ text.flatten) := by
    simp
  rw [hflat]
  unfold interpret
  rw [tokens_cmd read (by decide), tokens_point read hps f3, t1, tokens_nil]
  simp only [Option.map_some, Option.bind_some]
  unfold interpretTokens
  simp only
  rw [run.eq_def]
  simp only [show ¬ 'M' = 'Z' by decide, if_false]
  have := t2 path.start []
  simp only [run, Option.map_some, List.append_nil] at this
  rw [List.append_nil, run_M, this]
  rfl

/-- A path that path data can describe. -/
def Spec.DrawablePath (str : K → List Char) (read : List Char → Option K) (path : PlotPath K) : Prop :=
  (∀ s ∈ path.segments, 2 ≤ s.length ∧ s.length ≤ 4) ∧ Connected path.segments ∧
    (∀ s ∈ path.segments.head?, s.head? = some path.start) ∧ (∀ s ∈ path.segments, ∀ p ∈ s, PrintablePt str read p) ∧
    PrintablePt str read path.start

/-- C61: `drawPaths` appends one path per argument that, read as SVG, draws it. -/
theorem C61_drawPaths (str : K → List Char) (read : List Char → Option K) (ps : List (PlotPath K))
    (hc : ∀ p ∈ ps, DrawablePath str read p) (color : Option C) (s : ContourPlotter K C)
    (hm : s.poly = false ∨ NoClash s.lastCommand (ps.map (·.segments))) :
    ∃ s' items, drawPaths str ps color false s = (.ok (), s') ∧ s'.content = s.content ++ items ∧
      List.Forall₂ (fun (p : PlotPath K) (item : Item K C) => ∃ d,
        item = .path d { s.stroke with color := color.getD s.stroke.color } ∧
        interpret read d = some (.move p.start :: (p.segments.filter fun s => !isDot s).map Event.draw)) ps items ∧
      s'.lastCommand = if s.poly then (ps.map (·.segments)).foldl Spec.lastCommand s.lastCommand else s.lastCommand := by
  have key : ∀ (ps : List (PlotPath K)) (hc : ∀ p ∈ ps, DrawablePath str read p) (s : ContourPlotter K C)
      (hm : s.poly = false ∨ NoClash s.lastCommand (ps.map (·.segments))),
      ∃ items, (ps.foldl (drawPath str) s).content = s.content ++ items ∧
        List.Forall₂ (fun (p : PlotPath K) (item : Item K C) => ∃ d, item = .path d s.stroke ∧
          interpret read d = some (.move p.start :: (p.segments.filter fun s => !isDot s).map Event.draw)) ps items ∧
        (ps.foldl (drawPath str) s).lastCommand =
          if s.poly then (ps.map (·.segments)).foldl Spec.lastCommand s.lastCommand else s.lastCommand := by
    intro ps
    induction ps with
    | nil => intro _ s _; exact ⟨[], by simp, .nil, by simp⟩
    | cons p ps ih =>
      intro hc s hm
      obtain ⟨h1, h2, h3, h4, h5⟩ := hc p (by simp)
      obtain ⟨d1, d, d2, d3⟩ := drawPath_draws str read p s h1 h2 h3 h4 h5 (hm.imp_right (fun h => h.1))
      obtain ⟨items, i1, i2, i3⟩ := ih (fun q hq => hc q (by simp [hq])) (drawPath str s p) (by
        rcases hm with hm | hm
        · exact .inl hm
        · rcases hp : s.poly with _ | _
          · exact .inl hp
          · right
            rw [d1, hp]
            exact hm.2)
      refine ⟨.path d s.stroke :: items, ?_, .cons ⟨d, rfl, d3⟩ i2, ?_⟩
      · rw [List.foldl_cons, i1, d2]
        simp
      · rw [List.foldl_cons, i3, d1]
        have : (drawPath str s p).poly = s.poly := rfl
        rw [this]
        cases s.poly <;> rfl
  obtain ⟨items, i1, i2, i3⟩ := key ps hc (pushColor color s) (by rw [pushColor_poly, pushColor_last]; exact hm)
  obtain ⟨s', e1, _, e3, e4, _⟩ := popColor_push color s _ (drawPath_attributes str ps (pushColor color s))
  refine ⟨s', items, e1, ?_, ?_, ?_⟩
  · rw [e3, i1, pushColor_content]
  · rw [pushColor_stroke] at i2
    exact i2
  · rw [e4, i3, pushColor_poly, pushColor_last]

/-- The lines between consecutive points, except those of length zero. -/
def Spec.polyline (ps : List (Pt K)) : List (Event K) :=
  ((List.zipWith (fun a b => [a, b]) ps ps.tail).filter fun s => !isDot s).map Event.draw

private theorem points_draws (str : K → List Char) (read : List Char → Option K) (ps : List (Pt K)) (p : Pt K)
    (hpr : ∀ q ∈ ps, PrintablePt str read q) (c : Char) (hc : c = 'L' ∨ c = ' ') (pre : List (List Char)) :
    ∃ text, (ps.foldl (pointStep str) (c, pre, p)).2.1 = pre ++ text ∧ Starts text.flatten ∧
      ∃ ts, tokens read [] text.flatten = some ts ∧ ∀ start, run 'L' p start ts = some (polyline (p :: ps)) := by
  induction ps generalizing p c pre with
  | nil => exact ⟨[], by simp, starts_nil, [], tokens_nil read, by simp [run, polyline]⟩
  | cons q ps ih =>
    have hq := hpr q (by simp)
    have hpr' : ∀ q ∈ ps, PrintablePt str read q := fun q hq => hpr q (by simp [hq])
    rw [List.foldl_cons]
    by_cases h : p.1 = q.1 ∧ p.2 = q.2
    · have hpq : p = q := Prod.ext h.1 h.2
      subst hpq
      have e : pointStep str (c, pre, p) p = (c, pre, p) := by simp [pointStep]
      rw [e]
      obtain ⟨text, t1, t2, ts, t3, t4⟩ := ih p hpr' c hc pre
      refine ⟨text, t1, t2, ts, t3, fun start => ?_⟩
      rw [t4]
      simp [polyline, isDot]
    · have hpq : p ≠ q := fun e => h ⟨by rw [e], by rw [e]⟩
      have e : pointStep str (c, pre, p) q = (' ', pre ++ [c :: pointToString str q], q) := by simp [pointStep, h]
      rw [e]
      obtain ⟨text, t1, t2, ts, t3, t4⟩ := ih q hpr' ' ' (.inr rfl) (pre ++ [c :: pointToString str q])
      refine ⟨(c :: pointToString str q) :: text, by rw [t1]; simp, ?_,
        (if decide (c = ' ') then [] else [Token.cmd 'L']) ++ .num q.1 :: .num q.2 :: ts, ?_, fun start => ?_⟩
      · rcases hc with rfl | rfl
        · exact .inr ⟨_, _, rfl, .inl (by decide)⟩
        · exact starts_space _
      · simp only [List.flatten_cons, List.cons_append]
        rw [tokens_prefix read c 'L' (by decide) hc, tokens_point read hq t2, t3]
        rfl
      · rw [run_prefix c 'L' 'L' (by decide) (fun _ => rfl), run_L, t4]
        simp [polyline, isDot, hpq]

/-- C61: `drawPointsAsSegments` appends one path that, read as SVG, draws the lines between consecutive points. -/
theorem C61_points (str : K → List Char) (read : List Char → Option K) (p : Pt K) (ps : List (Pt K))
    (hpr : ∀ q ∈ p :: ps, PrintablePt str read q) (color : Option C) (s : ContourPlotter K C) :
    ∃ s' d, drawPointsAsSegments str (p :: ps) color s = (.ok (), s') ∧
      s'.content = s.content ++ [.path d { s.stroke with color := color.getD s.stroke.color }] ∧
      interpret read d = some (.move p :: polyline (p :: ps)) ∧ s'.attributes = s.attributes ∧ s'.lastCommand = s.lastCommand := by
  unfold drawPointsAsSegments
  simp only
  obtain ⟨text, t1, t2, ts, t3, t4⟩ := points_draws str read ps p (fun q hq => hpr q (by simp [hq])) 'L' (.inl rfl)
    ['M' :: pointToString str p]
  obtain ⟨s', e1, e2, e3, e4, _⟩ := popColor_push color s { pushColor color s with
    pen := (ps.foldl (pointStep str) ('L', ['M' :: pointToString str p], p)).2.2
    content := (pushColor color s).content ++
      [.path (ps.foldl (pointStep str) ('L', ['M' :: pointToString str p], p)).2.1.flatten (pushColor color s).stroke] } rfl
  refine ⟨s', (ps.foldl (pointStep str) ('L', ['M' :: pointToString str p], p)).2.1.flatten, e1,
    by rw [e3]; simp only [pushColor_content, pushColor_stroke], ?_, e2, by rw [e4]; exact pushColor_last color s⟩
  rw [t1]
  have hflat : (['M' :: pointToString str p] ++ text).flatten = 'M' :: (pointToString str p ++ text.flatten) := by simp
  rw [hflat]
  unfold interpret
  rw [tokens_cmd read (by decide), tokens_point read (hpr p (by simp)) t2, t3]
  simp only [Option.map_some, Option.bind_some]
  unfold interpretTokens
  simp only
  rw [run.eq_def]
  simp only [show ¬ 'M' = 'Z' by decide, if_false]
  rw [run_M, t4]
  rfl

/-! ## C68 -/

private theorem labels_fold (label : Pt K → List Char) (ps : List (Pt K)) (s : ContourPlotter K C) :
    let s' := ps.foldl (fun (s : ContourPlotter K C) (p : Pt K) =>
      drawText (p.1 + 4) (p.2 - 4) ['l', 'e', 'f', 't'] (label p) false s) s
    s' = { s with content := s.content ++ ps.map (fun p =>
      .label false (p.1 + 4, p.2 - 4) "left".toList (label p) s.labelFontSize s.fill) } := by
  induction ps generalizing s with
  | nil => simp
  | cons p ps ih =>
    simp only [List.foldl_cons] at ih ⊢
    rw [ih]
    simp [drawText]

private theorem discs_fold (radius : K) (c : C) (i : Nat) (ps : List (Pt K)) (s : ContourPlotter K C) (hs : s.fill.color = c) :
    circlesLoop radius [c] true i ps s = { s with content := s.content ++ ps.map fun p => .disc p radius s.fill } := by
  induction ps generalizing i s with
  | nil => simp [circlesLoop]
  | cons p ps ih =>
    have hmod : ([c] : List C)[i % [c].length]? = some c := by simp [Nat.mod_one]
    have hfill : ({ color := c, opacity := s.fill.opacity } : FillAttributes K C) = s.fill := by rw [← hs]
    unfold circlesLoop
    rw [hmod]
    simp only [if_true]
    rw [ih _ _ rfl]
    simp [hfill]

/-- C68: `drawSkeleton` with one point colour draws the control polygon, a disc on each control point and a black label beside
it, in label font size 6. The fill colour is left at the point colour and the label font size at 6. -/
theorem C68_skeleton (str : K → List Char) (read : List Char → Option K) (label : Pt K → List Char) (black : C) (p : Pt K)
    (ps : List (Pt K)) (hpr : ∀ q ∈ p :: ps, PrintablePt str read q) (lineColor : Option C) (pointColor : C)
    (s : ContourPlotter K C) :
    ∃ s' d, drawSkeleton str label black (p :: ps) lineColor [pointColor] s = (.ok (), s') ∧
      s'.content = s.content ++ [.path d { s.stroke with color := lineColor.getD s.stroke.color }] ++
        (p :: ps).map (fun q => .disc q 2 { s.fill with color := pointColor }) ++
        (p :: ps).map (fun q =>
          .label false (q.1 + 4, q.2 - 4) "left".toList (label q) (6, 6) { s.fill with color := black }) ∧
      interpret read d = some (.move p :: polyline (p :: ps)) ∧
      s'.attributes = ({ s.fill with color := pointColor }, s.stroke, s.fillStack, s.strokeStack, (6, 6)) := by
  obtain ⟨s1, d, e1, e2, e3, e4, _⟩ := C61_points str read p ps hpr lineColor s
  obtain ⟨a1, a2, a3, a4, _⟩ := (attributes_iff _ _).mp e4
  unfold drawSkeleton
  rw [e1]
  simp only
  have hd : drawPointsAsCircles (p :: ps) 2 [pointColor] true s1 =
      (.ok (), { s1 with
        fill := { s1.fill with color := pointColor }
        content := s1.content ++ (p :: ps).map fun q => .disc q 2 { s1.fill with color := pointColor } }) := by
    unfold drawPointsAsCircles
    simp only [if_true]
    rw [discs_fold 2 pointColor 0 (p :: ps) _ rfl]
    simp
  rw [hd]
  simp only
  rw [labels_fold]
  simp only [popFillAttributes, pushFillAttributes, List.getLast?_append, List.getLast?_singleton, Option.some_or]
  refine ⟨_, d, rfl, ?_, e3, ?_⟩
  · simp [e2, a1, pushFillAttributes]
  · simp [attributes, pushFillAttributes, a1, a2, a3, a4]

section hull
variable {K : Type} [Field K] [LinearOrder K]

private theorem level_length (ps : Segment K) (t : K) (k : ℕ) : (level ps t k).length = ps.length - k := by simp [level]

private theorem hullLoop_draws (str : K → List Char) (read : List Char → Option K) (lineColor : Option C) (ps : Segment K) (t : K)
    (hpr : ∀ q ∈ hull ps t, PrintablePt str read q) (m : ℕ) (k : ℕ) (hk : k + m + 1 = ps.length) (s : ContourPlotter K C) :
    ∃ s' items, hullLoop str lineColor (hull ps t) (((List.range k).flatMap (level ps t)).length) (m + 1) s = (.ok (), s') ∧
      s'.content = s.content ++ items ∧ s'.attributes = s.attributes ∧
      List.Forall₂ (fun (j : ℕ) (item : Item K C) => ∃ d q l,
        item = .path d { s.stroke with color := lineColor.getD s.stroke.color } ∧
        level ps t (k + j) = q :: l ∧ interpret read d = some (.move q :: polyline (q :: l))) (List.range m) items := by
  induction m generalizing k s with
  | zero =>
    refine ⟨s, [], ?_, by simp, rfl, by simp⟩
    rw [ContourPlotter.hullLoop]
    simp
  | succ m ih =>
    have hl : (level ps t k).length = m + 1 + 1 := by rw [level_length]; omega
    obtain ⟨q, l, hql⟩ : ∃ q l, level ps t k = q :: l := List.exists_cons_of_ne_nil (by rintro h; rw [h] at hl; simp at hl)
    have hsplit : hull ps t = (List.range k).flatMap (level ps t) ++ (level ps t k ++
        (List.range m.succ).flatMap (fun j => level ps t (k + 1 + j))) := by
      rw [C31_pyramid, ← hk, show k + (m + 1) + 1 = k + (1 + m.succ) by omega, List.range_add, List.flatMap_append,
        List.flatMap_map, show 1 + m.succ = m.succ + 1 by omega, List.range_succ_eq_map, List.flatMap_cons, List.flatMap_map]
      simp [Nat.add_comm, Nat.add_left_comm, Nat.add_assoc]
    have hslice : ((hull ps t).take (((List.range k).flatMap (level ps t)).length + (m + 1 + 1))).drop
        (((List.range k).flatMap (level ps t)).length) = q :: l := by
      rw [hsplit, ← hl, List.take_length_add_append, List.drop_left, List.take_left, hql]
    have hpr' : ∀ x ∈ q :: l, PrintablePt str read x := by
      intro x hx
      apply hpr
      rw [hsplit, hql]
      simp only [List.mem_append]
      exact .inr (.inl hx)
    obtain ⟨s1, d, e1, e2, e3, e4, _⟩ := C61_points str read q l hpr' lineColor s
    have hnext : ((List.range k).flatMap (level ps t)).length + (m + 1 + 1) = ((List.range (k + 1)).flatMap (level ps t)).length := by
      rw [List.range_succ, List.flatMap_append]
      simp [hl]
    obtain ⟨s', items, i1, i2, i3, i4⟩ := ih (k + 1) (by omega) s1
    have hs : s1.stroke = s.stroke := ((attributes_iff _ _).mp e4).2.1
    refine ⟨s', .path d { s.stroke with color := lineColor.getD s.stroke.color } :: items, ?_, ?_, i3.trans e4, ?_⟩
    · rw [ContourPlotter.hullLoop]
      simp only [show m + 1 + 1 > 1 by omega, if_true]
      rw [hslice, e1]
      simp only
      rw [hnext]
      exact i1
    · rw [i2, e2]
      simp
    · rw [List.range_succ_eq_map]
      refine .cons ⟨d, q, l, rfl, hql, e3⟩ ?_
      rw [List.forall₂_map_left_iff]
      refine i4.imp ?_
      rintro j item ⟨d, q, l, h1, h2, h3⟩
      refine ⟨d, q, l, by rw [h1, hs], ?_, h3⟩
      rw [← h2]
      congr 1
      simp only [Nat.succ_eq_add_one]
      omega

/-- C68: after the skeleton, `drawHull` draws exactly the levels of de Casteljau's pyramid from the first interpolated one down to
the one with two points, once each, in order, in half opacity if there is a line colour; for every order. -/
theorem C68_drawHull [IsStrictOrderedRing K] (str : K → List Char) (read : List Char → Option K) (label : Pt K → List Char) (black : C) (curve : Segment K)
    (h2 : 2 ≤ curve.length) (t : K) (hpr : ∀ q ∈ hull curve t, PrintablePt str read q) (lineColor : Option C) (pointColor : C)
    (s : ContourPlotter K C) :
    ∃ s1 s' items, drawSkeleton str label black curve lineColor [pointColor] s = (.ok (), s1) ∧
      drawHull str label black curve t lineColor pointColor s = (.ok (), s') ∧ s'.content = s1.content ++ items ∧
      s'.attributes = ({ s.fill with color := pointColor }, s.stroke, s.fillStack, s.strokeStack, (6, 6)) ∧
      List.Forall₂ (fun (j : ℕ) (item : Item K C) => ∃ d q l,
        item = .path d { s.stroke with
          color := lineColor.getD s.stroke.color
          opacity := if lineColor.isSome then 1 / 2 else s.stroke.opacity } ∧
        level curve t (j + 1) = q :: l ∧ interpret read d = some (.move q :: polyline (q :: l)))
        (List.range (curve.length - 2)) items := by
  obtain ⟨p, ps, rfl⟩ : ∃ p ps, curve = p :: ps := List.exists_cons_of_ne_nil (by rintro rfl; simp at h2)
  obtain ⟨n, hn⟩ : ∃ n, (p :: ps).length = n + 2 := ⟨(p :: ps).length - 2, by omega⟩
  obtain ⟨s1, d, e1, e2, e3, e4⟩ := C68_skeleton str read label black p ps (fun q hq => hpr q ((C31_prefix _ t).subset hq)) lineColor
    pointColor s
  have e4' : s1.fill = { s.fill with color := pointColor } ∧ s1.stroke = s.stroke ∧ s1.fillStack = s.fillStack ∧
      s1.strokeStack = s.strokeStack ∧ s1.labelFontSize = (6, 6) := by
    simpa [attributes, Prod.ext_iff] using e4
  obtain ⟨a1, a2, a3, a4, a5⟩ := e4'
  have hlen0 : (p :: ps).length = ((List.range 1).flatMap (level (p :: ps) t)).length := by
    simp [level]
  rcases lineColor with _ | c
  · obtain ⟨s', items, i1, i2, i3, i4⟩ := hullLoop_draws str read (none : Option C) (p :: ps) t hpr n 1 (by omega) s1
    refine ⟨s1, s', items, e1, ?_, i2, i3.trans e4, ?_⟩
    · unfold drawHull
      rw [e1]
      simp only
      rw [show (p :: ps).length - 1 = n + 1 by omega]
      conv_lhs => rw [hlen0]
      rw [i1]
      rfl
    · rw [show (p :: ps).length - 2 = n by omega]
      refine i4.imp ?_
      rintro j item ⟨d, q, l, h1, h2, h3⟩
      exact ⟨d, q, l, by rw [h1, a2]; simp, by rw [← h2, Nat.add_comm], h3⟩
  · obtain ⟨s', items, i1, i2, i3, i4⟩ := hullLoop_draws str read (some c) (p :: ps) t hpr n 1 (by omega)
      (pushStrokeAttributes none (some c) (some (1 / 2)) none s1)
    obtain ⟨b1, b2, b3, b4, b5⟩ := (attributes_iff _ _).mp i3
    have b4' : s'.strokeStack = s1.strokeStack ++ [s1.stroke] := b4
    refine ⟨s1, { s' with strokeStack := s'.strokeStack.dropLast, stroke := s1.stroke }, items, e1, ?_, i2, ?_, ?_⟩
    · unfold drawHull
      rw [e1]
      simp only
      rw [show (p :: ps).length - 1 = n + 1 by omega]
      conv_lhs => rw [hlen0]
      rw [i1]
      simp [popColor, popStrokeAtributes, b4']
    · have hb1 : s'.fill = s1.fill := b1
      have hb3 : s'.fillStack = s1.fillStack := b3
      have hb5 : s'.labelFontSize = s1.labelFontSize := b5
      simp [attributes, hb1, hb3, hb5, b4', a1, a2, a3, a4, a5]
    · rw [show (p :: ps).length - 2 = n by omega]
      refine i4.imp ?_
      rintro j item ⟨d, q, l, h1, h2, h3⟩
      refine ⟨d, q, l, ?_, by rw [← h2, Nat.add_comm], h3⟩
      rw [h1]
      simp [pushStrokeAttributes, a2]

/-- A quadratic curve has one intermediate level with two points. -/
example : (drawHull strq (fun _ => []) 9 [(0, 0), (4, 8), (8, 0)] (1 / 2) (some 5) 6 (plotter false)).2.content.getLast? =
    some (.path "M2,4L6,4".toList { width := 1, color := 5, opacity := 1 / 2, dash := none }) := by
  decide +kernel

end hull

end PathLib
