import Verif.Props.ContourPlotter
import Verif.Props.Color

set_option linter.unusedSectionVars false
set_option linter.unusedSimpArgs false

/-!
# What circles, curves and arrows add to a drawing: C77
-/

namespace PathLib
open Spec Spec.Svg ContourPlotter

section
variable {K C : Type} [Field K] [DecidableEq K]

/-- The colour of the `i`-th point: the given colours repeat; without colours it is `other`. -/
def Spec.cycle (colors : List C) (other : C) (i : Nat) : C := (colors[i % colors.length]?).getD other

/-- The circles to draw on the points, the first of which is the `i`-th: outlines in the stroke attributes or discs in the fill
attributes, each in its own colour. -/
def Spec.circles (s : ContourPlotter K C) (radius : K) (colors : List C) (fill : Bool) (points : List (Pt K)) (i : Nat := 0) :
    List (Item K C) :=
  (points.zipIdx i).map fun pi =>
    if fill then .disc pi.1 radius { s.fill with color := cycle colors s.fill.color pi.2 }
    else .circle pi.1 radius { s.stroke with color := cycle colors s.stroke.color pi.2 }

theorem cycle_fix (colors : List C) (a : C) (i j : Nat) : cycle colors (cycle colors a i) j = cycle colors a j := by
  unfold cycle
  rcases colors with _ | ⟨c, cs⟩
  · simp
  · have : j % (c :: cs).length < (c :: cs).length := Nat.mod_lt _ (by simp)
    rw [List.getElem?_eq_getElem this]
    rfl

private theorem circlesLoop_cons_stroke (radius : K) (colors : List C) (i : Nat) (p : Pt K) (ps : List (Pt K)) (s : ContourPlotter K C) :
    circlesLoop radius colors false i (p :: ps) s = circlesLoop radius colors false (i + 1) ps { s with
      stroke := { s.stroke with color := cycle colors s.stroke.color i }
      content := s.content ++ [.circle p radius { s.stroke with color := cycle colors s.stroke.color i }] } := by
  rw [circlesLoop]
  unfold cycle
  cases colors[i % colors.length]? <;> simp

private theorem circlesLoop_cons_fill (radius : K) (colors : List C) (i : Nat) (p : Pt K) (ps : List (Pt K)) (s : ContourPlotter K C) :
    circlesLoop radius colors true i (p :: ps) s = circlesLoop radius colors true (i + 1) ps { s with
      fill := { s.fill with color := cycle colors s.fill.color i }
      content := s.content ++ [.disc p radius { s.fill with color := cycle colors s.fill.color i }] } := by
  rw [circlesLoop]
  unfold cycle
  cases colors[i % colors.length]? <;> simp

theorem circlesLoop_stroke (radius : K) (colors : List C) (i : Nat) (ps : List (Pt K)) (s : ContourPlotter K C) :
    circlesLoop radius colors false i ps s = { s with
      stroke := { s.stroke with color := if ps = [] then s.stroke.color else cycle colors s.stroke.color (i + ps.length - 1) }
      content := s.content ++ circles s radius colors false ps i } := by
  induction ps generalizing i s with
  | nil => simp [circlesLoop, circles]
  | cons p ps ih =>
    rw [circlesLoop_cons_stroke, ih]
    rcases ps with _ | ⟨q, ps⟩
    · simp [circles, cycle_fix, List.zipIdx_cons]
    · simp [circles, cycle_fix, List.zipIdx_cons, Nat.add_comm, Nat.add_left_comm]

theorem circlesLoop_fill (radius : K) (colors : List C) (i : Nat) (ps : List (Pt K)) (s : ContourPlotter K C) :
    circlesLoop radius colors true i ps s = { s with
      fill := { s.fill with color := if ps = [] then s.fill.color else cycle colors s.fill.color (i + ps.length - 1) }
      content := s.content ++ circles s radius colors true ps i } := by
  induction ps generalizing i s with
  | nil => simp [circlesLoop, circles]
  | cons p ps ih =>
    rw [circlesLoop_cons_fill, ih]
    rcases ps with _ | ⟨q, ps⟩
    · simp [circles, cycle_fix, List.zipIdx_cons]
    · simp [circles, cycle_fix, List.zipIdx_cons, Nat.add_comm, Nat.add_left_comm]

/-- C77: both functions draw one circle per point, in order, in the given colours one after the other (in the current colour
without colours). Circles leave the attributes as they were; discs leave the colour of the last one as the fill colour. -/
theorem C77_circles (points : List (Pt K)) (radius : K) (colors : List C) (fill : Bool) (s : ContourPlotter K C) :
    ∃ s', drawComplexPointsAsCircles points radius colors fill s = (.ok (), s') ∧
      (points ≠ [] → drawPointsAsCircles points radius colors fill s = (.ok (), s')) ∧
      s'.content = s.content ++ circles s radius colors fill points ∧
      s'.stroke = s.stroke ∧ s'.fillStack = s.fillStack ∧ s'.strokeStack = s.strokeStack ∧ s'.fill.opacity = s.fill.opacity ∧
      s'.fill.color = (if fill then cycle colors s.fill.color (points.length - 1) else s.fill.color) ∧
      s'.pen = s.pen ∧ s'.lastCommand = s.lastCommand ∧ s'.poly = s.poly := by
  have hsame : points ≠ [] →
      drawPointsAsCircles points radius colors fill s = drawComplexPointsAsCircles points radius colors fill s := by
    intro h
    obtain ⟨p, ps, rfl⟩ := List.exists_cons_of_ne_nil h
    rfl
  suffices H : ∃ s', drawComplexPointsAsCircles points radius colors fill s = (.ok (), s') ∧
      s'.content = s.content ++ circles s radius colors fill points ∧
      s'.stroke = s.stroke ∧ s'.fillStack = s.fillStack ∧ s'.strokeStack = s.strokeStack ∧ s'.fill.opacity = s.fill.opacity ∧
      s'.fill.color = (if fill then cycle colors s.fill.color (points.length - 1) else s.fill.color) ∧
      s'.pen = s.pen ∧ s'.lastCommand = s.lastCommand ∧ s'.poly = s.poly by
    obtain ⟨s', h, h'⟩ := H
    exact ⟨s', h, fun hp => (hsame hp).trans h, h'⟩
  cases fill with
  | false =>
    rcases colors with _ | ⟨c, cs⟩
    · have hc := circlesLoop_stroke radius ([] : List C) 0 points s
      refine ⟨{ s with content := s.content ++ circles s radius [] false points }, ?_, ?_⟩
      · simp [drawComplexPointsAsCircles, hc, cycle]
      · simp
    · have hc := circlesLoop_stroke radius (c :: cs) 0 points (pushStrokeAttributes none (some c) none none s)
      refine ⟨{ s with content := s.content ++ circles s radius (c :: cs) false points }, ?_, ?_⟩
      · unfold drawComplexPointsAsCircles
        simp only [Bool.false_eq_true, if_false, hc]
        have hcyc : ∀ i, cycle (c :: cs) c i = cycle (c :: cs) s.stroke.color i := by
          exact fun i => cycle_fix (c :: cs) s.stroke.color 0 i
        simp [pushStrokeAttributes, popStrokeAtributes, circles, hcyc]
      · simp
  | true =>
    have h := circlesLoop_fill radius colors 0 points
    rcases colors with _ | ⟨c, cs⟩
    · refine ⟨{ s with content := s.content ++ circles s radius [] true points }, ?_, ?_⟩
      · simp [drawComplexPointsAsCircles, h, cycle]
      · simp [cycle]
    · have hcyc : ∀ i, cycle (c :: cs) c i = cycle (c :: cs) s.fill.color i := by
        exact fun i => cycle_fix (c :: cs) s.fill.color 0 i
      refine ⟨{ s with
        fill := { s.fill with color := cycle (c :: cs) s.fill.color (points.length - 1) }
        content := s.content ++ circles s radius (c :: cs) true points }, ?_, ?_⟩
      · rcases points with _ | ⟨p, ps⟩
        · simp [drawComplexPointsAsCircles, h, circles, cycle]
        · simp [drawComplexPointsAsCircles, h, circles, hcyc]
      · simp

/-- C77: without points, one of the two functions raises `IndexError` and draws nothing; the other succeeds. -/
theorem C77_no_points (radius : K) (colors : List C) (fill : Bool) (s : ContourPlotter K C) :
    drawPointsAsCircles [] radius colors fill s = (.error .indexError, s) ∧
    ∃ s', drawComplexPointsAsCircles [] radius colors fill s = (.ok (), s') ∧ s'.content = s.content := by
  refine ⟨rfl, ?_⟩
  obtain ⟨s', h, -, h', -⟩ := C77_circles [] radius colors fill s
  exact ⟨s', h, by simpa [circles] using h'⟩

/-- C77: `drawCurve` draws exactly the curve, unclosed, in the given colour, and changes no attribute. In poly mode this needs
that the command was not used last. -/
theorem C77_curve (str : K → List Char) (read : List Char → Option K) (p : Pt K) (ps : Segment K) (h1 : 1 ≤ ps.length)
    (h3 : ps.length ≤ 3) (hpr : ∀ q ∈ p :: ps, PrintablePt str read q) (color : Option C) (s : ContourPlotter K C)
    (hm : s.poly = false ∨ commandOf (p :: ps) = some 'L' ∨ s.lastCommand ≠ commandOf (p :: ps)) :
    ∃ s' d, drawCurve str (p :: ps) color s = (.ok (), s') ∧
      s'.content = s.content ++ [.path d { s.stroke with color := color.getD s.stroke.color }] ∧
      interpret read d = some (.move p :: if isDot (p :: ps) then [] else [.draw (p :: ps)]) ∧
      s'.attributes = s.attributes := by
  have hd : Drawable str read [p :: ps] := by
    refine ⟨by simp, ⟨by simp, by simp [Spec.Joined]⟩, ?_, ?_⟩
    · intro s hs
      rw [List.mem_singleton] at hs
      subst hs
      simp only [List.length_cons]
      omega
    · intro s hs
      rw [List.mem_singleton] at hs
      subst hs
      exact hpr
  obtain ⟨s', d, e1, e2, e3, -⟩ := C61_drawContours str read [[p :: ps]] (by simpa using hd) color false s (by
    rcases hm with h | h
    · exact .inl h
    · right
      refine ⟨?_, trivial⟩
      intro x hx
      cases hc : commandOf (p :: ps) with
      | none => simp [hc] at hx
      | some y =>
        have : y = x := by simpa [hc] using hx
        subst this
        simpa [hc] using h)
  refine ⟨s', d, e1, e2, ?_, ?_⟩
  · rw [e3]
    cases h : isDot (p :: ps) <;> simp [contourEvents, h]
  · exact C60_draw str (.curve (p :: ps) color) (by simp [PlotOp.Draws]) s s' e1

end

section
variable {K C : Type} [Field K] [LinearOrder K]

/-- C77: `drawArrowBetweenPoints` adds one dashed arrow in the given colour. -/
theorem C77_arrow (a b : Pt K) (color : Option C) (s : ContourPlotter K C) :
    let s' := drawArrowBetweenPoints a b color s
    s'.content = s.content ++ [.arrow a b { s.stroke with color := color.getD s.stroke.color, dash := some "2, 1".toList }] ∧
    s'.fill = s.fill ∧ s'.fillStack = s.fillStack ∧ s'.strokeStack = s.strokeStack ∧ s'.labelFontSize = s.labelFontSize := by
  cases color <;> exact ⟨rfl, rfl, rfl, rfl, rfl⟩

end

private def plotter : ContourPlotter ℚ Nat :=
  { poly := false, lastCommand := none, fill := ⟨9, 1⟩, stroke := ⟨1, 8, 1, none⟩, fillStack := [], strokeStack := []
    labelFontSize := (8, 8), pen := (0, 0), content := [] }

/-- Five circles in two colours. -/
example : (drawPointsAsCircles [(0, 0), (1, 0), (2, 0), (3, 1), (4, 1)] 2 [5, 6] true plotter).2.content =
    [.disc (0, 0) 2 ⟨5, 1⟩, .disc (1, 0) 2 ⟨6, 1⟩, .disc (2, 0) 2 ⟨5, 1⟩, .disc (3, 1) 2 ⟨6, 1⟩, .disc (4, 1) 2 ⟨5, 1⟩] := by
  decide +kernel

example : circles plotter 2 [] false [(0, 0), (1, 0)] = [.circle (0, 0) 2 ⟨1, 8, 1, none⟩, .circle (1, 0) 2 ⟨1, 8, 1, none⟩] := by
  decide +kernel

/-- The hypotheses of `C77_curve` can be met. -/
example : ∃ (str : ℚ → List Char) (read : List Char → Option ℚ), ∀ q ∈ ([(0, 0), (1, 0), (1, 1)] : Segment ℚ), PrintablePt str read q := by
  refine ⟨fun x => if x = 0 then ['0'] else ['1'], fun w => if w = ['0'] then some 0 else some 1, ?_⟩
  intro q hq
  simp at hq
  rcases hq with rfl | rfl | rfl <;>
    norm_num [PrintablePt, Printable, isCommand, isSeparator, show ¬ '1' = '0' by decide] <;> decide

end PathLib
