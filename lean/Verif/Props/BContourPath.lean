import Verif.Lemmas.Svg
import Verif.Spec.Contour
import Verif.Props.BContour

/-!
# Properties of the path data of contours: C56
-/

set_option linter.unusedSectionVars false
set_option linter.unusedSimpArgs false

namespace PathLib

open Bezier Spec BContour Spec.Svg

/-! ## C56 -/

section generic
variable {K : Type} [DecidableEq K]

private theorem dStep_writes (str : K → List Char) : Writes str getCommand (fun n _ => some n) (dStep str) := by
  intro st s h2 h4 hpen
  match s, h2, h4, hpen with
  | [a, p], _, _, hpen =>
    simp only [List.head?_cons, Option.some.injEq] at hpen
    subst hpen
    have hiff : (st.pen.1 = p.1 ∧ st.pen.2 = p.2) ↔ st.pen = p := (Prod.ext_iff).symm
    simp only [commandOf, dStep, argsOf, Path.emit, hiff]
    split_ifs <;> simp
  | [a, p1, p2], _, _, _ => simp [commandOf, dStep, argsOf, Path.emit]
  | [a, p1, p2, p3], _, _, _ => simp [commandOf, dStep, argsOf, Path.emit]

private theorem d_keeps : Keeps getCommand (fun n _ => some n) := by
  intro n last m
  unfold getCommand
  split_ifs with h
  · exact .inr ⟨rfl, by simpa using h⟩
  · exact .inl rfl

variable [Zero K]

private theorem dOf_draws (str : K → List Char) (read : List Char → Option K) (start : Pt K) (segs : List (Segment K))
    (hlen : ∀ s ∈ segs, 2 ≤ s.length ∧ s.length ≤ 4) (hc : Connected segs) (hstart : ∀ s ∈ segs.head?, s.head? = some start)
    (hpr : ∀ s ∈ segs, ∀ p ∈ s, PrintablePt str read p) (hps : PrintablePt str read start) :
    interpret read (dOf str start segs) =
      some (Event.move start :: (segs.filter fun s => !isDot s).map Event.draw) := by
  obtain ⟨_, text, e1, e2, e3⟩ := fold_draws str read (dStep_writes str) d_keeps segs hlen hc.2 hpr
    { commands := ['M' :: pointToString str start], lastCommand := none, pen := start } 'L' hstart (by simp [getCommand])
  obtain ⟨ts, cur', pen', t1, t2⟩ := e3 [] starts_nil
  have hd : dOf str start segs = 'M' :: (pointToString str start ++ text.flatten) := by
    unfold dOf
    rw [e1]
    simp
  rw [List.append_nil] at t1
  rw [hd]
  unfold interpret
  rw [tokens_cmd read (by decide), tokens_point read hps e2, t1, tokens_nil]
  simp only [Option.map_some, Option.bind_some]
  unfold interpretTokens
  simp only
  rw [run.eq_def]
  simp only [show ¬ 'M' = 'Z' by decide, if_false]
  have := t2 start []
  simp only [run, Option.map_some, List.append_nil] at this
  rw [List.append_nil, run_M, this]
  rfl

end generic

/-- C56: read as SVG path data, the `d` string of a connected contour of lines, quadratics and cubics moves to the start of the
contour and then draws its curves, except lines of length zero; provided that the coordinates are printed by Python in a form that
reads back. -/
theorem C56_roundtrip (c : Contour ℝ) (bc : BContour) (h : BContour.new c = .ok bc) (hc : Connected c)
    (hlen : ∀ s ∈ c, s.length ≤ 4) (str : ℝ → List Char) (read : List Char → Option ℝ)
    (hpr : ∀ s ∈ c, ∀ p ∈ s, PrintablePt str read p) :
    interpret read (d str bc) = some (Event.move bc.start :: (c.filter fun s => !isDot s).map Event.draw) := by
  obtain ⟨hne, h2⟩ := (C52_new c).mp ⟨bc, h⟩
  obtain ⟨hpts, _, _, _, hends⟩ := C52_history c bc h []
  simp only [List.foldl_nil] at hpts hends
  unfold d
  rw [show bc.beziers.map (·.controlPoints) = c from hpts]
  have hhead : ∀ s ∈ c.head?, s.head? = some bc.start := by
    intro s hs
    exact (hends s (c.getLast hne) hs (List.getLast?_eq_some_getLast hne)).1
  have hps : PrintablePt str read bc.start := by
    obtain ⟨s, c', rfl⟩ := List.exists_cons_of_ne_nil hne
    have := hhead s rfl
    exact hpr s (by simp) _ (List.mem_of_head? this)
  exact dOf_draws str read bc.start c (fun s hs => ⟨h2 s hs, hlen s hs⟩) hc hhead hpr hps

/-- C56: after any edits as well, if the resulting contour is connected. -/
theorem C56_after_edits (c : Contour ℝ) (bc : BContour) (h : BContour.new c = .ok bc) (es : List Edit)
    (hl : es.foldl Edit.onList c ≠ []) (hc : Connected (es.foldl Edit.onList c))
    (hlen : ∀ s ∈ es.foldl Edit.onList c, 2 ≤ s.length ∧ s.length ≤ 4) (str : ℝ → List Char) (read : List Char → Option ℝ)
    (hpr : ∀ s ∈ es.foldl Edit.onList c, ∀ p ∈ s, PrintablePt str read p) :
    let bc' := es.foldl (fun s e => (edit e s).2) bc
    interpret read (d str bc') =
      some (Event.move bc'.start :: ((es.foldl Edit.onList c).filter fun s => !isDot s).map Event.draw) := by
  intro bc'
  obtain ⟨hpts, _, _, _, hends⟩ := C52_history c bc h es
  unfold d
  rw [show bc'.beziers.map (·.controlPoints) = es.foldl Edit.onList c from hpts]
  have hhead : ∀ s ∈ (es.foldl Edit.onList c).head?, s.head? = some bc'.start := by
    intro s hs
    exact (hends s _ hs (List.getLast?_eq_some_getLast hl)).1
  have hps : PrintablePt str read bc'.start := by
    obtain ⟨s, c', e⟩ := List.exists_cons_of_ne_nil hl
    have hh := hhead s (by rw [e]; rfl)
    exact hpr s (by rw [e]; simp) _ (List.mem_of_head? hh)
  exact dOf_draws str read bc'.start _ hlen hc hhead hpr hps

/-- C56: curves of order four and above are silently left out. -/
theorem C56_high_order_counterexample {K : Type} [DecidableEq K] (str : K → List Char) (start : Pt K) (s : Segment K)
    (hs : 5 ≤ s.length) : dOf str start [s] = 'M' :: pointToString str start := by
  match s, hs with
  | _ :: _ :: _ :: _ :: _ :: _, _ => simp [dOf, dStep]

/-- The path data of a concrete contour with repeated commands. -/
example : String.ofList (dOf (fun x : ℤ => (toString x).toList) (0, 0)
    [[(0, 0), (3, 4)], [(3, 4), (5, 6)], [(5, 6), (5, 6)], [(5, 6), (5, 9)], [(5, 9), (6, 7), (8, 8)]]) =
    "M0,0L3,4 5,6V9Q6,7 8,8" := by decide +kernel

/-- Digits and the minus sign print integers in a form that reads back: the hypotheses of the theorem can be met. -/
example : ∃ (str : ℝ → List Char) (read : List Char → Option ℝ),
    ∀ s ∈ [[((0:ℝ), 0), (3, 4)], [(3, 4), (0, 0)]], ∀ p ∈ s, PrintablePt str read p := by
  classical
  refine ⟨fun x => if x = 0 then ['0'] else if x = 3 then ['3'] else ['4'],
    fun w => if w = ['0'] then some 0 else if w = ['3'] then some 3 else some 4, ?_⟩
  intro s hs p hp
  simp at hs
  rcases hs with rfl | rfl <;> simp at hp <;> rcases hp with rfl | rfl <;>
    norm_num [PrintablePt, Printable, isCommand, isSeparator, show ¬ '3' = '0' by decide, show ¬ '4' = '0' by decide,
      show ¬ '4' = '3' by decide] <;> decide

end PathLib
