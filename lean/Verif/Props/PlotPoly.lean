import Verif.Props.ContourPlotter
import Verif.Lemmas.SvgClash

set_option linter.unusedSectionVars false
set_option linter.unusedSimpArgs false

/-!
# Exactly when poly mode draws the contours: C61
-/

namespace PathLib

open Bezier Spec Spec.Svg ContourPlotter
open BContour (pointToString Path)

variable {K C : Type} [Field K] [DecidableEq K]

/-- The first contour clashes, or those after it do. -/
private theorem clash_cases (last : Option Char) (c : Contour K) (cs : List (Contour K)) (h : ¬ NoClash last (c :: cs)) :
    (∃ x, (c.filterMap commandOf).head? = some x ∧ x ≠ 'L' ∧ last = some x) ∨
    ((∀ x ∈ (c.filterMap commandOf).head?, x = 'L' ∨ last ≠ some x) ∧ ¬ NoClash (Spec.lastCommand last c) cs) := by
  by_cases h1 : ∀ x ∈ (c.filterMap commandOf).head?, x = 'L' ∨ last ≠ some x
  · exact .inr ⟨h1, fun h2 => h ⟨h1, h2⟩⟩
  · left
    push Not at h1
    obtain ⟨x, hx, hL, hl⟩ := h1
    exact ⟨x, hx, hL, hl⟩

private theorem contoursLoop_clash (str : K → List Char) (read : List Char → Option K) (close : Bool) (cs : List (Contour K))
    (hc : ∀ c ∈ cs, Drawable str read c) (st : Path K) (hm : ¬ NoClash st.lastCommand cs) :
    ∃ st' text, contoursLoop str true close cs st = (.ok (), st') ∧ st'.commands = st.commands ++ text ∧
      Ends text.flatten ∧
      ∀ ts, tokens read [] text.flatten = some ts → (∃ ts', ts = .cmd 'M' :: ts') ∧
        ∀ cur pen start, run cur pen start ts ≠ some (cs.flatMap (contourEvents close)) := by
  induction cs generalizing st with
  | nil => exact absurd trivial hm
  | cons c cs ih =>
    obtain ⟨hne, hcon, hlen, hpr⟩ := hc c (by simp)
    obtain ⟨s, c', rfl⟩ := List.exists_cons_of_ne_nil hne
    have hs := hlen s (by simp)
    obtain ⟨p, s', rfl⟩ : ∃ p s', s = p :: s' := List.exists_cons_of_ne_nil (by rintro rfl; simp at hs)
    have pp : PrintablePt str read p := hpr _ (List.mem_cons_self) p (by simp)
    have hcs : ∀ c ∈ cs, Drawable str read c := fun c hc' => hc c (by simp [hc'])
    unfold contoursLoop
    simp only [pyGet_zero_cons, ok_bind]
    -- what follows the segments of the first contour
    have hend : ∀ text : List (List Char), Ends text.flatten → Ends ((if close then ['Z'] else []) ++ text.flatten) := by
      intro text h
      cases close
      · simpa using h
      · exact .inr (.inl ⟨_, rfl⟩)
    have hflat : ∀ text1 text : List (List Char),
        ((['M' :: pointToString str p] ++ text1 ++ if close then [['Z']] else []) ++ text).flatten =
        'M' :: (pointToString str p ++ (text1.flatten ++ ((if close then ['Z'] else []) ++ text.flatten))) := by
      intro text1 text
      cases close <;> simp
    rcases clash_cases _ _ _ hm with ⟨x, hx, hL, hl⟩ | ⟨hfirst, hrest⟩
    · -- the first contour clashes
      have hpre : contourPre true x st.lastCommand = ' ' := by
        unfold contourPre getCommand
        simp [hL, hl]
      obtain ⟨f1, text1, f2, f3, f4⟩ := fold_clash str read (contourStep_writes str true) (contour_keeps true) ((p :: s') :: c')
        hlen hcon.2 hpr { st with pen := p, commands := st.commands ++ ['M' :: pointToString str p] } (by simp) x hx hL hpre
      generalize List.foldl (contourStep str true) { st with pen := p, commands := st.commands ++ ['M' :: pointToString str p] }
          ((p :: s') :: c') = st1 at f1 f2
      have hcmd2 : (if close then { st1 with commands := st1.commands ++ [['Z']] } else st1 : Path K).commands =
          st.commands ++ (['M' :: pointToString str p] ++ text1 ++ if close then [['Z']] else []) := by
        have : (if close then { st1 with commands := st1.commands ++ [['Z']] } else st1 : Path K).commands =
            st1.commands ++ if close then [['Z']] else [] := by cases close <;> simp
        rw [this, f2]
        simp
      have htail : ∃ st' text, contoursLoop str true close cs
          (if close then { st1 with commands := st1.commands ++ [['Z']] } else st1) = (.ok (), st') ∧
          st'.commands = (if close then { st1 with commands := st1.commands ++ [['Z']] } else st1 : Path K).commands ++ text ∧
          Ends text.flatten := by
        generalize (if close then { st1 with commands := st1.commands ++ [['Z']] } else st1 : Path K) = st2
        clear hcmd2 f1 f2
        by_cases hn : NoClash st2.lastCommand cs
        · obtain ⟨st', text, ts, e1, e2, -, -, -, -, e6, -⟩ := contoursLoop_draws str read true close cs hcs st2 (.inr hn)
          exact ⟨st', text, e1, e2, e6.imp_right .inr⟩
        · obtain ⟨st', text, e1, e2, e3, -⟩ := ih hcs st2 hn
          exact ⟨st', text, e1, e2, e3⟩
      obtain ⟨st', text, e1, e2, e3⟩ := htail
      refine ⟨st', (['M' :: pointToString str p] ++ text1 ++ if close then [['Z']] else []) ++ text, e1, ?_, ?_, ?_⟩
      · rw [e2, hcmd2]; simp
      · rw [hflat]; exact .inr (.inr ⟨_, rfl⟩)
      · intro ts hts
        rw [hflat, tokens_cmd read (by decide), tokens_point read pp (starts_append f3 (hend _ e3).starts), Option.map_map] at hts
        obtain ⟨us, hus, rfl⟩ := Option.map_eq_some_iff.mp hts
        refine ⟨⟨_, rfl⟩, ?_⟩
        intro cur pen start hrun
        simp only [Function.comp_apply] at hrun
        rw [run.eq_def] at hrun
        simp only [show ¬ 'M' = 'Z' by decide, if_false] at hrun
        rw [run_M] at hrun
        obtain ⟨evs, h1, h2⟩ := Option.map_eq_some_iff.mp hrun
        have h3 : evs = (((p :: s') :: c').filter fun s => !isDot s).map Event.draw ++
            ((if close then [.close] else []) ++ cs.flatMap (contourEvents close)) := by
          rw [List.flatMap_cons] at h2
          simp only [contourEvents, List.head?_cons, Option.bind_some, List.cons_append, List.cons.injEq, List.append_assoc] at h2
          exact h2.2
        rw [h3] at h1
        exact f4 _ (hend _ e3) us (p.1, p.2) _ hus h1
    · -- the first contour is drawn, the clash is in the others
      have hfirst' : ∀ x ∈ (((p :: s') :: c').filterMap commandOf).head?,
          contourPre true x st.lastCommand = x ∨ (contourPre true x st.lastCommand = ' ' ∧ 'L' = x) := by
        intro x hx
        left
        unfold contourPre
        split_ifs with hL
        · exact hL.symm
        · unfold getCommand
          have := (hfirst x hx).resolve_left hL
          simp [this]
      obtain ⟨f1, text1, f2, f3, f4⟩ := fold_draws str read (contourStep_writes str true) (contour_keeps true) ((p :: s') :: c')
        hlen hcon.2 hpr { st with pen := p, commands := st.commands ++ ['M' :: pointToString str p] } 'L' (by simp) hfirst'
      rw [nxt_fold] at f1
      have f1' : (List.foldl (contourStep str true) { st with pen := p, commands := st.commands ++ ['M' :: pointToString str p] }
          ((p :: s') :: c')).lastCommand = Spec.lastCommand st.lastCommand ((p :: s') :: c') := f1
      generalize List.foldl (contourStep str true) { st with pen := p, commands := st.commands ++ ['M' :: pointToString str p] }
          ((p :: s') :: c') = st1 at f1' f2
      let st2 : Path K := if close then { st1 with commands := st1.commands ++ [['Z']] } else st1
      have hlast2 : st2.lastCommand = st1.lastCommand := by cases close <;> rfl
      have hcmd2 : st2.commands = st.commands ++ (['M' :: pointToString str p] ++ text1 ++ if close then [['Z']] else []) := by
        have : st2.commands = st1.commands ++ if close then [['Z']] else [] := by cases close <;> simp [st2]
        rw [this, f2]
        simp
      obtain ⟨st', text, e1, e2, e3, e4⟩ := ih hcs st2 (by rw [hlast2, f1']; exact hrest)
      refine ⟨st', (['M' :: pointToString str p] ++ text1 ++ if close then [['Z']] else []) ++ text, e1, ?_, ?_, ?_⟩
      · rw [e2, hcmd2]; simp
      · rw [hflat]; exact .inr (.inr ⟨_, rfl⟩)
      · intro ts hts
        obtain ⟨ts1, cur', pen', t1, t2⟩ := f4 _ (hend _ e3).starts
        rw [hflat, tokens_cmd read (by decide), tokens_point read pp (starts_append f3 (hend _ e3).starts), t1, Option.map_map,
          Option.map_map] at hts
        obtain ⟨tsR, htsR, rfl⟩ := Option.map_eq_some_iff.mp hts
        refine ⟨⟨_, rfl⟩, ?_⟩
        intro cur pen start hrun
        simp only [Function.comp_apply] at hrun
        rw [run.eq_def] at hrun
        simp only [show ¬ 'M' = 'Z' by decide, if_false] at hrun
        rw [run_M] at hrun
        obtain ⟨evs, h1, h2⟩ := Option.map_eq_some_iff.mp hrun
        have h3 : evs = (((p :: s') :: c').filter fun s => !isDot s).map Event.draw ++
            ((if close then [.close] else []) ++ cs.flatMap (contourEvents close)) := by
          rw [List.flatMap_cons] at h2
          simp only [contourEvents, List.head?_cons, Option.bind_some, List.cons_append, List.cons.injEq, List.append_assoc] at h2
          exact h2.2
        have h4 := t2 (p.1, p.2) tsR
        rw [show run 'L' (p.1, p.2) (p.1, p.2) (ts1 ++ tsR) = _ from h4] at h1
        obtain ⟨evs', h5, h6⟩ := Option.map_eq_some_iff.mp h1
        rw [h3] at h6
        have h7 := List.append_cancel_left h6
        rw [h7] at h5
        cases close with
        | false =>
          simp only [Bool.false_eq_true, if_false, List.nil_append] at htsR h5
          exact (e4 tsR htsR).2 _ _ _ h5
        | true =>
          simp only [if_true, List.cons_append, List.nil_append] at htsR h5
          rw [tokens_cmd read (by decide)] at htsR
          obtain ⟨tsR', h8, rfl⟩ := Option.map_eq_some_iff.mp htsR
          rw [run_Z] at h5
          obtain ⟨evs'', h9, h10⟩ := Option.map_eq_some_iff.mp h5
          simp only [List.cons.injEq, true_and] at h10
          rw [h10] at h9
          exact (e4 tsR' h8).2 _ _ _ h9

/-- C61: in poly mode the path that `drawContours` appends draws the contours exactly when no contour starts with the command that was
used last, unless that is `L`; otherwise it draws something else or cannot be read. -/
theorem C61_poly_iff (str : K → List Char) (read : List Char → Option K) (cs : List (Contour K))
    (hc : ∀ c ∈ cs, Drawable str read c) (color : Option C) (close : Bool) (s : ContourPlotter K C) (hpoly : s.poly = true) :
    ∃ s' d, drawContours str cs color false close s = (.ok (), s') ∧
      s'.content = s.content ++ [.path d { s.stroke with color := color.getD s.stroke.color }] ∧
      (interpret read d = some (cs.flatMap (contourEvents close)) ↔ NoClash s.lastCommand cs) := by
  by_cases hn : NoClash s.lastCommand cs
  · obtain ⟨s', d, h1, h2, h3, -⟩ := C61_drawContours str read cs hc color close s (.inr hn)
    exact ⟨s', d, h1, h2, by simp [h3, hn]⟩
  · obtain ⟨st, text, e1, e2, -, e4⟩ := contoursLoop_clash str read close cs hc
      { commands := [], lastCommand := s.lastCommand, pen := (pushColor color s).pen } hn
    rw [← hpoly] at e1
    obtain ⟨s', d1, -, d3, -⟩ := drawContours_ok str cs color close s st e1
    refine ⟨s', _, d1, d3, ?_⟩
    rw [e2, List.nil_append]
    simp only [hn, iff_false]
    unfold interpret
    intro h
    obtain ⟨ts, h1, h2⟩ := Option.bind_eq_some_iff.mp h
    obtain ⟨⟨ts', rfl⟩, h3⟩ := e4 ts h1
    simp only [interpretTokens] at h2
    exact h3 _ _ _ h2

/-- C61: in poly mode the path that `drawPaths` appends for a path draws it exactly when it does not start with the command that was
used last, unless that is `L`. -/
theorem C61_poly_path_iff (str : K → List Char) (read : List Char → Option K) (path : PlotPath K)
    (hp : DrawablePath str read path) (color : Option C) (s : ContourPlotter K C) (hpoly : s.poly = true) :
    ∃ s' d, drawPaths str [path] color false s = (.ok (), s') ∧
      s'.content = s.content ++ [.path d { s.stroke with color := color.getD s.stroke.color }] ∧
      (interpret read d = some (.move path.start :: (path.segments.filter fun s => !isDot s).map Event.draw) ↔
        NoClash s.lastCommand [path.segments]) := by
  by_cases hn : NoClash s.lastCommand [path.segments]
  · obtain ⟨s', items, h1, h2, h3, -⟩ := C61_drawPaths str read [path] (by simpa using hp) color s (.inr hn)
    cases h3 with
    | cons h4 h5 =>
      cases h5
      obtain ⟨d, rfl, h6⟩ := h4
      exact ⟨s', d, h1, h2, by simp [h6, hn]⟩
  · rcases clash_cases _ _ _ hn with ⟨x, hx, hL, hl⟩ | ⟨-, h⟩
    · obtain ⟨h1, h2, h3, h4, h5⟩ := hp
      have hpre : pathPre true x s.lastCommand = ' ' := by
        unfold pathPre getCommand
        simp [hl]
      obtain ⟨-, text, f2, f3, f4⟩ := fold_clash str read (pathStep_writes str true) (path_keeps true) path.segments h1 h2.2 h4
        { commands := ['M' :: pointToString str path.start], lastCommand := s.lastCommand, pen := path.start } h3 x hx hL hpre
      obtain ⟨s', e1, _, e3, e4, _⟩ := popColor_push color s _ (drawPath_attributes str [path] (pushColor color s))
      refine ⟨s', ('M' :: pointToString str path.start) ++ text.flatten, e1, ?_, ?_⟩
      · rw [e3]
        have : ([path].foldl (drawPath str) (pushColor color s)).content = (pushColor color s).content ++
            [.path (path.segments.foldl (pathStep str (pushColor color s).poly)
              { commands := ['M' :: pointToString str path.start],
                lastCommand := (pushColor color s).lastCommand, pen := path.start }).commands.flatten (pushColor color s).stroke] := rfl
        rw [this, pushColor_content, pushColor_poly, pushColor_last, pushColor_stroke, hpoly, f2]
        simp
      · simp only [hn, iff_false]
        unfold interpret
        intro h
        obtain ⟨ts, g1, g2⟩ := Option.bind_eq_some_iff.mp h
        rw [List.cons_append, tokens_cmd read (by decide), tokens_point read h5 f3, Option.map_map] at g1
        obtain ⟨us, hus, rfl⟩ := Option.map_eq_some_iff.mp g1
        simp only [Function.comp_apply, interpretTokens] at g2
        rw [run.eq_def] at g2
        simp only [show ¬ 'M' = 'Z' by decide, if_false] at g2
        rw [run_M] at g2
        obtain ⟨evs, h6, h7⟩ := Option.map_eq_some_iff.mp g2
        simp only [List.cons.injEq] at h7
        rw [h7.2] at h6
        exact f4 [] (.inl rfl) us path.start [] (by simpa using hus) (by simpa using h6)
    · exact absurd trivial h

/-- Contours that clash: a horizontal line after a contour that ends with one. -/
example : ¬ NoClash (some 'Z') ([[[(0, 0), (3, 0)]], [[(0, 3), (3, 3)]]] : List (Contour ℚ)) := by
  simp [NoClash, commandOf, Spec.lastCommand]

end PathLib
