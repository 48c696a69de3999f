import Verif.Spec.Svg
import Verif.Spec.Contour
import Verif.Model.BContour

/-!
# Lemmas about the SVG path data interpreter
-/

set_option linter.unusedSectionVars false

namespace PathLib.Spec.Svg

variable {K : Type}

/-- Text in front of which a number ends. -/
def Starts (rest : List Char) : Prop := rest = [] ∨ ∃ c cs, rest = c :: cs ∧ (isCommand c = true ∨ isSeparator c = true)

theorem flush_some (read : List Char → Option K) {w : List Char} {x : K} (hw : w ≠ []) (hx : read w = some x)
    (r : Option (List (Token K))) : flush read w r = r.map (Token.num x :: ·) := by
  unfold flush
  rw [if_neg hw, hx]
  cases r <;> rfl

theorem flush_nil (read : List Char → Option K) (r : Option (List (Token K))) : flush read [] r = r := by simp [flush]

theorem tokens_nil (read : List Char → Option K) : tokens read [] [] = some [] := by simp [tokens, flush]

theorem tokens_cmd (read : List Char → Option K) {c : Char} (hc : isCommand c = true) (cs : List Char) :
    tokens read [] (c :: cs) = (tokens read [] cs).map (Token.cmd c :: ·) := by
  simp [tokens, hc, flush_nil]

theorem tokens_sep (read : List Char → Option K) {c : Char} (hc : isCommand c = false) (hs : isSeparator c = true)
    (cs : List Char) : tokens read [] (c :: cs) = tokens read [] cs := by
  simp [tokens, hc, hs, flush_nil]

theorem tokens_space (read : List Char → Option K) (cs : List Char) : tokens read [] (' ' :: cs) = tokens read [] cs :=
  tokens_sep read (by decide) (by decide) cs

theorem tokens_comma (read : List Char → Option K) (cs : List Char) : tokens read [] (',' :: cs) = tokens read [] cs :=
  tokens_sep read (by decide) (by decide) cs

theorem tokens_word (read : List Char → Option K) (w s rest : List Char)
    (hs : ∀ c ∈ s, isCommand c = false ∧ isSeparator c = false) :
    tokens read w (s ++ rest) = tokens read (w ++ s) rest := by
  induction s generalizing w with
  | nil => simp
  | cons c s ih =>
    obtain ⟨h1, h2⟩ := hs c (by simp)
    rw [List.cons_append, tokens]
    simp only [h1, h2]
    simp only [Bool.false_eq_true, if_false]
    rw [ih _ (fun c hc => hs c (by simp [hc]))]
    simp

theorem tokens_break (read : List Char → Option K) {w : List Char} {x : K} (hw : w ≠ []) (hx : read w = some x)
    {rest : List Char} (hr : Starts rest) : tokens read w rest = (tokens read [] rest).map (Token.num x :: ·) := by
  rcases hr with rfl | ⟨c, cs, rfl, hc⟩
  · rw [tokens, tokens, flush_some read hw hx, flush_nil]
  · rw [tokens, tokens]
    by_cases h1 : isCommand c = true
    · simp only [h1, if_true, flush_some read hw hx, flush_nil]
    · have h2 : isSeparator c = true := by rcases hc with h | h; exacts [absurd h h1, h]
      simp only [h1, h2, if_true, flush_some read hw hx, flush_nil]
      simp

theorem tokens_num (read : List Char → Option K) {str : K → List Char} {x : K} (hx : Printable str read x)
    {rest : List Char} (hr : Starts rest) : tokens read [] (str x ++ rest) = (tokens read [] rest).map (Token.num x :: ·) := by
  obtain ⟨h1, h2, h3⟩ := hx
  rw [tokens_word read [] (str x) rest h3, List.nil_append]
  exact tokens_break read h2 h1 hr

theorem starts_space (cs : List Char) : Starts (' ' :: cs) := .inr ⟨_, _, rfl, .inr (by decide)⟩
theorem starts_comma (cs : List Char) : Starts (',' :: cs) := .inr ⟨_, _, rfl, .inr (by decide)⟩
theorem starts_nil : Starts [] := .inl rfl

theorem starts_append {a b : List Char} (ha : Starts a) (hb : Starts b) : Starts (a ++ b) := by
  rcases ha with rfl | ⟨c, cs, rfl, h⟩
  · exact hb
  · exact .inr ⟨c, cs ++ b, rfl, h⟩

theorem tokens_point (read : List Char → Option K) {str : K → List Char} {p : Pt K} (hp : PrintablePt str read p)
    {rest : List Char} (hr : Starts rest) :
    tokens read [] (BContour.pointToString str p ++ rest) =
      (tokens read [] rest).map (fun ts => Token.num p.1 :: Token.num p.2 :: ts) := by
  unfold BContour.pointToString
  rw [List.append_assoc, List.cons_append, tokens_num read hp.1 (starts_comma _), tokens_comma, tokens_num read hp.2 hr,
    Option.map_map]
  rfl

theorem run_name (name cur : Char) (pen start : Pt K) (hz : name ≠ 'Z') (b : Bool) (hb : b = true → cur = name)
    (x : K) (ts : List (Token K)) :
    run cur pen start ((if b then [] else [Token.cmd name]) ++ .num x :: ts) = run name pen start (.num x :: ts) := by
  cases b with
  | true => simp [hb rfl]
  | false =>
    simp only [Bool.false_eq_true, if_false, List.cons_append, List.nil_append]
    rw [run.eq_def]
    simp [hz]

theorem run_H (pen start : Pt K) (x : K) (ts : List (Token K)) :
    run 'H' pen start (.num x :: ts) = (run 'H' (x, pen.2) start ts).map (.draw [pen, (x, pen.2)] :: ·) := by
  rw [run.eq_def]; simp

theorem run_V (pen start : Pt K) (x : K) (ts : List (Token K)) :
    run 'V' pen start (.num x :: ts) = (run 'V' (pen.1, x) start ts).map (.draw [pen, (pen.1, x)] :: ·) := by
  rw [run.eq_def]; simp

theorem run_L (pen start : Pt K) (x y : K) (ts : List (Token K)) :
    run 'L' pen start (.num x :: .num y :: ts) = (run 'L' (x, y) start ts).map (.draw [pen, (x, y)] :: ·) := by
  rw [run.eq_def]; simp

theorem run_M (pen start : Pt K) (x y : K) (ts : List (Token K)) :
    run 'M' pen start (.num x :: .num y :: ts) = (run 'L' (x, y) (x, y) ts).map (.move (x, y) :: ·) := by
  rw [run.eq_def]; simp

theorem run_Q (pen start : Pt K) (x y x2 y2 : K) (ts : List (Token K)) :
    run 'Q' pen start (.num x :: .num y :: .num x2 :: .num y2 :: ts) =
      (run 'Q' (x2, y2) start ts).map (.draw [pen, (x, y), (x2, y2)] :: ·) := by
  rw [run.eq_def]; simp

theorem run_C (pen start : Pt K) (x y x2 y2 x3 y3 : K) (ts : List (Token K)) :
    run 'C' pen start (.num x :: .num y :: .num x2 :: .num y2 :: .num x3 :: .num y3 :: ts) =
      (run 'C' (x3, y3) start ts).map (.draw [pen, (x, y), (x2, y2), (x3, y3)] :: ·) := by
  rw [run.eq_def]; simp

theorem run_Z (cur : Char) (pen start : Pt K) (ts : List (Token K)) :
    run cur pen start (.cmd 'Z' :: ts) = (run 'Z' start start ts).map (.close :: ·) := by
  rw [run.eq_def]; simp

/-! ## Path data written segment by segment -/

section steps
open BContour (pointToString Path)
variable [DecidableEq K]

/-- The numbers of the command for a segment. -/
def argsOf (str : K → List Char) : Segment K → List Char
  | [a, b] => if a.1 = b.1 then str b.2 else if a.2 = b.2 then str b.1 else pointToString str b
  | [_, b, c] => pointToString str b ++ ' ' :: pointToString str c
  | [_, b, c, d] => pointToString str b ++ ' ' :: pointToString str c ++ ' ' :: pointToString str d
  | _ => []

/-- The loop body `step` writes the command of each segment as `pre` says and changes the last command as `nxt` says. -/
def Writes (str : K → List Char) (pre : Char → Option Char → Char) (nxt : Char → Option Char → Option Char)
    (step : Path K → Segment K → Path K) : Prop :=
  ∀ (st : Path K) (s : Segment K), 2 ≤ s.length → s.length ≤ 4 → s.head? = some st.pen →
    (commandOf s = none → step st s = st) ∧
    ∀ name, commandOf s = some name → step st s =
      { commands := st.commands ++ [pre name st.lastCommand :: argsOf str s]
        lastCommand := nxt name st.lastCommand
        pen := s.getLastD st.pen }

theorem commandOf_none {s : Segment K} (h2 : 2 ≤ s.length) (h4 : s.length ≤ 4) : commandOf s = none ↔ isDot s = true := by
  match s, h2, h4 with
  | [a, b], _, _ =>
    simp only [commandOf, isDot]
    split_ifs <;> simp_all
  | [_, _, _], _, _ => simp [commandOf, isDot]
  | [_, _, _, _], _, _ => simp [commandOf, isDot]

theorem tokens_prefix (read : List Char → Option K) (c name : Char) (hn : isCommand name = true) (hc : c = name ∨ c = ' ')
    (cs : List Char) : tokens read [] (c :: cs) =
      (tokens read [] cs).map ((if decide (c = ' ') then [] else [Token.cmd name]) ++ ·) := by
  by_cases h : c = ' '
  · subst h
    rw [tokens_space]
    simp
  · have : c = name := by tauto
    subst this
    rw [tokens_cmd read hn]
    simp [h]

theorem run_prefix (c name cur : Char) (hz : name ≠ 'Z') (hcur : c = ' ' → cur = name) (pen start : Pt K) (x : K)
    (ts : List (Token K)) :
    run cur pen start ((if decide (c = ' ') then [] else [Token.cmd name]) ++ .num x :: ts) =
      run name pen start (.num x :: ts) :=
  run_name name cur pen start hz _ (fun h => hcur (by simpa using h)) x ts

/-- The command of a segment draws it. -/
theorem chunk_draws (str : K → List Char) (read : List Char → Option K) (s : Segment K) (name : Char)
    (hname : commandOf s = some name) (hpr : ∀ p ∈ s, PrintablePt str read p) (c cur : Char) (hc : c = name ∨ (c = ' ' ∧ cur = name))
    (pen : Pt K) (hpen : s.head? = some pen) (R : List Char) (hR : Starts R) :
    ∃ ts, tokens read [] (c :: (argsOf str s ++ R)) = (tokens read [] R).map (ts ++ ·) ∧
      ∀ start tsR, run cur pen start (ts ++ tsR) = (run name (s.getLastD pen) start tsR).map (.draw s :: ·) := by
  have hc' : c = name ∨ c = ' ' := by tauto
  have wrap : ∀ (hn : isCommand name = true) (_ : name ≠ 'Z') (hsp : name ≠ ' ') (x : K) (ns : List (Token K)),
      tokens read [] (argsOf str s ++ R) = (tokens read [] R).map (.num x :: ns ++ ·) →
      (∀ start tsR, run name pen start (.num x :: ns ++ tsR) = (run name (s.getLastD pen) start tsR).map (.draw s :: ·)) →
      ∃ ts, tokens read [] (c :: (argsOf str s ++ R)) = (tokens read [] R).map (ts ++ ·) ∧
        ∀ start tsR, run cur pen start (ts ++ tsR) = (run name (s.getLastD pen) start tsR).map (.draw s :: ·) := by
    intro hn hz hsp x ns h1 h2
    refine ⟨(if decide (c = ' ') then [] else [Token.cmd name]) ++ .num x :: ns, ?_, ?_⟩
    · rw [tokens_prefix read c name hn hc', h1, Option.map_map]
      congr 1
      funext ts
      simp
    · intro start tsR
      rw [List.append_assoc, List.cons_append, run_prefix c name cur hz, ← List.cons_append, h2]
      intro h
      rcases hc with h' | h'
      · exact absurd (h'.symm.trans h) hsp
      · exact h'.2
  match s, hname, hpen, hpr, wrap with
  | [a, p], hname, hpen, hpr, wrap =>
    simp only [List.head?_cons, Option.some.injEq] at hpen
    subst hpen
    have pp := hpr p (by simp)
    simp only [commandOf] at hname
    split_ifs at hname with h1 h2 h3
    · cases hname
      refine wrap (by decide) (by decide) (by decide) p.2 [] ?_ ?_
      · simp only [argsOf, if_pos h2]
        rw [tokens_num read pp.2 hR]
        rfl
      · intro start tsR
        rw [List.cons_append, run_V, h2]
        rfl
    · cases hname
      refine wrap (by decide) (by decide) (by decide) p.1 [] ?_ ?_
      · simp only [argsOf, if_neg h2, if_pos h3]
        rw [tokens_num read pp.1 hR]
        rfl
      · intro start tsR
        rw [List.cons_append, run_H, h3]
        rfl
    · cases hname
      refine wrap (by decide) (by decide) (by decide) p.1 [.num p.2] ?_ ?_
      · simp only [argsOf, if_neg h2, if_neg h3]
        rw [tokens_point read pp hR]
        rfl
      · intro start tsR
        simp only [List.cons_append, List.nil_append]
        rw [run_L]
        rfl
  | [a, p1, p2], hname, hpen, hpr, wrap =>
    simp only [List.head?_cons, Option.some.injEq] at hpen
    subst hpen
    have q1 := hpr p1 (by simp)
    have q2 := hpr p2 (by simp)
    simp only [commandOf, Option.some.injEq] at hname
    subst hname
    refine wrap (by decide) (by decide) (by decide) p1.1 [.num p1.2, .num p2.1, .num p2.2] ?_ ?_
    · simp only [argsOf, List.append_assoc, List.cons_append]
      rw [tokens_point read q1 (starts_space _), tokens_space, tokens_point read q2 hR, Option.map_map]
      rfl
    · intro start tsR
      simp only [List.cons_append, List.nil_append]
      rw [run_Q]
      rfl
  | [a, p1, p2, p3], hname, hpen, hpr, wrap =>
    simp only [List.head?_cons, Option.some.injEq] at hpen
    subst hpen
    have q1 := hpr p1 (by simp)
    have q2 := hpr p2 (by simp)
    have q3 := hpr p3 (by simp)
    simp only [commandOf, Option.some.injEq] at hname
    subst hname
    refine wrap (by decide) (by decide) (by decide) p1.1 [.num p1.2, .num p2.1, .num p2.2, .num p3.1, .num p3.2] ?_ ?_
    · simp only [argsOf, List.append_assoc, List.cons_append]
      rw [tokens_point read q1 (starts_space _), tokens_space, tokens_point read q2 (starts_space _), tokens_space,
        tokens_point read q3 hR, Option.map_map, Option.map_map]
      rfl
    · intro start tsR
      simp only [List.cons_append, List.nil_append]
      rw [run_C]
      rfl

theorem isCommand_commandOf {s : Segment K} {name : Char} (h : commandOf s = some name) : isCommand name = true := by
  unfold commandOf at h
  split at h
  · split_ifs at h <;> cases h <;> decide
  · cases h; decide
  · cases h; decide
  · cases h

/-- Every command after the first may be abbreviated to a space only if it repeats the one before. -/
def Keeps (pre : Char → Option Char → Char) (nxt : Char → Option Char → Option Char) : Prop :=
  ∀ n last m, pre m (nxt n last) = m ∨ (pre m (nxt n last) = ' ' ∧ n = m)

/-- The segments of a connected contour, written one by one, are drawn. -/
theorem fold_draws (str : K → List Char) (read : List Char → Option K) {pre : Char → Option Char → Char}
    {nxt : Char → Option Char → Option Char} {step : Path K → Segment K → Path K} (hstep : Writes str pre nxt step)
    (hk : Keeps pre nxt) (segs : List (Segment K)) (hlen : ∀ s ∈ segs, 2 ≤ s.length ∧ s.length ≤ 4)
    (hchain : segs.IsChain Joined) (hpr : ∀ s ∈ segs, ∀ p ∈ s, PrintablePt str read p) (st : Path K) (cur : Char)
    (hpen : ∀ s ∈ segs.head?, s.head? = some st.pen)
    (hfirst : ∀ x ∈ (segs.filterMap commandOf).head?, pre x st.lastCommand = x ∨ (pre x st.lastCommand = ' ' ∧ cur = x)) :
    (segs.foldl step st).lastCommand = (segs.filterMap commandOf).foldl (fun l n => nxt n l) st.lastCommand ∧
    ∃ text, (segs.foldl step st).commands = st.commands ++ text ∧ Starts text.flatten ∧
      ∀ R, Starts R → ∃ ts cur' pen', tokens read [] (text.flatten ++ R) = (tokens read [] R).map (ts ++ ·) ∧
        ∀ start tsR, run cur st.pen start (ts ++ tsR) =
          (run cur' pen' start tsR).map (((segs.filter fun s => !isDot s).map Event.draw) ++ ·) := by
  induction segs generalizing st cur with
  | nil => exact ⟨rfl, [], by simp, starts_nil, fun R _ => ⟨[], cur, st.pen, by simp, by simp⟩⟩
  | cons s segs ih =>
    have hs := hlen s (by simp)
    have hhead := hpen s (by simp)
    obtain ⟨w1, w2⟩ := hstep st s hs.1 hs.2 hhead
    have hchain' : segs.IsChain Joined := by
      cases segs with
      | nil => exact .nil
      | cons s' segs => exact (List.isChain_cons_cons.mp hchain).2
    have hnext : ∀ s' ∈ segs.head?, s'.head? = s.getLast? := by
      intro s' hs'
      cases segs with
      | nil => simp at hs'
      | cons s'' segs =>
        simp at hs'
        subst hs'
        obtain ⟨p, h1, h2⟩ := (List.isChain_cons_cons.mp hchain).1
        rw [h1, h2]
    have hlast : s.getLast? = some (s.getLastD st.pen) := by
      have : s ≠ [] := by rintro rfl; simp at hs
      rw [List.getLastD_eq_getLast?, List.getLast?_eq_some_getLast this]
      rfl
    have hlen' : ∀ s ∈ segs, 2 ≤ s.length ∧ s.length ≤ 4 := fun s hs => hlen s (by simp [hs])
    have hpr' : ∀ s ∈ segs, ∀ p ∈ s, PrintablePt str read p := fun s hs => hpr s (by simp [hs])
    rcases hcmd : commandOf s with _ | name
    · have hdot := (commandOf_none hs.1 hs.2).mp hcmd
      have hpen' : ∀ s' ∈ segs.head?, s'.head? = some st.pen := by
        intro s' hs'
        rw [hnext s' hs', ← hhead]
        match s, hdot with
        | [a, b], hdot =>
          simp [isDot] at hdot
          simp [hdot]
      have := ih hlen' hchain' hpr' st cur hpen' (by simpa [hcmd] using hfirst)
      rw [List.foldl_cons, w1 hcmd]
      simpa [hcmd, hdot] using this
    · have hdot : isDot s = false := by
        rcases h : isDot s with _ | _
        · rfl
        · rw [(commandOf_none hs.1 hs.2).mpr h] at hcmd
          cases hcmd
      have hf : pre name st.lastCommand = name ∨ (pre name st.lastCommand = ' ' ∧ cur = name) :=
        hfirst name (by simp [hcmd])
      obtain ⟨i1, text, i2, i3, i4⟩ := ih hlen' hchain' hpr'
        { commands := st.commands ++ [pre name st.lastCommand :: argsOf str s]
          lastCommand := nxt name st.lastCommand
          pen := s.getLastD st.pen } name (fun s' hs' => by rw [hnext s' hs', hlast]) (fun x _ => hk name st.lastCommand x)
      rw [List.foldl_cons, w2 name hcmd]
      refine ⟨by rw [i1]; simp [hcmd], (pre name st.lastCommand :: argsOf str s) :: text, by rw [i2]; simp, ?_, ?_⟩
      · simp only [List.flatten_cons, List.cons_append]
        rcases hf with h | h
        · exact .inr ⟨_, _, rfl, .inl (by rw [h]; exact isCommand_commandOf hcmd)⟩
        · rw [h.1]; exact starts_space _
      · intro R hR
        obtain ⟨ts, cur', pen', t1, t2⟩ := i4 R hR
        obtain ⟨ts0, c1, c2⟩ := chunk_draws str read s name hcmd (hpr s (by simp)) (pre name st.lastCommand) cur hf st.pen hhead
          (text.flatten ++ R) (starts_append i3 hR)
        refine ⟨ts0 ++ ts, cur', pen', ?_, ?_⟩
        · simp only [List.flatten_cons, List.cons_append, List.append_assoc]
          rw [c1, t1, Option.map_map]
          congr 1
        · intro start tsR
          rw [List.append_assoc, c2, t2, Option.map_map]
          simp [hdot, Function.comp_def]

end steps

end PathLib.Spec.Svg
