import Verif.Lemmas.Svg

/-!
# Path data whose first command after `M` is left out

When the command of the first segment after an `M` is left out although it is not `L`, the interpreter of `Spec/Svg.lean` never draws
the segments.
-/

set_option linter.unusedSectionVars false
set_option linter.unusedSimpArgs false

namespace PathLib.Spec.Svg

variable {K : Type} [DecidableEq K]

open BContour (pointToString Path)

/-- What can follow a horizontal (`x` is `H`) or vertical (`x` is `V`) line that ends at a point: tokens, and the events that they should
draw. -/
inductive Follow (x : Char) : Pt K → List (Token K) → List (Event K) → Prop
  | nil (P : Pt K) (evs : List (Event K)) : Follow x P [] evs
  | z (P : Pt K) (us : List (Token K)) (evs : List (Event K)) : Follow x P (.cmd 'Z' :: us) evs
  | m (P : Pt K) (us : List (Token K)) (evs : List (Event K)) : Follow x P (.cmd 'M' :: us) evs
  | l (P b : Pt K) (us : List (Token K)) (evs : List (Event K)) (h : b ≠ P) :
    Follow x P (.cmd 'L' :: .num b.1 :: .num b.2 :: us) evs
  | v (P : Pt K) (y : K) (us : List (Token K)) (evs : List (Event K)) : Follow x P (.cmd 'V' :: .num y :: us) evs
  | h (P : Pt K) (y : K) (us : List (Token K)) (evs : List (Event K)) (h : y ≠ P.1) : Follow x P (.cmd 'H' :: .num y :: us) evs
  | q (P b c : Pt K) (us : List (Token K)) (evs : List (Event K)) :
    Follow x P (.cmd 'Q' :: .num b.1 :: .num b.2 :: .num c.1 :: .num c.2 :: us) evs
  | c (P b c d : Pt K) (us : List (Token K)) (evs : List (Event K)) :
    Follow x P (.cmd 'C' :: .num b.1 :: .num b.2 :: .num c.1 :: .num c.2 :: .num d.1 :: .num d.2 :: us) evs
  | againV (P : Pt K) (y : K) (us : List (Token K)) (evs : List (Event K)) (hx : x = 'V') (h : y ≠ P.2) : Follow x P (.num y :: us) evs
  | againH (P : Pt K) (y : K) (us : List (Token K)) (evs : List (Event K)) (hx : x = 'H') (h : y ≠ P.1) (hf : Follow x (y, P.2) us evs) :
    Follow x P (.num y :: us) (.draw [P, (y, P.2)] :: evs)

/-- Text after the segments of a contour. -/
def Ends (R : List Char) : Prop := R = [] ∨ (∃ cs, R = 'Z' :: cs) ∨ ∃ cs, R = 'M' :: cs

theorem Ends.starts {R : List Char} (h : Ends R) : Starts R := by
  rcases h with rfl | ⟨cs, rfl⟩ | ⟨cs, rfl⟩
  · exact .inl rfl
  · exact .inr ⟨_, _, rfl, .inl (by decide)⟩
  · exact .inr ⟨_, _, rfl, .inl (by decide)⟩

/-- The numbers of the command for a segment, as tokens. -/
def argTokens : Segment K → List (Token K)
  | [a, b] => if a.1 = b.1 then [.num b.2] else if a.2 = b.2 then [.num b.1] else [.num b.1, .num b.2]
  | [_, b, c] => [.num b.1, .num b.2, .num c.1, .num c.2]
  | [_, b, c, d] => [.num b.1, .num b.2, .num c.1, .num c.2, .num d.1, .num d.2]
  | _ => []

theorem tokens_args (str : K → List Char) (read : List Char → Option K) (s : Segment K) (hpr : ∀ p ∈ s, PrintablePt str read p)
    {R : List Char} (hR : Starts R) : tokens read [] (argsOf str s ++ R) = (tokens read [] R).map (argTokens s ++ ·) := by
  match s, hpr with
  | [], _ => simp [argsOf, argTokens]
  | [a], _ => simp [argsOf, argTokens]
  | [a, b], hpr =>
    have pp := hpr b (by simp)
    simp only [argsOf, argTokens]
    split_ifs
    · rw [tokens_num read pp.2 hR]; rfl
    · rw [tokens_num read pp.1 hR]; rfl
    · rw [tokens_point read pp hR]; rfl
  | [a, p1, p2], hpr =>
    simp only [argsOf, argTokens, List.append_assoc, List.cons_append]
    rw [tokens_point read (hpr p1 (by simp)) (starts_space _), tokens_space, tokens_point read (hpr p2 (by simp)) hR, Option.map_map]
    rfl
  | [a, p1, p2, p3], hpr =>
    simp only [argsOf, argTokens, List.append_assoc, List.cons_append]
    rw [tokens_point read (hpr p1 (by simp)) (starts_space _), tokens_space, tokens_point read (hpr p2 (by simp)) (starts_space _),
      tokens_space, tokens_point read (hpr p3 (by simp)) hR, Option.map_map, Option.map_map]
    rfl
  | _ :: _ :: _ :: _ :: _ :: _, _ => simp [argsOf, argTokens]

private theorem fold_follow (str : K → List Char) (read : List Char → Option K) {pre : Char → Option Char → Char}
    {nxt : Char → Option Char → Option Char} {step : Path K → Segment K → Path K} (hstep : Writes str pre nxt step)
    (hk : Keeps pre nxt) (x : Char) (hx : x = 'H' ∨ x = 'V') (segs : List (Segment K))
    (hlen : ∀ s ∈ segs, 2 ≤ s.length ∧ s.length ≤ 4)
    (hchain : segs.IsChain Joined) (hpr : ∀ s ∈ segs, ∀ p ∈ s, PrintablePt str read p) (st : Path K)
    (hpen : ∀ s ∈ segs.head?, s.head? = some st.pen)
    (hfirst : ∀ m, pre m st.lastCommand = m ∨ (pre m st.lastCommand = ' ' ∧ x = m)) :
    ∃ text, (segs.foldl step st).commands = st.commands ++ text ∧ Starts text.flatten ∧
      ∀ R, Ends R → ∀ us evs, tokens read [] (text.flatten ++ R) = some us →
        Follow x st.pen us (((segs.filter fun s => !isDot s).map Event.draw) ++ evs) := by
  induction segs generalizing st with
  | nil =>
    refine ⟨[], by simp, starts_nil, ?_⟩
    intro R hR us evs hus
    rcases hR with rfl | ⟨cs, rfl⟩ | ⟨cs, rfl⟩
    · simp only [List.flatten_nil, List.append_nil, tokens_nil, Option.some.injEq] at hus
      subst hus
      exact .nil _ _
    · simp only [List.flatten_nil, List.nil_append] at hus
      rw [tokens_cmd read (by decide)] at hus
      obtain ⟨us', -, rfl⟩ := Option.map_eq_some_iff.mp hus
      exact .z _ _ _
    · simp only [List.flatten_nil, List.nil_append] at hus
      rw [tokens_cmd read (by decide)] at hus
      obtain ⟨us', -, rfl⟩ := Option.map_eq_some_iff.mp hus
      exact .m _ _ _
  | cons s segs ih =>
    have hs := hlen s (by simp)
    have hhead := hpen s (by simp)
    obtain ⟨w1, w2⟩ := hstep st s hs.1 hs.2 hhead
    have hchain' : segs.IsChain Joined := by
      cases segs with
      | nil => exact .nil
      | cons s' segs => exact (List.isChain_cons_cons.mp hchain).2
    have hnext : ∀ s' ∈ segs.head?, s'.head? = s.getLast? := by
      intro s' hs'
      cases segs with
      | nil => simp at hs'
      | cons s'' segs =>
        simp at hs'
        subst hs'
        obtain ⟨p, h1, h2⟩ := (List.isChain_cons_cons.mp hchain).1
        rw [h1, h2]
    have hlast : s.getLast? = some (s.getLastD st.pen) := by
      have : s ≠ [] := by rintro rfl; simp at hs
      rw [List.getLastD_eq_getLast?, List.getLast?_eq_some_getLast this]
      rfl
    have hlen' : ∀ s ∈ segs, 2 ≤ s.length ∧ s.length ≤ 4 := fun s hs => hlen s (by simp [hs])
    have hpr' : ∀ s ∈ segs, ∀ p ∈ s, PrintablePt str read p := fun s hs => hpr s (by simp [hs])
    rcases hcmd : commandOf s with _ | name
    · have hdot := (commandOf_none hs.1 hs.2).mp hcmd
      have hpen' : ∀ s' ∈ segs.head?, s'.head? = some st.pen := by
        intro s' hs'
        rw [hnext s' hs', ← hhead]
        match s, hdot with
        | [a, b], hdot =>
          simp [isDot] at hdot
          simp [hdot]
      have := ih hlen' hchain' hpr' st hpen' hfirst
      rw [List.foldl_cons, w1 hcmd]
      simpa [hcmd, hdot] using this
    · have hdot : isDot s = false := by
        rcases h : isDot s with _ | _
        · rfl
        · rw [(commandOf_none hs.1 hs.2).mpr h] at hcmd
          cases hcmd
      have hf := hfirst name
      rw [List.foldl_cons, w2 name hcmd]
      obtain ⟨st', hst'⟩ : ∃ st' : Path K, st' = { commands := st.commands ++ [pre name st.lastCommand :: argsOf str s]
                                                   lastCommand := nxt name st.lastCommand
                                                   pen := s.getLastD st.pen } := ⟨_, rfl⟩
      rw [← hst']
      have hpen' : ∀ s' ∈ segs.head?, s'.head? = some st'.pen := fun s' hs' => by rw [hnext s' hs', hlast, hst']
      have hkeep : ∀ m, pre m st'.lastCommand = m ∨ (pre m st'.lastCommand = ' ' ∧ name = m) := by
        rw [hst']; exact hk name st.lastCommand
      obtain ⟨-, text, i2, i3, -⟩ := fold_draws str read hstep hk segs hlen' hchain' hpr' st' name hpen'
        (fun y _ => hkeep y)
      refine ⟨(pre name st.lastCommand :: argsOf str s) :: text, by rw [i2]; simp [hst'], ?_, ?_⟩
      · simp only [List.flatten_cons, List.cons_append]
        rcases hf with h | h
        · exact .inr ⟨_, _, rfl, .inl (by rw [h]; exact isCommand_commandOf hcmd)⟩
        · rw [h.1]; exact starts_space _
      · intro R hR us evs hus
        simp only [List.flatten_cons, List.cons_append, List.append_assoc] at hus
        rw [tokens_prefix read _ name (isCommand_commandOf hcmd) (by tauto),
          tokens_args str read s (hpr s (by simp)) (starts_append i3 hR.starts), Option.map_map] at hus
        obtain ⟨ts, hts, rfl⟩ := Option.map_eq_some_iff.mp hus
        simp only [Function.comp_apply, List.filter_cons, hdot, Bool.not_false, if_true, List.map_cons, List.cons_append]
        match s, hcmd, hhead, hdot, hs with
        | [a, b], hcmd, hhead, hdot, _ =>
          simp only [List.head?_cons, Option.some.injEq] at hhead
          subst hhead
          simp only [isDot, decide_eq_false_iff_not] at hdot
          by_cases hsp : pre name st.lastCommand = ' '
          · have hxn : x = name := by
              rcases hf with h | h
              · have := isCommand_commandOf hcmd
                rw [← h, hsp] at this
                exact absurd this (by decide)
              · exact h.2
            subst hxn
            simp only [hsp, decide_true, if_true, List.nil_append]
            simp only [commandOf] at hcmd
            split_ifs at hcmd with h2 h3
            · cases hcmd
              simp only [argTokens, h2, if_true, List.cons_append, List.nil_append]
              exact .againV _ _ _ _ rfl fun h => hdot (Prod.ext h2 h.symm)
            · cases hcmd
              simp only [argTokens, h2, h3, if_true, if_false, List.cons_append, List.nil_append]
              have hb : b = (b.1, st.pen.2) := Prod.ext rfl h3.symm
              have hb' : [st.pen, b] = [st.pen, (b.1, st.pen.2)] := by rw [← hb]
              rw [hb']
              refine .againH _ _ _ _ rfl (fun h => h2 h.symm) ?_
              obtain ⟨text', j2, -, j4⟩ := ih hlen' hchain' hpr' st' hpen' hkeep
              have htext : text' = text := by
                have := j2.symm.trans i2
                exact List.append_cancel_left this
              subst htext
              have := j4 R hR ts evs hts
              have hpen2 : st'.pen = (b.1, st.pen.2) := by rw [hst']; exact hb
              rw [hpen2] at this
              exact this
            · cases hcmd
              rcases hx with h | h <;> cases h
          · simp only [hsp, decide_false, if_false, Bool.false_eq_true]
            simp only [commandOf] at hcmd
            split_ifs at hcmd with h2 h3
            · cases hcmd
              simp only [argTokens, h2, if_true, List.cons_append, List.nil_append]
              exact .v _ _ _ _
            · cases hcmd
              simp only [argTokens, h2, h3, if_true, if_false, List.cons_append, List.nil_append]
              exact .h _ _ _ _ fun h => h2 h.symm
            · cases hcmd
              simp only [argTokens, h2, h3, if_true, if_false, List.cons_append, List.nil_append]
              exact .l _ _ _ _ fun h => hdot h.symm
        | [a, b, c], hcmd, hhead, hdot, _ =>
          simp only [commandOf, Option.some.injEq] at hcmd
          subst hcmd
          have hsp : ¬ pre 'Q' st.lastCommand = ' ' := by
            rcases hf with h | h
            · rw [h]; decide
            · rcases hx with h' | h' <;> rw [h'] at h <;> simp at h
          simp only [hsp, decide_false, if_false, Bool.false_eq_true, argTokens, List.cons_append, List.nil_append]
          exact .q _ _ _ _ _
        | [a, b, c, d], hcmd, hhead, hdot, _ =>
          simp only [commandOf, Option.some.injEq] at hcmd
          subst hcmd
          have hsp : ¬ pre 'C' st.lastCommand = ' ' := by
            rcases hf with h | h
            · rw [h]; decide
            · rcases hx with h' | h' <;> rw [h'] at h <;> simp at h
          simp only [hsp, decide_false, if_false, Bool.false_eq_true, argTokens, List.cons_append, List.nil_append]
          exact .c _ _ _ _ _ _

/-- Two numbers read as a line. -/
private theorem run_L_some {pen start : Pt K} {x : K} {us : List (Token K)} {e : Event K} {evs : List (Event K)}
    (h : run 'L' pen start (.num x :: us) = some (e :: evs)) :
    ∃ y us', us = .num y :: us' ∧ e = .draw [pen, (x, y)] ∧ run 'L' (x, y) start us' = some evs := by
  rw [run.eq_def] at h
  simp only [show ¬ 'L' = 'H' by decide, show ¬ 'L' = 'V' by decide, if_false, if_true] at h
  split at h
  · rename_i y us'
    obtain ⟨evs', h1, h2⟩ := Option.map_eq_some_iff.mp h
    cases h2
    exact ⟨y, us', rfl, rfl, h1⟩
  · cases h

private theorem mismatch_V {p start : Pt K} {y : K} {us : List (Token K)} {evs rest : List (Event K)}
    (hf : Follow 'V' (p.1, y) us rest) : run 'L' p start (.num y :: us) ≠ some (.draw [p, (p.1, y)] :: evs) := by
  intro h
  obtain ⟨z, us', rfl, he, -⟩ := run_L_some h
  simp only [Event.draw.injEq, List.cons.injEq, Prod.mk.injEq, true_and, and_true] at he
  cases hf with
  | againV _ _ _ _ _ hz => exact hz he.2.symm
  | againH _ _ _ _ hx => cases hx

private theorem mismatch_H {p start : Pt K} {x : K} {us : List (Token K)} {evs : List (Event K)}
    (hf : Follow 'H' (x, p.2) us evs) : run 'L' p start (.num x :: us) ≠ some (.draw [p, (x, p.2)] :: evs) := by
  intro h
  obtain ⟨z, us', rfl, he, hr⟩ := run_L_some h
  simp only [Event.draw.injEq, List.cons.injEq, Prod.mk.injEq, true_and, and_true] at he
  subst he
  cases hf with
  | againV _ _ _ _ hx => cases hx
  | againH _ _ _ evs' _ hz hf' =>
    simp only at hz hf' hr
    cases hf' with
    | nil => simp [run] at hr
    | z _ us =>
      rw [run_Z] at hr
      obtain ⟨_, _, h2⟩ := Option.map_eq_some_iff.mp hr
      cases h2
    | m _ us =>
      rw [run.eq_def] at hr
      simp only [show ¬ 'M' = 'Z' by decide, if_false] at hr
      split at hr
      · rename_i a us'
        rw [run.eq_def] at hr
        simp only [show ¬ 'M' = 'H' by decide, show ¬ 'M' = 'V' by decide, show ¬ 'M' = 'L' by decide, if_false, if_true] at hr
        split at hr
        · obtain ⟨_, _, h2⟩ := Option.map_eq_some_iff.mp hr
          cases h2
        · cases hr
      · cases hr
    | l _ b us _ hb =>
      rw [run.eq_def] at hr
      simp only [show ¬ 'L' = 'Z' by decide, if_false] at hr
      rw [run_L] at hr
      obtain ⟨_, _, h2⟩ := Option.map_eq_some_iff.mp hr
      simp only [List.cons.injEq, Event.draw.injEq, Prod.mk.injEq, true_and, and_true] at h2
      exact hb (Prod.ext h2.1.1 h2.1.2)
    | v _ y us =>
      rw [run.eq_def] at hr
      simp only [show ¬ 'V' = 'Z' by decide, if_false] at hr
      rw [run_V] at hr
      obtain ⟨_, _, h2⟩ := Option.map_eq_some_iff.mp hr
      simp only [List.cons.injEq, Event.draw.injEq, Prod.mk.injEq, true_and, and_true] at h2
      exact hz h2.1.1.symm
    | h _ y us _ hy =>
      rw [run.eq_def] at hr
      simp only [show ¬ 'H' = 'Z' by decide, if_false] at hr
      rw [run_H] at hr
      obtain ⟨_, _, h2⟩ := Option.map_eq_some_iff.mp hr
      simp only [List.cons.injEq, Event.draw.injEq, Prod.mk.injEq, true_and, and_true] at h2
      exact hy h2.1
    | q _ b c us =>
      rw [run.eq_def] at hr
      simp only [show ¬ 'Q' = 'Z' by decide, if_false] at hr
      rw [run_Q] at hr
      obtain ⟨_, _, h2⟩ := Option.map_eq_some_iff.mp hr
      simp at h2
    | c _ b c d us =>
      rw [run.eq_def] at hr
      simp only [show ¬ 'C' = 'Z' by decide, if_false] at hr
      rw [run_C] at hr
      obtain ⟨_, _, h2⟩ := Option.map_eq_some_iff.mp hr
      simp at h2
    | againV _ _ _ _ hx => cases hx
    | againH _ y us evs'' _ hy hf'' =>
      obtain ⟨w, us', rfl, he, -⟩ := run_L_some hr
      simp only [Event.draw.injEq, List.cons.injEq, Prod.mk.injEq, true_and, and_true] at he
      exact hy he.1.symm

/-- If the command of the first segment is left out although it is not `L`, the segments are not drawn. -/
theorem fold_clash (str : K → List Char) (read : List Char → Option K) {pre : Char → Option Char → Char}
    {nxt : Char → Option Char → Option Char} {step : Path K → Segment K → Path K} (hstep : Writes str pre nxt step)
    (hk : Keeps pre nxt) (segs : List (Segment K))
    (hlen : ∀ s ∈ segs, 2 ≤ s.length ∧ s.length ≤ 4)
    (hchain : segs.IsChain Joined) (hpr : ∀ s ∈ segs, ∀ p ∈ s, PrintablePt str read p) (st : Path K)
    (hpen : ∀ s ∈ segs.head?, s.head? = some st.pen) (x : Char) (hx : (segs.filterMap commandOf).head? = some x)
    (hL : x ≠ 'L') (hclash : pre x st.lastCommand = ' ') :
    (segs.foldl step st).lastCommand = (segs.filterMap commandOf).foldl (fun l n => nxt n l) st.lastCommand ∧
    ∃ text, (segs.foldl step st).commands = st.commands ++ text ∧ Starts text.flatten ∧
      ∀ R, Ends R → ∀ us start evs, tokens read [] (text.flatten ++ R) = some us →
        run 'L' st.pen start us ≠ some (((segs.filter fun s => !isDot s).map Event.draw) ++ evs) := by
  induction segs generalizing st with
  | nil => simp at hx
  | cons s segs ih =>
    have hs := hlen s (by simp)
    have hhead := hpen s (by simp)
    obtain ⟨w1, w2⟩ := hstep st s hs.1 hs.2 hhead
    have hchain' : segs.IsChain Joined := by
      cases segs with
      | nil => exact .nil
      | cons s' segs => exact (List.isChain_cons_cons.mp hchain).2
    have hnext : ∀ s' ∈ segs.head?, s'.head? = s.getLast? := by
      intro s' hs'
      cases segs with
      | nil => simp at hs'
      | cons s'' segs =>
        simp at hs'
        subst hs'
        obtain ⟨p, h1, h2⟩ := (List.isChain_cons_cons.mp hchain).1
        rw [h1, h2]
    have hlast : s.getLast? = some (s.getLastD st.pen) := by
      have : s ≠ [] := by rintro rfl; simp at hs
      rw [List.getLastD_eq_getLast?, List.getLast?_eq_some_getLast this]
      rfl
    have hlen' : ∀ s ∈ segs, 2 ≤ s.length ∧ s.length ≤ 4 := fun s hs => hlen s (by simp [hs])
    have hpr' : ∀ s ∈ segs, ∀ p ∈ s, PrintablePt str read p := fun s hs => hpr s (by simp [hs])
    rcases hcmd : commandOf s with _ | name
    · have hdot := (commandOf_none hs.1 hs.2).mp hcmd
      have hpen' : ∀ s' ∈ segs.head?, s'.head? = some st.pen := by
        intro s' hs'
        rw [hnext s' hs', ← hhead]
        match s, hdot with
        | [a, b], hdot =>
          simp [isDot] at hdot
          simp [hdot]
      have := ih hlen' hchain' hpr' st hpen' (by simpa [hcmd] using hx) hclash
      rw [List.foldl_cons, w1 hcmd]
      simpa [hcmd, hdot] using this
    · have hdot : isDot s = false := by
        rcases h : isDot s with _ | _
        · rfl
        · rw [(commandOf_none hs.1 hs.2).mpr h] at hcmd
          cases hcmd
      have hxn : name = x := by simpa [hcmd] using hx
      subst hxn
      rw [List.foldl_cons, w2 name hcmd]
      obtain ⟨st', hst'⟩ : ∃ st' : Path K, st' = { commands := st.commands ++ [pre name st.lastCommand :: argsOf str s]
                                                   lastCommand := nxt name st.lastCommand
                                                   pen := s.getLastD st.pen } := ⟨_, rfl⟩
      rw [← hst']
      have hpen' : ∀ s' ∈ segs.head?, s'.head? = some st'.pen := fun s' hs' => by rw [hnext s' hs', hlast, hst']
      have hkeep : ∀ m, pre m st'.lastCommand = m ∨ (pre m st'.lastCommand = ' ' ∧ name = m) := by
        rw [hst']; exact hk name st.lastCommand
      obtain ⟨i1, text, i2, i3, -⟩ := fold_draws str read hstep hk segs hlen' hchain' hpr' st' name hpen'
        (fun y _ => hkeep y)
      refine ⟨by rw [i1]; simp [hcmd, hst'], (pre name st.lastCommand :: argsOf str s) :: text, by rw [i2]; simp [hst'], ?_, ?_⟩
      · simp only [List.flatten_cons, List.cons_append, hclash]
        exact starts_space _
      · intro R hR us start evs hus
        simp only [List.flatten_cons, List.cons_append, List.append_assoc, hclash] at hus
        rw [tokens_space, tokens_args str read s (hpr s (by simp)) (starts_append i3 hR.starts)] at hus
        obtain ⟨ts, hts, rfl⟩ := Option.map_eq_some_iff.mp hus
        simp only [List.filter_cons, hdot, Bool.not_false, if_true, List.map_cons, List.cons_append]
        have hfollow : name = 'H' ∨ name = 'V' →
            Follow name (s.getLastD st.pen) ts (((segs.filter fun s => !isDot s).map Event.draw) ++ evs) := by
          intro hHV
          obtain ⟨text', j2, -, j4⟩ := fold_follow str read hstep hk name hHV segs hlen' hchain' hpr' st' hpen'
            hkeep
          have htext : text' = text := List.append_cancel_left (j2.symm.trans i2)
          subst htext
          have := j4 R hR ts evs hts
          rw [hst'] at this
          exact this
        match s, hcmd, hhead, hdot, hfollow with
        | [a, b], hcmd, hhead, hdot, hfollow =>
          simp only [List.head?_cons, Option.some.injEq] at hhead
          subst hhead
          simp only [commandOf] at hcmd
          split_ifs at hcmd with h1 h2 h3
          · cases hcmd
            simp only [argTokens, h2, if_true, List.cons_append, List.nil_append]
            have hb : b = (st.pen.1, b.2) := Prod.ext h2.symm rfl
            have hb' : [st.pen, b] = [st.pen, (st.pen.1, b.2)] := by rw [← hb]
            rw [hb']
            apply mismatch_V (rest := ((segs.filter fun s => !isDot s).map Event.draw) ++ evs)
            rw [← hb]
            exact hfollow (.inr rfl)
          · cases hcmd
            simp only [argTokens, h2, h3, if_true, if_false, List.cons_append, List.nil_append]
            have hb : b = (b.1, st.pen.2) := Prod.ext rfl h3.symm
            have hb' : [st.pen, b] = [st.pen, (b.1, st.pen.2)] := by rw [← hb]
            rw [hb']
            apply mismatch_H
            rw [← hb]
            exact hfollow (.inl rfl)
          · cases hcmd
            exact absurd rfl hL
        | [a, b, c], hcmd, hhead, hdot, _ =>
          simp only [argTokens, List.cons_append, List.nil_append]
          intro h
          obtain ⟨_, _, _, he, -⟩ := run_L_some h
          simp at he
        | [a, b, c, d], hcmd, hhead, hdot, _ =>
          simp only [argTokens, List.cons_append, List.nil_append]
          intro h
          obtain ⟨_, _, _, he, -⟩ := run_L_some h
          simp at he

end PathLib.Spec.Svg
