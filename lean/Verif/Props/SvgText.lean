import Verif.Model.SvgText
import Verif.Spec.Xml
import Verif.Props.ContourPlotter

/-!
# The SVG text of the paths that a plotter draws: C105
-/

set_option linter.unusedSectionVars false

namespace PathLib

open Bezier Spec Spec.Svg ContourPlotter
open BContour (pointToString Path)

namespace Xml

open Spec.Xml (isName State Element Plain IsName)

theorem run_tag (n : List Char) (e : Element) (m cs : List Char) (hm : ∀ c ∈ m, isName c = true) :
    Spec.Xml.run (.tag n) e (m ++ cs) = Spec.Xml.run (.tag (n ++ m)) e cs := by
  induction m generalizing n with
  | nil => simp
  | cons c m ih =>
    rw [List.cons_append, Spec.Xml.run, if_pos (hm c (by simp)), ih _ (fun c hc => hm c (by simp [hc]))]
    simp

theorem run_attribute (n : List Char) (e : Element) (m cs : List Char) (hm : ∀ c ∈ m, isName c = true) :
    Spec.Xml.run (.attribute n) e (m ++ cs) = Spec.Xml.run (.attribute (n ++ m)) e cs := by
  induction m generalizing n with
  | nil => simp
  | cons c m ih =>
    rw [List.cons_append, Spec.Xml.run, if_pos (hm c (by simp)), ih _ (fun c hc => hm c (by simp [hc]))]
    simp

theorem run_value (n t : List Char) (e : Element) (m cs : List Char) (hm : Plain m) :
    Spec.Xml.run (.value n '\'' t) e (m ++ cs) = Spec.Xml.run (.value n '\'' (t ++ m)) e cs := by
  induction m generalizing t with
  | nil => simp
  | cons c m ih =>
    obtain ⟨h1, h2, h3⟩ := hm c (by simp)
    rw [List.cons_append, Spec.Xml.run, if_neg h1, if_neg (by simp [h2, h3]), ih _ (fun c hc => hm c (by simp [hc]))]
    simp

/-- An attribute as it is written. -/
def write (a : List Char × List Char) : List Char := a.1 ++ '=' :: '\'' :: a.2 ++ ['\'']

/-- Attributes, separated by a space. -/
def writeAll : List (List Char × List Char) → List Char
  | [] => []
  | [a] => write a
  | a :: b :: l => write a ++ ' ' :: writeAll (b :: l)

theorem run_write (a : List Char × List Char) (e : Element) (cs : List Char) (hn : IsName a.1) (hv : Plain a.2) :
    Spec.Xml.run (.between true) e (write a ++ cs) = Spec.Xml.run (.between false) (e.1, e.2 ++ [a]) cs := by
  obtain ⟨n, v⟩ := a
  obtain ⟨h1, h2⟩ := hn
  obtain ⟨c, n, rfl⟩ := List.exists_cons_of_ne_nil h1
  have hc : isName c = true := h2 c (by simp)
  have c1 : c ≠ ' ' := by rintro rfl; revert hc; decide
  have c2 : c ≠ '/' := by rintro rfl; revert hc; decide
  unfold write
  simp only [List.cons_append, List.append_assoc]
  rw [Spec.Xml.run, if_neg c1, if_neg c2, if_pos (by simp [hc]), run_attribute _ _ _ _ (fun c hc => h2 c (by simp [hc]))]
  rw [Spec.Xml.run, if_neg (by decide), if_pos rfl, Spec.Xml.run, if_pos (by decide), run_value _ _ _ _ _ hv]
  simp [Spec.Xml.run]

theorem run_writeAll (l : List (List Char × List Char)) (e : Element) (hn : ∀ a ∈ l, IsName a.1) (hv : ∀ a ∈ l, Plain a.2) :
    Spec.Xml.run (.between true) e (writeAll l ++ ['/', '>']) = some (e.1, e.2 ++ l) := by
  induction l generalizing e with
  | nil => simp [writeAll, Spec.Xml.run]
  | cons a l ih =>
    cases l with
    | nil =>
      rw [writeAll, run_write _ _ _ (hn a (by simp)) (hv a (by simp))]
      simp [Spec.Xml.run]
    | cons b l =>
      rw [writeAll, List.append_assoc, run_write _ _ _ (hn a (by simp)) (hv a (by simp)), List.cons_append, Spec.Xml.run, if_pos rfl,
        ih _ (fun a ha => hn a (List.mem_cons_of_mem _ ha)) (fun a ha => hv a (List.mem_cons_of_mem _ ha))]
      simp

end Xml

open Xml

variable {K C : Type} [Field K] [DecidableEq K]

/-- What is known of the base class: `_strokeAttributes()` writes a list of attributes with different names, in single quotes,
and neither `d` nor `fill`. -/
structure Spec.StrokeText (attributes : StrokeAttributes K C → List (List Char × List Char)) (text : StrokeAttributes K C → List Char) :
    Prop where
  text_eq : ∀ s, text s = writeAll (attributes s)
  name : ∀ s, ∀ a ∈ attributes s, Xml.IsName a.1
  value : ∀ s, ∀ a ∈ attributes s, Xml.Plain a.2
  nodup : ∀ s, ("d".toList :: "fill".toList :: (attributes s).map (·.1)).Nodup

private theorem t1 : "<path d='".toList = ['<', 'p', 'a', 't', 'h', ' ', 'd', '=', '\''] := by decide +kernel
private theorem t2 : "' fill='none' ".toList = ['\'', ' ', 'f', 'i', 'l', 'l', '=', '\'', 'n', 'o', 'n', 'e', '\'', ' '] := by decide +kernel
private theorem t3 : "fill='none' ".toList = ['f', 'i', 'l', 'l', '=', '\'', 'n', 'o', 'n', 'e', '\'', ' '] := by decide +kernel
private theorem t4 : "' ".toList = ['\'', ' '] := by decide +kernel
private theorem t5 : "/>".toList = ['/', '>'] := by decide +kernel
private theorem t6 : "path".toList = ['p', 'a', 't', 'h'] := by decide +kernel
private theorem t7 : "d".toList = ['d'] := by decide +kernel
private theorem t8 : "fill".toList = ['f', 'i', 'l', 'l'] := by decide +kernel
private theorem t9 : "none".toList = ['n', 'o', 'n', 'e'] := by decide +kernel

/-- C105: the three methods that write path elements use the same text for the same path data and attributes. -/
theorem C105_same (text : StrokeAttributes K C → List Char) (d : List Char) (s : StrokeAttributes K C) :
    pathsText text d s = contoursText text d s ∧ pointsText text d s = contoursText text d s := by
  unfold pathsText contoursText pointsText
  rw [t1, t2, t3, t4, t5]
  simp only [List.append_assoc, List.cons_append, List.nil_append, and_self]

/-- C105: a path element is an empty-element tag `path` with the attributes `d`, `fill` and those of the stroke. -/
theorem C105_read (attributes : StrokeAttributes K C → List (List Char × List Char)) (text : StrokeAttributes K C → List Char)
    (ht : StrokeText attributes text) (d : List Char) (hd : Xml.Plain d) (s : StrokeAttributes K C) :
    Xml.read (contoursText text d s) =
      some ("path".toList, ("d".toList, d) :: ("fill".toList, "none".toList) :: attributes s) := by
  have e : contoursText text d s = '<' :: ("path".toList ++ ' ' :: (write ("d".toList, d) ++ ' ' ::
      (write ("fill".toList, "none".toList) ++ ' ' :: (writeAll (attributes s) ++ ['/', '>'])))) := by
    unfold contoursText write
    rw [ht.text_eq, t1, t2, t5, t6, t7, t8, t9]
    simp only [List.append_assoc, List.cons_append, List.nil_append]
  have n1 : Xml.IsName "path".toList := by rw [t6]; exact ⟨by decide, by decide⟩
  have n2 : Xml.IsName "d".toList := by rw [t7]; exact ⟨by decide, by decide⟩
  have n3 : Xml.IsName "fill".toList := by rw [t8]; exact ⟨by decide, by decide⟩
  have v3 : Xml.Plain "none".toList := by rw [t9]; unfold Xml.Plain; decide
  rw [e]
  unfold Xml.read
  simp only
  rw [run_tag _ _ _ _ n1.2, Xml.run, if_neg (by decide), if_neg (by decide), if_pos rfl, run_write _ _ _ n2 hd, Xml.run, if_pos rfl,
    run_write _ _ _ n3 v3, Xml.run, if_pos rfl, run_writeAll _ _ (ht.name s) (ht.value s), Option.filter_some]
  have := ht.nodup s
  simp only [List.nil_append, List.cons_append, List.map_cons]
  rw [if_pos (decide_eq_true this)]

/-! ## The path data is plain text -/

private theorem plain_append {a b : List Char} (ha : Xml.Plain a) (hb : Xml.Plain b) : Xml.Plain (a ++ b) := by
  intro c hc
  rcases List.mem_append.mp hc with h | h
  · exact ha c h
  · exact hb c h

private theorem plain_cons {c : Char} {b : List Char} (hc : c ≠ '\'' ∧ c ≠ '<' ∧ c ≠ '&') (hb : Xml.Plain b) : Xml.Plain (c :: b) := by
  intro x hx
  rcases List.mem_cons.mp hx with rfl | h
  · exact hc
  · exact hb x h

private theorem plain_point (str : K → List Char) (hs : ∀ x, Xml.Plain (str x)) (p : Pt K) : Xml.Plain (pointToString str p) := by
  unfold BContour.pointToString
  exact plain_append (hs _) (plain_cons (by decide) (hs _))

private def PlainPath (st : Path K) : Prop := ∀ t ∈ st.commands, Xml.Plain t

private theorem plainPath_add {st : Path K} (h : PlainPath st) {t : List Char} (ht : Xml.Plain t) (l : Option Char) (p : Pt K) :
    PlainPath { commands := st.commands ++ [t], lastCommand := l, pen := p } := by
  intro x hx
  rcases List.mem_append.mp hx with h' | h'
  · exact h x h'
  · rw [List.mem_singleton.mp h']; exact ht

private theorem getCommand_plain (poly : Bool) (c : Char) (hc : c ≠ '\'' ∧ c ≠ '<' ∧ c ≠ '&') (l : Option Char) :
    (getCommand poly c l).1 ≠ '\'' ∧ (getCommand poly c l).1 ≠ '<' ∧ (getCommand poly c l).1 ≠ '&' := by
  unfold getCommand
  split_ifs
  · exact hc
  · exact (by decide : ' ' ≠ '\'' ∧ ' ' ≠ '<' ∧ ' ' ≠ '&')
  · exact hc

private theorem emit_plain {st : Path K} (h : PlainPath st) (poly : Bool) (c : Char) (hc : c ≠ '\'' ∧ c ≠ '<' ∧ c ≠ '&')
    {t : List Char} (ht : Xml.Plain t) (p : Pt K) : PlainPath (emit poly st c t p) :=
  plainPath_add h (plain_cons (getCommand_plain poly c hc _) ht) _ _

private theorem emitL_plain {st : Path K} (h : PlainPath st) (poly : Bool) {t : List Char} (ht : Xml.Plain t) (p : Pt K) :
    PlainPath (emitL poly st t p) :=
  plainPath_add h (plain_cons (by decide) ht) _ _

private theorem step_plain (str : K → List Char) (hs : ∀ x, Xml.Plain (str x)) (poly : Bool) (st : Path K) (h : PlainPath st)
    (s : Segment K) : PlainPath (contourStep str poly st s) ∧ PlainPath (pathStep str poly st s) := by
  have pp := plain_point str hs
  rcases s with _ | ⟨a, _ | ⟨b, _ | ⟨c, _ | ⟨d, _ | ⟨e, l⟩⟩⟩⟩⟩
  · exact ⟨h, h⟩
  · exact ⟨h, h⟩
  · simp only [contourStep, pathStep]
    split_ifs
    · exact ⟨h, h⟩
    · exact ⟨emit_plain h _ _ (by decide) (hs _) _, emit_plain h _ _ (by decide) (hs _) _⟩
    · exact ⟨emit_plain h _ _ (by decide) (hs _) _, emit_plain h _ _ (by decide) (hs _) _⟩
    · exact ⟨emitL_plain h _ (pp _) _, emit_plain h _ _ (by decide) (pp _) _⟩
  · have : Xml.Plain (pointToString str b ++ ' ' :: pointToString str c) := plain_append (pp _) (plain_cons (by decide) (pp _))
    exact ⟨emit_plain h _ _ (by decide) this _, emit_plain h _ _ (by decide) this _⟩
  · have : Xml.Plain (pointToString str b ++ ' ' :: pointToString str c ++ ' ' :: pointToString str d) :=
      plain_append (plain_append (pp _) (plain_cons (by decide) (pp _))) (plain_cons (by decide) (pp _))
    exact ⟨emit_plain h _ _ (by decide) this _, emit_plain h _ _ (by decide) this _⟩
  · exact ⟨h, h⟩

private theorem loop_plain (str : K → List Char) (hs : ∀ x, Xml.Plain (str x)) (poly close : Bool) (cs : List (Contour K))
    (st : Path K) (h : PlainPath st) : PlainPath (contoursLoop str poly close cs st).2 := by
  induction cs generalizing st with
  | nil => exact h
  | cons c cs ih =>
    unfold contoursLoop
    split
    · exact h
    · rename_i p _
      apply ih
      have h1 : PlainPath (c.foldl (contourStep str poly)
          { st with pen := p, commands := st.commands ++ ['M' :: pointToString str p] }) := by
        refine List.foldlRecOn (motive := PlainPath) c _ ?_ (fun b hb a _ => (step_plain str hs poly b hb a).1)
        exact plainPath_add h (plain_cons (by decide) (plain_point str hs p)) _ _
      split_ifs
      · exact plainPath_add h1 (by unfold Xml.Plain; decide) _ _
      · exact h1

private theorem flatten_plain {l : List (List Char)} (h : ∀ t ∈ l, Xml.Plain t) : Xml.Plain l.flatten := by
  intro c hc
  obtain ⟨t, ht, hct⟩ := List.mem_flatten.mp hc
  exact h t ht c hct

/-- `s'` has the elements of `s` and further ones, whose path data is plain text. -/
private def Adds (s s' : ContourPlotter K C) : Prop :=
  ∃ items, s'.content = s.content ++ items ∧ ∀ d st, Item.path d st ∈ items → Xml.Plain d

private theorem adds_of_eq {s s' : ContourPlotter K C} (h : s'.content = s.content) : Adds s s' := ⟨[], by simp [h], by simp⟩

private theorem adds_trans {a b c : ContourPlotter K C} (h : Adds a b) (h' : Adds b c) : Adds a c := by
  obtain ⟨l, e, p⟩ := h
  obtain ⟨m, e', p'⟩ := h'
  refine ⟨l ++ m, by rw [e', e, List.append_assoc], ?_⟩
  intro d st hd
  rcases List.mem_append.mp hd with h | h
  · exact p d st h
  · exact p' d st h

private theorem adds_one {s s' : ContourPlotter K C} (item : Item K C) (h : s'.content = s.content ++ [item])
    (hp : ∀ d st, item = Item.path d st → Xml.Plain d) : Adds s s' :=
  ⟨[item], h, fun d st hd => hp d st (List.mem_singleton.mp hd).symm⟩

private theorem popStroke_content (s : ContourPlotter K C) : (popStrokeAtributes s).2.content = s.content := by
  unfold popStrokeAtributes; split <;> rfl

private theorem popFill_content (s : ContourPlotter K C) : (popFillAttributes s).2.content = s.content := by
  unfold popFillAttributes; split <;> rfl

private theorem popColor_content (color : Option C) (s : ContourPlotter K C) : (popColor color s).2.content = s.content := by
  unfold popColor; split
  · exact popStroke_content s
  · rfl

private theorem contours_adds (str : K → List Char) (hs : ∀ x, Xml.Plain (str x)) (cs : List (Contour K)) (color : Option C)
    (close : Bool) (s : ContourPlotter K C) : Adds s (drawContours str cs color false close s).2 := by
  unfold drawContours
  simp only [Bool.false_eq_true, if_false]
  have hl := loop_plain str hs (pushColor color s).poly close cs
    { commands := [], lastCommand := (pushColor color s).lastCommand, pen := (pushColor color s).pen } (by intro t ht; simp at ht)
  split
  · exact adds_of_eq (pushColor_content color s)
  · rename_i st e
    rw [e] at hl
    split
    · rename_i s' e'
      have := congrArg (fun x => x.2.content) e'
      simp only [popColor_content] at this
      exact adds_of_eq (this.symm.trans (pushColor_content color s))
    · rename_i s' e'
      have := congrArg (fun x => x.2.content) e'
      simp only [popColor_content] at this
      refine adds_one _ (by rw [← this, pushColor_content]) ?_
      intro d st' h
      injection h with h _
      rw [← h]
      exact flatten_plain hl

private theorem paths_adds (str : K → List Char) (hs : ∀ x, Xml.Plain (str x)) (ps : List (PlotPath K)) (color : Option C)
    (s : ContourPlotter K C) : Adds s (drawPaths str ps color false s).2 := by
  unfold drawPaths
  simp only [Bool.false_eq_true, if_false]
  have h1 : Adds s (ps.foldl (drawPath str) (pushColor color s)) := by
    refine List.foldlRecOn (motive := Adds s) ps _ (adds_of_eq (pushColor_content color s)) ?_
    intro b hb p _
    refine adds_trans hb (adds_one _ rfl ?_)
    intro d st h
    injection h with h _
    rw [← h]
    refine flatten_plain (List.foldlRecOn (motive := PlainPath) p.segments _ ?_ (fun b hb a _ => (step_plain str hs _ b hb a).2))
    intro t ht
    rw [List.mem_singleton.mp ht]
    exact plain_cons (by decide) (plain_point str hs _)
  exact adds_trans h1 (adds_of_eq (popColor_content _ _))

private theorem points_adds (str : K → List Char) (hs : ∀ x, Xml.Plain (str x)) (ps : List (Pt K)) (color : Option C)
    (s : ContourPlotter K C) : Adds s (drawPointsAsSegments str ps color s).2 := by
  unfold drawPointsAsSegments
  rcases ps with _ | ⟨p, ps⟩
  · exact adds_of_eq (pushColor_content color s)
  · simp only
    have hc : ∀ (l : List (Pt K)) (st : Char × List (List Char) × Pt K), (st.1 = 'L' ∨ st.1 = ' ') → (∀ t ∈ st.2.1, Xml.Plain t) →
        ∀ t ∈ (l.foldl (pointStep str) st).2.1, Xml.Plain t := by
      intro l
      induction l with
      | nil => intro st _ h; exact h
      | cons q l ih =>
        intro st h1 h2
        rw [List.foldl_cons]
        unfold pointStep
        split_ifs
        · exact ih st h1 h2
        · refine ih _ (.inr rfl) ?_
          intro t ht
          rcases List.mem_append.mp ht with h | h
          · exact h2 t h
          · rw [List.mem_singleton.mp h]
            refine plain_cons ?_ (plain_point str hs q)
            rcases h1 with h | h <;> rw [h] <;> decide
    refine adds_trans (adds_one (s' := { pushColor color s with
      pen := (ps.foldl (pointStep str) ('L', ['M' :: pointToString str p], p)).2.2
      content := (pushColor color s).content ++
        [.path (ps.foldl (pointStep str) ('L', ['M' :: pointToString str p], p)).2.1.flatten (pushColor color s).stroke] }) _
      (by simp only [pushColor_content]; rfl) ?_) (adds_of_eq (popColor_content _ _))
    intro d st h
    injection h with h _
    rw [← h]
    refine flatten_plain (hc ps _ (.inl rfl) ?_)
    intro t ht
    rw [List.mem_singleton.mp ht]
    exact plain_cons (by decide) (plain_point str hs _)

private theorem circlesLoop_adds (radius : K) (colors : List C) (fill : Bool) (i : Nat) (ps : List (Pt K)) (s : ContourPlotter K C) :
    Adds s (circlesLoop radius colors fill i ps s) := by
  induction ps generalizing i s with
  | nil => exact adds_of_eq rfl
  | cons p ps ih =>
    unfold circlesLoop
    refine adds_trans ?_ (ih (i + 1) _)
    have key : ∀ o : Option C, Adds s (
        let s' := match o with
          | some c => if fill then { s with fill := { s.fill with color := c } } else { s with stroke := { s.stroke with color := c } }
          | none => s
        { s' with content := s'.content ++ [if fill then Item.disc p radius s'.fill else Item.circle p radius s'.stroke] } :
          ContourPlotter K C) := by
      intro o
      rcases o with _ | c <;> cases fill <;> exact adds_one _ rfl (by intro d st h; simp at h)
    exact key _

private theorem circles_adds (ps : List (Pt K)) (radius : K) (colors : List C) (fill : Bool) (s : ContourPlotter K C) :
    Adds s (drawPointsAsCircles ps radius colors fill s).2 := by
  unfold drawPointsAsCircles
  rcases ps with _ | ⟨p, ps⟩
  · exact adds_of_eq rfl
  · simp only
    have h1 : ∀ s0 : ContourPlotter K C, s0.content = s.content → Adds s (if colors ≠ [] ∧ fill = false then
        popStrokeAtributes (circlesLoop radius colors fill 0 (p :: ps) s0)
        else (.ok (), circlesLoop radius colors fill 0 (p :: ps) s0)).2 := by
      intro s0 e
      have h := adds_trans (adds_of_eq e) (circlesLoop_adds radius colors fill 0 (p :: ps) s0)
      split_ifs
      · exact adds_trans h (adds_of_eq (popStroke_content _))
      · exact h
    apply h1
    rcases colors with _ | ⟨c, l⟩
    · rfl
    · cases fill <;> rfl

private theorem exec_adds (str : K → List Char) (hs : ∀ x, Xml.Plain (str x)) (op : PlotOp K C) (s : ContourPlotter K C) :
    Adds s (exec str op s).2 := by
  cases op with
  | pushFill => exact adds_of_eq rfl
  | popFill => exact adds_of_eq (popFill_content s)
  | pushStroke => exact adds_of_eq rfl
  | popStroke => exact adds_of_eq (popStroke_content s)
  | contours cs color close => exact contours_adds str hs cs color close s
  | paths ps color => exact paths_adds str hs ps color s
  | points ps color => exact points_adds str hs ps color s
  | curve seg color => exact contours_adds str hs [[seg]] color false s
  | circles ps r colors => exact circles_adds ps r colors false s
  | text x y a t m => exact adds_one _ rfl (by intro d st h; simp at h)

private theorem execs_adds (str : K → List Char) (hs : ∀ x, Xml.Plain (str x)) (ops : List (PlotOp K C)) (s : ContourPlotter K C) :
    Adds s (execs str ops s).2 := by
  induction ops generalizing s with
  | nil => exact adds_of_eq rfl
  | cons op ops ih =>
    have h := exec_adds str hs op s
    unfold execs
    split
    · rename_i e; rw [e] at h; exact h
    · rename_i e; rw [e] at h; exact adds_trans h (ih _)

/-- C105: whatever is drawn in whatever order, also when a call raises, elements are only added and every path element that is added
is an empty-element tag `path` with the attributes `d`, `fill` and those of its stroke. -/
theorem C105_execs (str : K → List Char) (hs : ∀ x, Xml.Plain (str x))
    (attributes : StrokeAttributes K C → List (List Char × List Char)) (text : StrokeAttributes K C → List Char)
    (ht : StrokeText attributes text) (ops : List (PlotOp K C)) (s : ContourPlotter K C) :
    ∃ items, (execs str ops s).2.content = s.content ++ items ∧ ∀ d st, Item.path d st ∈ items →
      Xml.read (contoursText text d st) = some ("path".toList, ("d".toList, d) :: ("fill".toList, "none".toList) :: attributes st) := by
  obtain ⟨items, e, h⟩ := execs_adds str hs ops s
  exact ⟨items, e, fun d st hd => C105_read attributes text ht d (h d st hd) st⟩

/-- C105: an XML reader followed by a reader of path data finds in the text written by `drawContours` the contours, unfilled and with
the stroke of the plotter. -/
theorem C105_drawContours (str : K → List Char) (hs : ∀ x, Xml.Plain (str x)) (read : List Char → Option K)
    (attributes : StrokeAttributes K C → List (List Char × List Char)) (text : StrokeAttributes K C → List Char)
    (ht : StrokeText attributes text) (cs : List (Contour K)) (hc : ∀ c ∈ cs, Drawable str read c) (color : Option C) (close : Bool)
    (s : ContourPlotter K C) (hm : s.poly = false ∨ NoClash s.lastCommand cs) :
    ∃ s' d, drawContours str cs color false close s = (.ok (), s') ∧
      s'.content = s.content ++ [.path d { s.stroke with color := color.getD s.stroke.color }] ∧
      Xml.read (contoursText text d { s.stroke with color := color.getD s.stroke.color }) =
        some ("path".toList, ("d".toList, d) :: ("fill".toList, "none".toList) ::
          attributes { s.stroke with color := color.getD s.stroke.color }) ∧
      interpret read d = some (cs.flatMap (contourEvents close)) := by
  obtain ⟨s', d, e1, e2, e3, -⟩ := C61_drawContours str read cs hc color close s hm
  refine ⟨s', d, e1, e2, C105_read attributes text ht d ?_ _, e3⟩
  obtain ⟨items, h1, h2⟩ := contours_adds str hs cs color close s
  rw [e1] at h1
  rw [e2] at h1
  rw [← List.append_cancel_left h1] at h2
  exact h2 _ _ (List.mem_singleton.mpr rfl)

/-- Numbers for the example; only the numerator is printed. -/
private def strz (x : ℚ) : List Char :=
  if x.num < 0 then '-' :: Nat.toDigits 10 x.num.natAbs else Nat.toDigits 10 x.num.natAbs

private theorem strz_plain (x : ℚ) : Xml.Plain (strz x) := by
  have h : Xml.Plain (Nat.toDigits 10 x.num.natAbs) := by
    intro c hc
    have := Nat.isDigit_of_mem_toDigits (by decide) (by decide) hc
    refine ⟨?_, ?_, ?_⟩ <;> (rintro rfl; revert this; decide)
  unfold strz
  split_ifs
  · exact plain_cons (by decide) h
  · exact h

/-- Attributes in the manner of the base class, for the example. -/
private def exampleAttributes (s : StrokeAttributes ℚ Nat) : List (List Char × List Char) :=
  [("stroke-width".toList, strz s.width), ("stroke".toList, ['#', '0'])]

/-- The assumption on the base class can be met. -/
example : StrokeText exampleAttributes (fun s => writeAll (exampleAttributes s)) where
  text_eq _ := rfl
  name s a ha := by
    simp only [exampleAttributes, List.mem_cons, List.not_mem_nil, or_false] at ha
    rcases ha with rfl | rfl
    · exact ⟨(by decide +kernel : "stroke-width".toList ≠ []), (by decide +kernel : ∀ c ∈ "stroke-width".toList, Xml.isName c = true)⟩
    · exact ⟨by decide +kernel, by decide +kernel⟩
  value s a ha := by
    simp only [exampleAttributes, List.mem_cons, List.not_mem_nil, or_false] at ha
    rcases ha with rfl | rfl
    · exact strz_plain _
    · unfold Xml.Plain; decide
  nodup s := by
    simp only [exampleAttributes, List.map_cons, List.map_nil]
    decide +kernel

/-- The text of a contour with a line and a curve. -/
example : ∃ s', drawContours strz [[[(0, 0), (3, 4)], [(3, 4), (5, -6), (0, 0)]]] none false true
      { poly := false, lastCommand := none, fill := { color := 0, opacity := 1 }
        stroke := { width := 2, color := 0, opacity := 1, dash := none }
        fillStack := [], strokeStack := [], labelFontSize := (8, 8), pen := (0, 0), content := ([] : List (Item ℚ Nat)) } = (.ok (), s') ∧
    s'.content.map (fun i => match i with
      | .path d s => contoursText (fun s => writeAll (exampleAttributes s)) d s
      | _ => []) =
      ["<path d='M0,0L3,4Q5,-6 0,0Z' fill='none' stroke-width='2' stroke='#0'/>".toList] :=
  ⟨_, rfl, by decide +kernel⟩

example : Xml.read "<path d='M0,0L3,4Q5,-6 0,0Z' fill='none' stroke-width='2' stroke='#0'/>".toList =
    some ("path".toList, [("d".toList, "M0,0L3,4Q5,-6 0,0Z".toList), ("fill".toList, "none".toList),
      ("stroke-width".toList, "2".toList), ("stroke".toList, "#0".toList)]) := by decide +kernel

/-- A missing quote, a doubled attribute and text after the tag are noticed. -/
example : Xml.read "<path d='M0,0 fill='none'/>".toList = none ∧ Xml.read "<path d='M0,0' fill='none' fill='red'/>".toList = none ∧
    Xml.read "<path d='M0,0'fill='none'/>".toList = none ∧ Xml.read "<path d='M0,0'/>x".toList = none := by decide +kernel

end PathLib
