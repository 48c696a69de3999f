import Verif.Model.SegmentPenNone
import Verif.Props.SegmentPen

set_option linter.unusedSectionVars false
set_option linter.unusedSimpArgs false

/-!
# C86: contours without on-curve points
-/

namespace PathLib
open Spec

variable {K : Type} [Field K] [DecidableEq K] [CharZero K]

/-- The pieces of the spline with off-curve points `offs`, where the start and the end may be `None`. -/
def Spec.ospline (start : OPt K) (offs : List (Pt K)) (stop : OPt K) : List (List (OPt K)) :=
  match offs with
  | [] => [[start, stop]]
  | [o] => [[start, some o, stop]]
  | o :: o' :: rest => [start, some o, some (middle o o')] :: ospline (some (middle o o')) (o' :: rest) stop

/-- The closed spline of a contour with the off-curve points `offs` only: one piece per off-curve point, between the middles
of it and its two neighbours. -/
def Spec.closedSpline (offs : List (Pt K)) : Contour K :=
  match offs with
  | [] => []
  | o :: rest =>
    let start := middle ((o :: rest).getLast (by simp)) o
    spline start (o :: rest) start

namespace OPen

/-- A pen as a pen whose points may be `None`. -/
def lift (s : SegmentPen K) : OPen K :=
  ⟨s.contours.map (List.map (List.map some)), s.contour.map (List.map (List.map some)), some s.lastOnCurve⟩

private theorem half_mul (x y : K) : 1 / 2 * (x + y) = (x + y) / 2 := by ring

private theorem qLoop_spec (rest : List (Pt K)) : ∀ (pre : List (OPt K)) (o : Pt K) (e sp : OPt K),
    ∃ ps last, qLoop (pre ++ (some o :: rest.map some) ++ [e]) sp (List.range' pre.length rest.length) = (ps, last, .ok ()) ∧
      ps ++ [[last, some ((o :: rest).getLast (by simp)), e]] = ospline sp (o :: rest) e := by
  induction rest with
  | nil => intro pre o e sp; exact ⟨[], sp, rfl, rfl⟩
  | cons o' rest ih =>
    intro pre o e sp
    obtain ⟨ps, last, h1, h2⟩ := ih (pre ++ [some o]) o' e (some (middle o o'))
    refine ⟨[sp, some o, some (middle o o')] :: ps, last, ?_, ?_⟩
    · have e1 : pre ++ (some o :: (o' :: rest).map some) ++ [e] = (pre ++ [some o]) ++ (some o' :: rest.map some) ++ [e] := by simp
      have g1 : pyGet (pre ++ (some o :: (o' :: rest).map some) ++ [e]) (pre.length : Nat) = .ok (some o) := by
        rw [pyGet_nat]; simp
      have g2 : pyGet (pre ++ (some o :: (o' :: rest).map some) ++ [e]) ((pre.length + 1 : Nat) : Int) = .ok (some o') := by
        rw [pyGet_nat, e1]; simp
      rw [List.length_cons, List.range'_succ, qLoop]
      simp only [g1, g2, ok_bind, half_mul, unpack, pure_eq_ok]
      rw [show List.range' (pre.length + 1) rest.length = List.range' (pre ++ [some o]).length rest.length by simp, e1]
      change (([sp, some o, some (middle o o')] :: (qLoop _ (some (middle o o')) _).1), (qLoop _ (some (middle o o')) _).2) = _
      rw [h1]
    · rw [ospline, ← h2]
      simp [List.getLast_cons]

/-- The segments `qCurveTo` appends when only its first and its last point may be `None`. -/
theorem qSegments_spec (start e : OPt K) (offs : List (Pt K)) :
    qSegments (start :: offs.map some ++ [e]) = (ospline start offs e, .ok ()) := by
  match offs with
  | [] => rfl
  | [o] => rfl
  | o :: o' :: rest =>
    unfold qSegments
    rw [if_neg (by simp)]
    obtain ⟨ps, last, h1, h2⟩ := qLoop_spec (o' :: rest) [start] o e start
    have hl : (start :: (o :: o' :: rest).map some ++ [e]).length - 3 = (o' :: rest).length := by simp
    rw [hl]
    have h0 : pyGet (start :: (o :: o' :: rest).map some ++ [e]) 0 = .ok start := rfl
    have h1' : qLoop (start :: (o :: o' :: rest).map some ++ [e]) start (List.range' 1 (o' :: rest).length) =
      (ps, last, .ok ()) := h1
    rw [h0]
    simp only [h1']
    have h3 : pyGet (start :: (o :: o' :: rest).map some ++ [e]) (-1) = .ok e := by
      rw [pyGet_neg_one _ (by simp)]; simp
    have g : pyGet (start :: (o :: o' :: rest).map some ++ [e]) (-2) = .ok (some ((o :: o' :: rest).getLast (by simp))) := by
      unfold pyGet
      have : ((-2 : Int) + ((start :: (o :: o' :: rest).map some ++ [e]).length : Int)).toNat = rest.length + 2 := by
        simp; omega
      simp only [show (-2 : Int) < 0 by decide, if_true, this]
      rw [if_neg (by simp; omega)]
      rw [List.getElem?_append_left (by simp), List.getElem?_eq_getElem (by simp)]
      simp only
      congr 1
      rw [List.getLast_eq_getElem]
      have := List.getElem_map (f := some) (l := o' :: rest) (i := rest.length) (h := by simp)
      simpa using this
    rw [h3, g]
    simp only [ok_bind, pure_eq_ok, ← h2]

private theorem ospline_some (start stop : Pt K) (offs : List (Pt K)) :
    ospline (some start) offs (some stop) = (spline start offs stop).map (List.map some) := by
  induction offs generalizing start with
  | nil => rfl
  | cons o rest ih =>
    cases rest with
    | nil => rfl
    | cons o' rest => rw [ospline, spline, ih]; rfl

private theorem closing_lift (c : Contour K) :
    closing (c.map (List.map some)) = (SegmentPen.closing c).map (List.map (List.map some)) := by
  have gm : ∀ {α β : Type} (f : α → β) (l : List α) (i : Int), pyGet (l.map f) i = (pyGet l i).map f := by
    intro α β f l i
    unfold pyGet
    simp only [List.length_map, List.getElem?_map]
    split
    · split
      · rfl
      · cases l[(i + (l.length : Int)).toNat]? <;> rfl
    · cases l[i.toNat]? <;> rfl
  unfold closing SegmentPen.closing
  rw [gm, gm]
  cases h0 : pyGet c 0 with
  | error e => rfl
  | ok s0 =>
    simp only [Except.map, ok_bind, gm]
    cases h1 : pyGet s0 0 with
    | error e => rfl
    | ok p0 =>
      simp only [Except.map, ok_bind, gm]
      cases h2 : pyGet c (-1) with
      | error e => rfl
      | ok s1 =>
        simp only [Except.map, ok_bind, gm]
        cases h3 : pyGet s1 (-1) with
        | error e => rfl
        | ok p1 =>
          simp only [Except.map, ok_bind]
          by_cases h : p0 = p1
          · simp [h, pure_eq_ok]
          · simp [h, pure_eq_ok]

/-- C86: a new pen is the new pen of `Model/SegmentPen.lean`: no contours, no contour begun, standing at the origin. -/
theorem C86_new : (init : OPen K) = lift SegmentPen.init ∧ (init : OPen K) = ⟨[], none, some (0, 0)⟩ := ⟨rfl, rfl⟩

/-- C86: for points other than `None` these methods do what the methods of `Model/SegmentPen.lean` do. -/
theorem C86_points (s : SegmentPen K) (p : Pt K) (ps : List (Pt K)) :
    moveTo (lift s) (some p) = lift (SegmentPen.moveTo s p) ∧
    lineTo (lift s) (some p) = (lift (SegmentPen.lineTo s p).1, (SegmentPen.lineTo s p).2) ∧
    qCurveTo (lift s) (ps.map some) = (lift (SegmentPen.qCurveTo s ps).1, (SegmentPen.qCurveTo s ps).2) ∧
    closePath (lift s) = (lift (SegmentPen.closePath s).1, (SegmentPen.closePath s).2) := by
  refine ⟨rfl, ?_, ?_, ?_⟩
  · unfold lineTo SegmentPen.lineTo
    by_cases h : p = s.lastOnCurve
    · simp [h, lift]
    · have h' : some p ≠ (lift s).lastOnCurve := by simpa [lift] using h
      rw [if_pos h', if_pos h]
      unfold append SegmentPen.append
      cases hc : s.contour with
      | none => simp [lift, hc]
      | some c => simp [lift, hc]
  · rcases List.eq_nil_or_concat ps with rfl | ⟨offs, stop, rfl⟩
    · cases hc : s.contour with
      | none =>
        simp [qCurveTo, SegmentPen.qCurveTo, qSegments, SegmentPen.qSegments, lift, hc]
      | some c =>
        rw [SegmentPen.C58_no_points s c hc]
        have : pyGet [some s.lastOnCurve] (-1) = .ok (some s.lastOnCurve) := rfl
        simp [qCurveTo, qSegments, lift, hc, this]
    · have hs := qSegments_spec (some s.lastOnCurve) (some stop) offs
      simp only [List.cons_append] at hs
      have hg : pyGet (some s.lastOnCurve :: (offs.map some ++ [some stop])) (-1) = .ok (some stop) := by
        rw [pyGet_neg_one _ (by simp)]; simp
      cases hc : s.contour with
      | none =>
        rw [SegmentPen.C58_no_contour s hc]
        have hne : ospline (some s.lastOnCurve) offs (some stop) ≠ [] := by
          match offs with
          | [] => simp [ospline]
          | [o] => simp [ospline]
          | o :: o' :: rest => simp [ospline]
        unfold qCurveTo
        simp only [List.concat_eq_append, List.map_append, List.map_cons, List.map_nil, lift, hs, hc, Option.map_none, if_neg hne]
      | some c =>
        rw [List.concat_eq_append, SegmentPen.C58_qCurveTo s c hc]
        unfold qCurveTo
        simp only [List.map_append, List.map_cons, List.map_nil, lift, hs, hc, Option.map_some, hg, ok_bind, ospline_some]
  · unfold closePath SegmentPen.closePath
    cases hc : s.contour with
    | none => simp [lift, hc]
    | some c =>
      cases c with
      | nil => simp [lift, hc]
      | cons a c =>
        simp only [lift, hc, Option.map_some, List.map_cons]
        rw [show (List.map some a :: List.map (List.map some) c) = (a :: c).map (List.map some) from rfl, closing_lift]
        cases SegmentPen.closing (a :: c) with
        | error e => simp [Except.map]
        | ok c' => simp [Except.map]

/-- C86: as the first contour of a glyph, a contour without on-curve points raises `AttributeError`. -/
theorem C86_first (s : OPen K) (hc : s.contour = none) (offs : List (Pt K)) :
    qCurveTo s (offs.map some ++ [none]) = (s, .error .attributeError) := by
  have hs := qSegments_spec s.lastOnCurve none offs
  simp only [List.cons_append] at hs
  have hne : ospline s.lastOnCurve offs none ≠ [] := by
    match offs with
    | [] => simp [ospline]
    | [o] => simp [ospline]
    | o :: o' :: rest => simp [ospline]
  unfold qCurveTo
  simp only [hs, hc, if_neg hne]

private theorem ospline_ends (start stop : OPt K) (offs : List (Pt K)) :
    (∃ a l, ospline start offs stop = (start :: a) :: l) ∧
    ∃ l x, ospline start offs stop = l ++ [x] ∧ x.getLast? = some stop ∧ stop ∈ x := by
  induction offs generalizing start with
  | nil => exact ⟨⟨_, _, rfl⟩, [], _, rfl, rfl, by simp⟩
  | cons o rest ih =>
    cases rest with
    | nil => exact ⟨⟨_, _, rfl⟩, [], _, rfl, rfl, by simp⟩
    | cons o' rest =>
      obtain ⟨-, l, x, h1, h2, h3⟩ := ih (some (middle o o'))
      exact ⟨⟨_, _, rfl⟩, [start, some o, some (middle o o')] :: l, x, by rw [ospline, h1]; rfl, h2, h3⟩

/-- C86: after another contour, a contour without on-curve points starts at the end of that contour and has `None` for its last point;
if the contour before it had on-curve points, a line from `None` back to its end is added. -/
theorem C86_later (s : OPen K) (hc : s.contour = some []) (offs : List (Pt K)) :
    ∃ s1 s2 c, qCurveTo s (offs.map some ++ [none]) = (s1, .ok ()) ∧ closePath s1 = (s2, .ok ()) ∧
      s2.contours = s.contours ++ [c] ∧ s2.contour = some [] ∧ s2.lastOnCurve = none ∧
      c = ospline s.lastOnCurve offs none ++ (if s.lastOnCurve = none then [] else [[none, s.lastOnCurve]]) ∧
      ∃ segment ∈ c, none ∈ segment := by
  have hs := qSegments_spec s.lastOnCurve none offs
  simp only [List.cons_append] at hs
  have hg : pyGet (s.lastOnCurve :: (offs.map some ++ [none])) (-1) = .ok none := by
    rw [pyGet_neg_one _ (by simp)]; simp
  have e1 : qCurveTo s (offs.map some ++ [none]) =
      ({ s with contour := some (ospline s.lastOnCurve offs none), lastOnCurve := none }, .ok ()) := by
    unfold qCurveTo
    simp only [hs, hc, hg, ok_bind, List.nil_append]
  obtain ⟨⟨a, l, ha⟩, l', x, hx, hx1, hx2⟩ := ospline_ends s.lastOnCurve none offs
  have e2 : closing (ospline s.lastOnCurve offs none) =
      .ok (ospline s.lastOnCurve offs none ++ (if s.lastOnCurve = none then [] else [[none, s.lastOnCurve]])) := by
    have g0 : pyGet (ospline s.lastOnCurve offs none) 0 = .ok (s.lastOnCurve :: a) := by rw [ha]; rfl
    have g1 : pyGet (ospline s.lastOnCurve offs none) (-1) = .ok x := by
      rw [pyGet_neg_one _ (by rw [hx]; simp)]
      simp [hx]
    have g2 : pyGet x (-1) = .ok none := by
      have hne : x ≠ [] := by intro e; rw [e] at hx2; simp at hx2
      rw [pyGet_neg_one _ hne]
      rw [List.getLast?_eq_getLast_of_ne_nil hne] at hx1
      exact congrArg Except.ok (Option.some.inj hx1)
    unfold closing
    simp only [g0, g1, g2, ok_bind, pyGet_zero_cons]
    by_cases h : s.lastOnCurve = none
    · simp [h, pure_eq_ok]
    · simp [h, pure_eq_ok]
  refine ⟨_, { s with contours := s.contours ++ [ospline s.lastOnCurve offs none ++
      (if s.lastOnCurve = none then [] else [[none, s.lastOnCurve]])], contour := some [], lastOnCurve := none },
    _, e1, ?_, rfl, rfl, rfl, rfl, x, ?_, hx2⟩
  · unfold closePath
    simp only [ha] at e2 ⊢
    simp only [e2]
  · rw [hx]; simp

/-- C86: applying a transform that is defined everywhere to contours with a `None` raises `TypeError`. -/
theorem C86_transform (T : Transform K) (hT : ∀ p, ∃ q, T.applyToPoint p = .ok q) (contours : List (List (List (OPt K))))
    (h : ∃ c ∈ contours, ∃ segment ∈ c, none ∈ segment) : applyToContours T contours = .error .typeError := by
  have key : ∀ {α β : Type} (f : α → Py β) (l : List α), (∀ a ∈ l, (∃ b, f a = .ok b) ∨ f a = .error .typeError) →
      ((∃ r, l.mapM f = .ok r) ∨ l.mapM f = .error .typeError) ∧
      ((∃ a ∈ l, f a = .error .typeError) → l.mapM f = .error .typeError) := by
    intro α β f l hl
    induction l with
    | nil => exact ⟨.inl ⟨[], rfl⟩, by simp⟩
    | cons a l ih =>
      obtain ⟨i1, i2⟩ := ih fun b hb => hl b (by simp [hb])
      rw [List.mapM_cons]
      rcases hl a (by simp) with ⟨b, hb⟩ | hb
      · rw [hb, ok_bind]
        constructor
        · rcases i1 with ⟨r, hr⟩ | hr
          · rw [hr]; exact .inl ⟨_, rfl⟩
          · rw [hr]; exact .inr rfl
        · rintro ⟨x, hx, hx'⟩
          rcases List.mem_cons.mp hx with rfl | hx
          · rw [hb] at hx'; cases hx'
          · rw [i2 ⟨x, hx, hx'⟩]; rfl
      · rw [hb]
        exact ⟨.inr rfl, fun _ => rfl⟩
  have kp : ∀ p : OPt K, (∃ b, (do T.applyToPoint (← unpack p) : Py (Pt K)) = .ok b) ∨
      (do T.applyToPoint (← unpack p) : Py (Pt K)) = .error .typeError := by
    intro p
    cases p with
    | none => exact .inr rfl
    | some p => exact .inl (hT p)
  have ks : ∀ segment : List (OPt K), _ := fun segment =>
    key (fun (p : OPt K) => (do T.applyToPoint (← unpack p) : Py (Pt K))) segment fun p _ => kp p
  have kc : ∀ c : List (List (OPt K)), _ := fun c =>
    key (fun (segment : List (OPt K)) => segment.mapM fun (p : OPt K) => (do T.applyToPoint (← unpack p) : Py (Pt K))) c
      fun segment _ => (ks segment).1
  obtain ⟨c, h1, segment, h2, h3⟩ := h
  refine (key _ contours fun c _ => (kc c).1).2 ⟨c, h1, (kc c).2 ⟨segment, h2, (ks segment).2 ⟨none, h3, rfl⟩⟩⟩

/-- C86: the square with four off-curve corners, drawn after a contour that ended at (9, 9), is not the closed spline. -/
theorem C86_closed_counterexample :
    ∃ s1 s2, qCurveTo (⟨[], some [], some ((9:ℚ), 9)⟩ : OPen ℚ) [some (0, 0), some (2, 0), some (2, 2), some (0, 2), none] = (s1, .ok ()) ∧
      closePath s1 = (s2, .ok ()) ∧
      s2.contours = [[[some (9, 9), some (0, 0), some (1, 0)], [some (1, 0), some (2, 0), some (2, 1)],
        [some (2, 1), some (2, 2), some (1, 2)], [some (1, 2), some (0, 2), none], [none, some (9, 9)]]] ∧
      closedSpline [((0:ℚ), 0), (2, 0), (2, 2), (0, 2)] = [[(0, 1), (0, 0), (1, 0)], [(1, 0), (2, 0), (2, 1)],
        [(2, 1), (2, 2), (1, 2)], [(1, 2), (0, 2), (0, 1)]] := by
  obtain ⟨s1, s2, c, h1, h2, h3, -, -, h4, -⟩ := C86_later (⟨[], some [], some ((9:ℚ), 9)⟩ : OPen ℚ) rfl
    [(0, 0), (2, 0), (2, 2), (0, 2)]
  refine ⟨s1, s2, h1, h2, ?_, by decide +kernel⟩
  rw [h3, h4]
  decide +kernel

/-- The hypotheses of C86_first and C86_later hold for a new pen and after `closePath`. -/
example : (init : OPen ℚ).contour = none ∧
    ((closePath (lineTo (lineTo (moveTo init (some ((0:ℚ), 0))) (some (5, 0))).1 (some (5, 5))).1).1).contour = some [] := by
  decide +kernel

end OPen
end PathLib
