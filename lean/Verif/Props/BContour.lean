import Verif.Model.BContour
import Verif.Lemmas.BezierBounds
import Verif.Props.BezierBounds
import Verif.Props.Bounds
import Verif.Spec.Contour

/-!
# Properties of contours and outlines: C52, C53, C54
-/

set_option linter.unusedSectionVars false
set_option linter.unusedSimpArgs false

namespace PathLib

open Bezier Spec

/-! ## C52 -/

namespace Spec

/-- An edit of a sequence of curves. -/
inductive Edit
  | set (i : Int) (v : Segment ℝ)
  | del (i : Int)

/-- `i` is a Python index into a sequence of length `n`. -/
def IsIndex (n : Nat) (i : Int) : Prop := -(n : Int) ≤ i ∧ i < n

instance (n : Nat) (i : Int) : Decidable (IsIndex n i) := by unfold IsIndex; infer_instance

/-- The edit is possible: the index exists, and a new curve has two or more control points. -/
def Edit.Possible (l : List (Segment ℝ)) : Edit → Prop
  | .set i v => IsIndex l.length i ∧ 2 ≤ v.length
  | .del i => IsIndex l.length i

instance (l : List (Segment ℝ)) (e : Edit) : Decidable (e.Possible l) := by
  cases e <;> unfold Edit.Possible <;> infer_instance

/-- The effect of an edit on a plain list of control polygons; impossible edits have no effect. The position meant by the index
`i`, which may be negative, is `i` modulo the length. -/
def Edit.onList (l : List (Segment ℝ)) (e : Edit) : List (Segment ℝ) :=
  if e.Possible l then
    match e with
    | .set i v => l.set (i % (l.length : Int)).toNat v
    | .del i => l.eraseIdx (i % (l.length : Int)).toNat
  else l

end Spec

namespace BContour

/-- An edit of a contour. -/
noncomputable def edit (e : Spec.Edit) (c : BContour) : Py Unit × BContour :=
  match e with
  | .set i v => setitem i v c
  | .del i => delitem i c

end BContour

open BContour

private theorem pyIndex_eq (n : Nat) (i : Int) :
    pyIndex n i = if IsIndex n i then .ok (i % (n : Int)).toNat else .error .indexError := by
  unfold pyIndex
  by_cases hi : i < 0
  · simp only [hi, if_true]
    by_cases h : -(n : Int) ≤ i
    · have e : i % (n : Int) = i + n := by
        rw [← Int.add_emod_right, Int.emod_eq_of_lt] <;> omega
      have h1 : 0 ≤ i + (n : Int) ∧ i + (n : Int) < n := by omega
      have h2 : IsIndex n i := by unfold IsIndex; omega
      rw [if_pos h1, if_pos h2, e]
    · have h1 : ¬ (0 ≤ i + (n : Int) ∧ i + (n : Int) < n) := by omega
      have h2 : ¬ IsIndex n i := by unfold IsIndex; omega
      rw [if_neg h1, if_neg h2]
  · simp only [hi, if_false]
    by_cases h : i < n
    · have e : i % (n : Int) = i := Int.emod_eq_of_lt (by omega) h
      have h1 : 0 ≤ i ∧ i < (n : Int) := by omega
      have h2 : IsIndex n i := by unfold IsIndex; omega
      rw [if_pos h1, if_pos h2, e]
    · have h1 : ¬ (0 ≤ i ∧ i < (n : Int)) := by omega
      have h2 : ¬ IsIndex n i := by unfold IsIndex; omega
      rw [if_neg h1, if_neg h2]

private theorem pyGet_eq {α : Type} (l : List α) (i : Int) :
    pyGet l i = match pyIndex l.length i with
      | .ok j => (match l[j]? with | some x => .ok x | none => .error .indexError)
      | .error e => .error e := by
  unfold pyGet pyIndex
  simp only
  generalize (if i < 0 then i + (l.length : Int) else i) = j
  by_cases h : j < 0
  · have h1 : ¬ (0 ≤ j ∧ j < l.length) := by omega
    simp [h, h1]
  · by_cases h2 : j < l.length
    · have h1 : (0 ≤ j ∧ j < l.length) := by omega
      simp [h, h1]
    · have h1 : ¬ (0 ≤ j ∧ j < l.length) := by omega
      have : l.length ≤ j.toNat := by omega
      simp [h, h1, this]

private theorem new_error (ps : Segment ℝ) (h : ps.length < 2) : Bezier.new ps = .error .indexError := by
  match ps, h with
  | [], _ => rfl
  | [a], _ => rfl

/-- The state of a contour that corresponds to a list of control polygons. -/
structure BContour.Refines (c : BContour) (l : List (Segment ℝ)) : Prop where
  curves : List.Forall₂ (fun b s => Bezier.new s = .ok b) c.beziers l
  ends : ∀ s0 sn, l.head? = some s0 → l.getLast? = some sn → s0.head? = some c.start ∧ sn.getLast? = some c.stop

private theorem forall₂_set {α β : Type} {R : α → β → Prop} {l : List α} {m : List β} (h : List.Forall₂ R l m) (i : Nat)
    {a : α} {b : β} (hab : R a b) : List.Forall₂ R (l.set i a) (m.set i b) := by
  induction h generalizing i with
  | nil => simp
  | cons hr _ ih => cases i with
    | zero => exact .cons hab (by assumption)
    | succ i => exact .cons hr (ih i)

private theorem forall₂_eraseIdx {α β : Type} {R : α → β → Prop} {l : List α} {m : List β} (h : List.Forall₂ R l m) (i : Nat) :
    List.Forall₂ R (l.eraseIdx i) (m.eraseIdx i) := by
  induction h generalizing i with
  | nil => simp
  | cons hr ht ih => cases i with
    | zero => exact ht
    | succ i => exact .cons hr (ih i)

private theorem two_le {s : Segment ℝ} {b : Bezier} (h : Bezier.new s = .ok b) : 2 ≤ s.length := by
  by_contra hn
  rw [new_error s (by omega)] at h
  cases h

private theorem start_ok {s : Segment ℝ} {b : Bezier} (h : Bezier.new s = .ok b) :
    ∃ p, bezierStart b = .ok p ∧ s.head? = some p := by
  have hl := two_le h
  obtain ⟨hc, _⟩ := new_controlPoints h
  match s, hl with
  | p :: q :: r, _ => exact ⟨p, by simp [bezierStart, hc], rfl⟩

private theorem end_ok {s : Segment ℝ} {b : Bezier} (h : Bezier.new s = .ok b) :
    ∃ p, bezierEnd b = .ok p ∧ s.getLast? = some p := by
  have hl := two_le h
  obtain ⟨hc, _⟩ := new_controlPoints h
  have hne : s ≠ [] := by rintro rfl; simp at hl
  refine ⟨s.getLast hne, ?_, List.getLast?_eq_some_getLast hne⟩
  unfold bezierEnd
  rw [hc, pyGet_neg_one _ hne]

private theorem forall₂_last {α β : Type} {R : α → β → Prop} {l : List α} {m : List β} (h : List.Forall₂ R l m)
    (hl : l ≠ []) (hm : m ≠ []) : R (l.getLast hl) (m.getLast hm) := by
  rw [List.getLast_eq_getElem, List.getLast_eq_getElem]
  have e := h.length_eq
  have := (List.forall₂_iff_get.mp h).2 (l.length - 1)
    (by have := List.length_pos_iff.mpr hl; omega) (by have := List.length_pos_iff.mpr hm; omega)
  simp only [List.get_eq_getElem] at this
  convert this using 2
  omega

private theorem resetEnds_spec (c : BContour) (l : List (Segment ℝ))
    (h : List.Forall₂ (fun b s => Bezier.new s = .ok b) c.beziers l) :
    (resetEnds c).2.Refines l ∧ ((resetEnds c).1 = if l = [] then .error .indexError else .ok ()) ∧
      (resetEnds c).2.bounds = c.bounds ∧ (resetEnds c).2.lut = c.lut := by
  by_cases hl : l = []
  · subst hl
    have hb : c.beziers = [] := by simpa using h
    unfold resetEnds
    simp only [hb, pyGet_nil, error_bind, if_true]
    exact ⟨⟨by rw [hb]; exact .nil, by simp⟩, trivial, trivial, trivial⟩
  · have hb : c.beziers ≠ [] := by
      rintro e; rw [e] at h; exact hl (by simpa using h)
    have hlast := forall₂_last h hb hl
    obtain ⟨pe, he, he'⟩ := end_ok hlast
    obtain ⟨p0, h0, h0'⟩ : ∃ p, (do bezierStart (← pyGet c.beziers 0)) = .ok p ∧ ∀ s0, l.head? = some s0 → s0.head? = some p := by
      clear hlast he
      generalize c.beziers = bs at h hb
      cases h with
      | nil => exact absurd rfl hb
      | cons hr ht =>
        obtain ⟨p, e1, e2⟩ := start_ok hr
        exact ⟨p, by simpa using e1, by intro s0 hs; cases hs; exact e2⟩
    unfold resetEnds
    rw [h0]
    simp only
    rw [pyGet_neg_one _ hb, ok_bind, he]
    simp only [hl, if_false]
    refine ⟨⟨h, ?_⟩, trivial, trivial, trivial⟩
    intro s0 sn hs0 hsn
    rw [List.getLast?_eq_some_getLast hl] at hsn
    cases hsn
    exact ⟨h0' _ hs0, he'⟩

theorem contour_edit_spec (c : BContour) (l : List (Segment ℝ)) (h : c.Refines l) (e : Edit) :
    (edit e c).2.Refines (e.onList l) ∧
    (edit e c).1 = (if e.Possible l ∧ e.onList l ≠ [] then .ok () else .error .indexError) ∧
    (edit e c).2.bounds = c.bounds ∧ (edit e c).2.lut = c.lut := by
  have hlen := h.curves.length_eq
  by_cases hp : e.Possible l
  · cases e with
    | set i v =>
      have ho : (Edit.set i v).onList l = l.set (i % (l.length : Int)).toNat v := if_pos hp
      rw [ho]
      obtain ⟨b, hb, _⟩ := new_ok v hp.2
      have he : edit (.set i v) c = resetEnds { c with beziers := c.beziers.set (i % (l.length : Int)).toNat b } := by
        show setitem i v c = _
        unfold setitem
        rw [hb, ok_bind, pyIndex_eq, hlen, if_pos hp.1]
        rfl
      obtain ⟨r1, r2, r3⟩ := resetEnds_spec { c with beziers := c.beziers.set (i % (l.length : Int)).toNat b }
        (l.set (i % (l.length : Int)).toNat v) (forall₂_set h.curves _ hb)
      rw [he]
      refine ⟨r1, ?_, r3⟩
      rw [r2]
      by_cases hl : l = [] <;> simp [hl, hp]
    | del i =>
      have ho : (Edit.del i).onList l = l.eraseIdx (i % (l.length : Int)).toNat := if_pos hp
      rw [ho]
      have he : edit (.del i) c = resetEnds { c with beziers := c.beziers.eraseIdx (i % (l.length : Int)).toNat } := by
        show delitem i c = _
        unfold delitem
        rw [pyIndex_eq, hlen, if_pos (show IsIndex l.length i from hp)]
      obtain ⟨r1, r2, r3⟩ := resetEnds_spec { c with beziers := c.beziers.eraseIdx (i % (l.length : Int)).toNat }
        (l.eraseIdx (i % (l.length : Int)).toNat) (forall₂_eraseIdx h.curves _)
      rw [he]
      refine ⟨r1, ?_, r3⟩
      rw [r2]
      by_cases hl : l.eraseIdx (i % (l.length : Int)).toNat = [] <;> simp [hl, hp]
  · have ho : e.onList l = l := if_neg hp
    have he : edit e c = (.error .indexError, c) := by
      cases e with
      | set i v =>
        show setitem i v c = _
        unfold setitem
        by_cases hv : 2 ≤ v.length
        · obtain ⟨b, hb, _⟩ := new_ok v hv
          rw [hb, ok_bind, pyIndex_eq, hlen, if_neg (fun hi => hp ⟨hi, hv⟩)]
          rfl
        · rw [new_error v (by omega)]
          rfl
      | del i =>
        show delitem i c = _
        unfold delitem
        rw [pyIndex_eq, hlen, if_neg (show ¬ IsIndex l.length i from hp)]
    rw [ho, he]
    simp [h, hp]

private theorem build_spec (c : Contour ℝ) (acc : List Bezier × BoundsRectangle ℝ) :
    (∀ s ∈ c, 2 ≤ s.length) →
    ∃ bs r, c.foldlM (fun (acc : List Bezier × BoundsRectangle ℝ) segment => do
        let bezier ← Bezier.new segment
        let r ← boundsRectangle bezier.controlPoints
        return (acc.1 ++ [bezier], acc.2.union r)) acc = .ok (acc.1 ++ bs, r) ∧
      List.Forall₂ (fun b s => Bezier.new s = .ok b) bs c ∧
      (∀ p, acc.2.enclosesPoint p = true → r.enclosesPoint p = true) ∧
      (∀ s ∈ c, s.length ≤ 4 → ∀ t, 0 ≤ t → t ≤ 1 → r.enclosesPoint (curve s t) = true) ∧
      (c ≠ [] → BoundsRectangle.Proper r) ∧ (c = [] → r = acc.2) := by
  induction c generalizing acc with
  | nil => intro _; exact ⟨[], acc.2, by simp, .nil, by simp, by simp, by simp, by simp⟩
  | cons s c ih =>
    intro h
    obtain ⟨b, hb, hbc, _⟩ := new_ok s (h s (by simp))
    obtain ⟨r, hr, hp, hin⟩ := boundsRectangle_ok s (h s (by simp))
    obtain ⟨bs, R, e, hbs, h1, h2, h3, h4⟩ := ih (acc.1 ++ [b], acc.2.union r) (fun s hs => h s (by simp [hs]))
    refine ⟨b :: bs, R, ?_, .cons hb hbs, ?_, ?_, ?_, by simp⟩
    · rw [List.foldlM_cons, hb, ok_bind, hbc, hr, ok_bind, pure_eq_ok, ok_bind, e]
      simp
    · intro p hp'
      exact h1 p (BoundsRectangle.enclosesPoint_union_left hp')
    · intro s' hs' h4' t ht0 ht1
      rcases List.mem_cons.mp hs' with rfl | hs'
      · exact h1 _ (BoundsRectangle.enclosesPoint_union_right (hin h4' t ht0 ht1))
      · exact h2 s' hs' h4' t ht0 ht1
    · intro _
      by_cases hc : c = []
      · rw [h4 hc]; exact BoundsRectangle.proper_union _ _
      · exact h3 hc

private theorem build_error (c : Contour ℝ) (acc : List Bezier × BoundsRectangle ℝ) (s : Segment ℝ) (hs : s ∈ c)
    (hl : s.length < 2) : c.foldlM (fun (acc : List Bezier × BoundsRectangle ℝ) segment => do
        let bezier ← Bezier.new segment
        let r ← boundsRectangle bezier.controlPoints
        return (acc.1 ++ [bezier], acc.2.union r)) acc = .error .indexError := by
  induction c generalizing acc with
  | nil => simp at hs
  | cons s' c ih =>
    rw [List.foldlM_cons]
    by_cases h2 : s'.length < 2
    · rw [new_error s' h2]; rfl
    · have hs' : s ∈ c := by
        rcases List.mem_cons.mp hs with rfl | h
        · exact absurd hl h2
        · exact h
      obtain ⟨b, hb, hbc, _⟩ := new_ok s' (by omega)
      obtain ⟨r, hr, _⟩ := boundsRectangle_ok s' (by omega)
      rw [hb, ok_bind, hbc, hr, ok_bind, pure_eq_ok, ok_bind, ih _ hs']

theorem contour_new_spec (c : Contour ℝ) (hc : c ≠ []) (h : ∀ s ∈ c, 2 ≤ s.length) :
    ∃ bc, BContour.new c = .ok bc ∧ bc.Refines c ∧ bc.lut = [] ∧ BoundsRectangle.Proper bc.bounds ∧
      ∀ s ∈ c, s.length ≤ 4 → ∀ t, 0 ≤ t → t ≤ 1 → bc.bounds.enclosesPoint (curve s t) = true := by
  obtain ⟨bs, r, e, hbs, _, h2, h3, _⟩ := build_spec c ([], BoundsRectangle.new []) h
  obtain ⟨r1, r2, _⟩ := resetEnds_spec { beziers := bs, bounds := r, lut := [], start := (0, 0), stop := (0, 0) } c hbs
  simp only [hc, if_false] at r2
  unfold BContour.new build
  rw [e]
  simp only [List.nil_append, ok_bind]
  unfold resetEnds at r1 r2
  simp only at r1 r2
  cases h0 : (do bezierStart (← pyGet bs 0) : Py (Pt ℝ)) with
  | error e => rw [h0] at r2; cases r2
  | ok p0 =>
    rw [h0] at r1 r2
    simp only at r1 r2
    cases h1 : (do bezierEnd (← pyGet bs (-1)) : Py (Pt ℝ)) with
    | error e => rw [h1] at r2; cases r2
    | ok p1 =>
      rw [h1] at r1
      obtain ⟨b0, hb0, hb0'⟩ := bind_eq_ok.mp h0
      obtain ⟨b1, hb1, hb1'⟩ := bind_eq_ok.mp h1
      rw [hb0, ok_bind, hb0', ok_bind, hb1, ok_bind, hb1', ok_bind]
      exact ⟨_, rfl, ⟨r1.curves, r1.ends⟩, rfl, h3 hc, h2⟩

/-- C52: the constructor accepts exactly the non-empty contours whose segments have two or more points. -/
theorem C52_new (c : Contour ℝ) :
    (∃ bc, BContour.new c = .ok bc) ↔ c ≠ [] ∧ ∀ s ∈ c, 2 ≤ s.length := by
  constructor
  · rintro ⟨bc, h⟩
    by_cases hc : c = []
    · subst hc; simp [BContour.new, build] at h
    · refine ⟨hc, fun s hs => ?_⟩
      by_contra hl
      unfold BContour.new build at h
      rw [build_error c _ s hs (by omega)] at h
      cases h
  · rintro ⟨hc, h⟩
    obtain ⟨bc, e, _⟩ := contour_new_spec c hc h
    exact ⟨bc, e⟩

theorem contour_history (c : Contour ℝ) (bc : BContour) (h : BContour.new c = .ok bc) (es : List Edit) :
    (es.foldl (fun s e => (edit e s).2) bc).Refines (es.foldl Edit.onList c) ∧
      (es.foldl (fun s e => (edit e s).2) bc).bounds = bc.bounds ∧ (es.foldl (fun s e => (edit e s).2) bc).lut = [] := by
  obtain ⟨hc, h2⟩ := (C52_new c).mp ⟨bc, h⟩
  obtain ⟨bc', e, hr, hl, _⟩ := contour_new_spec c hc h2
  rw [h] at e
  cases e
  clear h h2 hc
  have : ∀ (bc0 : BContour) (l : List (Segment ℝ)), bc0.Refines l → bc0.lut = [] →
      (es.foldl (fun s e => (edit e s).2) bc0).Refines (es.foldl Edit.onList l) ∧
      (es.foldl (fun s e => (edit e s).2) bc0).bounds = bc0.bounds ∧ (es.foldl (fun s e => (edit e s).2) bc0).lut = [] := by
    induction es with
    | nil => intro bc0 l h1 h2; exact ⟨h1, rfl, h2⟩
    | cons e es ih =>
      intro bc0 l h1 h2
      obtain ⟨a1, _, a3, a4⟩ := contour_edit_spec bc0 l h1 e
      obtain ⟨b1, b2, b3⟩ := ih _ _ a1 (a4.trans h2)
      exact ⟨b1, b2.trans a3, b3⟩
  exact this bc c hr hl

theorem refines_points {bs : List Bezier} {l : List (Segment ℝ)}
    (h : List.Forall₂ (fun b s => Bezier.new s = .ok b) bs l) : bs.map (·.controlPoints) = l := by
  induction h with
  | nil => rfl
  | cons hr _ ih => rw [List.map_cons, ih, (new_controlPoints hr).1]

private theorem forall₂_left' {α β : Type} {R : α → β → Prop} {l : List α} {m : List β} (h : List.Forall₂ R l m) :
    ∀ a ∈ l, ∃ b ∈ m, R a b := by
  induction h with
  | nil => simp
  | cons hr _ ih =>
    intro a ha
    rcases List.mem_cons.mp ha with rfl | ha
    · exact ⟨_, by simp, hr⟩
    · obtain ⟨b, hb, hR⟩ := ih a ha
      exact ⟨b, by simp [hb], hR⟩

/-- C52: after every history of item assignments and deletions (including those that raised), iteration gives the control polygons
of a plain list after the same edits, indexing agrees with that list, and `start` and `end` are those of its first and last
elements. -/
theorem C52_history (c : Contour ℝ) (bc : BContour) (h : BContour.new c = .ok bc) (es : List Edit) :
    let bc' := es.foldl (fun s e => (edit e s).2) bc
    let l := es.foldl Edit.onList c
    bc'.iter.map (·.controlPoints) = l ∧
    (∀ b ∈ bc'.iter, Bezier.new b.controlPoints = .ok b) ∧
    (∀ i, IsIndex l.length i → ∃ b, bc'.getitem i = .ok b ∧ l[(i % (l.length : Int)).toNat]? = some b.controlPoints) ∧
    (∀ i, ¬ IsIndex l.length i → bc'.getitem i = .error .indexError) ∧
    (∀ s0 sn, l.head? = some s0 → l.getLast? = some sn → s0.head? = some bc'.start ∧ sn.getLast? = some bc'.stop) := by
  intro bc' l
  obtain ⟨hr, _, _⟩ := contour_history c bc h es
  have hp := refines_points hr.curves
  have hlen : bc'.beziers.length = l.length := hr.curves.length_eq
  refine ⟨hp, ?_, ?_, ?_, hr.ends⟩
  · intro b hb
    obtain ⟨s, _, hs⟩ := forall₂_left' hr.curves b hb
    rw [(new_controlPoints hs).1, hs]
  · intro i hi
    unfold getitem
    rw [pyGet_eq, hlen, pyIndex_eq, if_pos hi]
    simp only
    have hlt : (i % (l.length : Int)).toNat < bc'.beziers.length := by
      rw [hlen]
      have h0 : (0 : Int) < l.length := by unfold IsIndex at hi; omega
      have h1 := Int.emod_lt_of_pos i h0
      have h2 := Int.emod_nonneg i h0.ne'
      omega
    rw [List.getElem?_eq_getElem hlt]
    refine ⟨_, rfl, ?_⟩
    have : ∀ k : Nat, l[k]? = (bc'.beziers.map (·.controlPoints))[k]? := fun k => by rw [show bc'.beziers.map _ = l from hp]
    rw [this, List.getElem?_map, List.getElem?_eq_getElem hlt]
    rfl
  · intro i hi
    unfold getitem
    rw [pyGet_eq, hlen, pyIndex_eq, if_neg hi]

/-- C52: an edit raises `IndexError` exactly when it is impossible or removes the only curve. -/
theorem C52_raises (c : Contour ℝ) (bc : BContour) (h : BContour.new c = .ok bc) (es : List Edit) (e : Edit) :
    (edit e (es.foldl (fun s e => (edit e s).2) bc)).1 =
      if e.Possible (es.foldl Edit.onList c) ∧ e.onList (es.foldl Edit.onList c) ≠ [] then .ok ()
      else .error .indexError :=
  (contour_edit_spec _ _ (contour_history c bc h es).1 e).2.1

/-- C52: deleting the only curve of a contour raises, but the curve is gone, and `start` and `end` keep their old values. -/
theorem C52_delete_only_counterexample (s : Segment ℝ) (bc : BContour) (h : BContour.new [s] = .ok bc) :
    (delitem 0 bc).1 = .error .indexError ∧ (delitem 0 bc).2.iter = [] ∧
      s.head? = some (delitem 0 bc).2.start ∧ s.getLast? = some (delitem 0 bc).2.stop := by
  obtain ⟨hr, _⟩ := contour_history [s] bc h []
  simp only [List.foldl_nil] at hr
  have he := hr.ends s s rfl rfl
  obtain ⟨h1, h2⟩ : ∃ b, bc.beziers = [b] := by
    have := hr.curves.length_eq
    exact List.length_eq_one_iff.mp this
  have hd : delitem 0 bc = (.error .indexError, { bc with beziers := [] }) := by
    unfold delitem
    rw [h2]
    rfl
  rw [hd]
  exact ⟨rfl, rfl, he⟩

example : ∃ bc, BContour.new [[((0:ℝ), 0), (1, 1)], [(1, 1), (2, 3), (4, 0)]] = .ok bc :=
  (C52_new _).mpr ⟨by simp, by simp⟩

example : [Edit.set (-1) [((0:ℝ), 0), (5, 5)], .del 0, .del 7].foldl Edit.onList
    [[((0:ℝ), 0), (1, 1)], [(1, 1), (2, 3), (4, 0)]] = [[(0, 0), (5, 5)]] := by
  norm_num [Edit.onList, Edit.Possible, IsIndex]

/-! ### `BOutline` -/

private theorem outline_spec (cs : List (Contour ℝ)) (acc : List BContour × BoundsRectangle ℝ)
    (h : ∀ c ∈ cs, c ≠ [] ∧ ∀ s ∈ c, 2 ≤ s.length) :
    ∃ bs r, cs.foldlM (fun (acc : List BContour × BoundsRectangle ℝ) contour => do
        let bc ← BContour.new contour
        return (acc.1 ++ [bc], acc.2.union bc.bounds)) acc = .ok (acc.1 ++ bs, r) ∧
      List.Forall₂ (fun b c => BContour.new c = .ok b) bs cs ∧
      (∀ p, acc.2.enclosesPoint p = true → r.enclosesPoint p = true) ∧
      (∀ c ∈ cs, ∀ s ∈ c, s.length ≤ 4 → ∀ t, 0 ≤ t → t ≤ 1 → r.enclosesPoint (curve s t) = true) := by
  induction cs generalizing acc with
  | nil => exact ⟨[], acc.2, by simp, .nil, by simp, by simp⟩
  | cons c cs ih =>
    obtain ⟨bc, e, _, _, _, hin⟩ := contour_new_spec c (h c (by simp)).1 (h c (by simp)).2
    obtain ⟨bs, R, e', hbs, h1, h2⟩ := ih (acc.1 ++ [bc], acc.2.union bc.bounds) (fun s hs => h s (by simp [hs]))
    refine ⟨bc :: bs, R, ?_, .cons e hbs, ?_, ?_⟩
    · rw [List.foldlM_cons, e, ok_bind, pure_eq_ok, ok_bind, e']
      simp
    · intro p hp
      exact h1 p (BoundsRectangle.enclosesPoint_union_left hp)
    · intro c' hc' s hs h4 t ht0 ht1
      rcases List.mem_cons.mp hc' with rfl | hc'
      · exact h1 _ (BoundsRectangle.enclosesPoint_union_right (hin s hs h4 t ht0 ht1))
      · exact h2 c' hc' s hs h4 t ht0 ht1

/-- C52: an outline holds the contours in order. -/
theorem C52_outline (cs : List (Contour ℝ)) (h : ∀ c ∈ cs, c ≠ [] ∧ ∀ s ∈ c, 2 ≤ s.length) :
    ∃ o, BOutline.new cs = .ok o ∧ List.Forall₂ (fun b c => BContour.new c = .ok b) o.bContours cs := by
  obtain ⟨bs, r, e, hbs, _⟩ := outline_spec cs ([], BoundsRectangle.new []) h
  refine ⟨⟨bs, r⟩, ?_, hbs⟩
  unfold BOutline.new
  rw [e]
  rfl

/-- C52: `unzipPoints` separates the coordinates: zipping them again gives the points. -/
theorem C52_unzipPoints {K : Type} (ps : List (Pt K)) :
    (BOutline.unzipPoints ps).1.zip (BOutline.unzipPoints ps).2 = ps ∧
      (BOutline.unzipPoints ps).1.length = ps.length ∧ (BOutline.unzipPoints ps).2.length = ps.length := by
  have : ∀ (ps : List (Pt K)) (xs ys : List K),
      ps.foldl (fun acc p => (acc.1 ++ [p.1], acc.2 ++ [p.2])) (xs, ys) = (xs ++ ps.map Prod.fst, ys ++ ps.map Prod.snd) := by
    intro ps
    induction ps with
    | nil => simp
    | cons p ps ih => intro xs ys; simp [ih]
  unfold BOutline.unzipPoints
  rw [this]
  simp
  exact (List.zip_of_prod rfl rfl).symm

/-- C52: `segmentFromPoints` makes the curve with these control points, and fails for fewer than two. -/
theorem C52_segmentFromPoints (ps : List (Pt ℝ)) :
    (2 ≤ ps.length → ∃ b, BOutline.segmentFromPoints ps = .ok b ∧ b.controlPoints = ps) ∧
    (ps.length < 2 → BOutline.segmentFromPoints ps = .error .indexError) := by
  constructor
  · intro h
    obtain ⟨b, hb⟩ := Bezier.new_ok ps h
    exact ⟨b, hb.1, hb.2.1⟩
  · exact new_error ps

/-- C52: `pathFromSegments` makes the contour with these curves. -/
theorem C52_pathFromSegments (bs : List Bezier) (hbs : bs ≠ []) (h : ∀ b ∈ bs, 2 ≤ b.controlPoints.length) :
    ∃ bc, BOutline.pathFromSegments bs = .ok bc ∧ bc.iter.map (·.controlPoints) = bs.map (·.controlPoints) := by
  obtain ⟨bc, e, hr, _⟩ := contour_new_spec (bs.map (·.controlPoints)) (by simpa) (by simpa using h)
  exact ⟨bc, e, refines_points hr.curves⟩

/-! ## C53 -/

/-- C53: the bounds of a new contour enclose every point of its lines, quadratics and cubics. -/
theorem C53_contour (c : Contour ℝ) (bc : BContour) (h : BContour.new c = .ok bc) (s : Segment ℝ) (hs : s ∈ c)
    (h4 : s.length ≤ 4) (t : ℝ) (h0 : 0 ≤ t) (h1 : t ≤ 1) (p : Pt ℝ) (hp : Bezier.get s t = .ok p) :
    bc.bounds.enclosesPoint p = true := by
  obtain ⟨hc, h2⟩ := (C52_new c).mp ⟨bc, h⟩
  obtain ⟨bc', e, _, _, _, hin⟩ := contour_new_spec c hc h2
  rw [h] at e
  cases e
  have hne : s ≠ [] := by rintro rfl; simpa using h2 _ hs
  rw [get_ok s hne] at hp
  cases hp
  exact hin s hs h4 t h0 h1

/-- C53: the bounds of an outline enclose every point of its lines, quadratics and cubics. -/
theorem C53_outline (cs : List (Contour ℝ)) (o : BOutline) (h : BOutline.new cs = .ok o) (c : Contour ℝ) (hc : c ∈ cs)
    (hcs : ∀ c ∈ cs, c ≠ [] ∧ ∀ s ∈ c, 2 ≤ s.length) (s : Segment ℝ) (hs : s ∈ c)
    (h4 : s.length ≤ 4) (t : ℝ) (h0 : 0 ≤ t) (h1 : t ≤ 1) (p : Pt ℝ) (hp : Bezier.get s t = .ok p) :
    o.bounds.enclosesPoint p = true := by
  obtain ⟨bs, r, e, _, _, h2⟩ := outline_spec cs ([], BoundsRectangle.new []) hcs
  unfold BOutline.new at h
  rw [e] at h
  cases h
  have hne : s ≠ [] := by rintro rfl; simpa using (hcs c hc).2 _ hs
  rw [get_ok s hne] at hp
  cases hp
  exact h2 c hc s hs h4 t h0 h1

/-- Every side of the rectangle is touched by a point of the set. -/
def Spec.Touched (S : Set (Pt ℝ)) (r : BoundsRectangle ℝ) : Prop :=
  (∃ p ∈ S, p.1 = r.left) ∧ (∃ p ∈ S, p.1 = r.right) ∧ (∃ p ∈ S, p.2 = r.bottom) ∧ (∃ p ∈ S, p.2 = r.top)

/-- The points of the curves of a contour. -/
def Spec.curvePoints (c : Contour ℝ) : Set (Pt ℝ) := { p | ∃ s ∈ c, ∃ t, 0 ≤ t ∧ t ≤ 1 ∧ Bezier.get s t = .ok p }

private theorem touched_union {S : Set (Pt ℝ)} {a b : BoundsRectangle ℝ}
    (ha : a = BoundsRectangle.new [] ∨ BoundsRectangle.Proper a ∧ Touched S a) (hb : BoundsRectangle.Proper b)
    (ht : Touched S b) : Touched S (a.union b) := by
  rcases ha with rfl | ⟨ha, ht'⟩
  · rw [(C10_union_empty b hb).2]; exact ht
  · rw [BoundsRectangle.union_eq ha]
    obtain ⟨⟨p1, m1, e1⟩, ⟨p2, m2, e2⟩, ⟨p3, m3, e3⟩, ⟨p4, m4, e4⟩⟩ := ht
    obtain ⟨⟨q1, n1, f1⟩, ⟨q2, n2, f2⟩, ⟨q3, n3, f3⟩, ⟨q4, n4, f4⟩⟩ := ht'
    refine ⟨?_, ?_, ?_, ?_⟩
    · rcases min_choice a.left b.left with h | h
      · exact ⟨q1, n1, by simp [h, f1]⟩
      · exact ⟨p1, m1, by simp [h, e1]⟩
    · rcases max_choice a.right b.right with h | h
      · exact ⟨q2, n2, by simp [h, f2]⟩
      · exact ⟨p2, m2, by simp [h, e2]⟩
    · rcases min_choice a.bottom b.bottom with h | h
      · exact ⟨q3, n3, by simp [h, f3]⟩
      · exact ⟨p3, m3, by simp [h, e3]⟩
    · rcases max_choice a.top b.top with h | h
      · exact ⟨q4, n4, by simp [h, f4]⟩
      · exact ⟨p4, m4, by simp [h, e4]⟩

private theorem build_touched (S : Set (Pt ℝ)) (c : Contour ℝ) (acc out : List Bezier × BoundsRectangle ℝ)
    (h : ∀ s ∈ c, 2 ≤ s.length) (hd : ∀ s ∈ c, ∀ p ∈ s, InDesignSpace p)
    (hS : ∀ s ∈ c, ∀ t, 0 ≤ t → t ≤ 1 → curve s t ∈ S)
    (hacc : acc.2 = BoundsRectangle.new [] ∨ BoundsRectangle.Proper acc.2 ∧ Touched S acc.2)
    (e : c.foldlM (fun (acc : List Bezier × BoundsRectangle ℝ) segment => do
        let bezier ← Bezier.new segment
        let r ← boundsRectangle bezier.controlPoints
        return (acc.1 ++ [bezier], acc.2.union r)) acc = .ok out) :
    (c = [] ∧ out.2 = acc.2) ∨ Touched S out.2 := by
  induction c generalizing acc with
  | nil => cases e; exact .inl ⟨rfl, rfl⟩
  | cons s c ih =>
    obtain ⟨b, hb, hbc, _⟩ := new_ok s (h s (by simp))
    obtain ⟨r, hr, hp, _⟩ := boundsRectangle_ok s (h s (by simp))
    obtain ⟨r', hr', _, ⟨t1, a1, b1, c1⟩, ⟨t2, a2, b2, c2⟩, ⟨t3, a3, b3, c3⟩, ⟨t4, a4, b4, c4⟩⟩ :=
      C37_tight s (h s (by simp)) (hd s (by simp))
    rw [hr] at hr'
    cases hr'
    have m := hS s (by simp)
    have ht : Touched S r := ⟨⟨_, m t1 a1 b1, c1⟩, ⟨_, m t2 a2 b2, c2⟩, ⟨_, m t3 a3 b3, c3⟩, ⟨_, m t4 a4 b4, c4⟩⟩
    rw [List.foldlM_cons, hb, ok_bind, hbc, hr, ok_bind, pure_eq_ok, ok_bind] at e
    have hu : Touched S (acc.2.union r) := touched_union hacc hp ht
    rcases ih (acc.1 ++ [b], acc.2.union r) (fun s hs => h s (by simp [hs])) (fun s hs => hd s (by simp [hs]))
      (fun s hs => hS s (by simp [hs])) (.inr ⟨BoundsRectangle.proper_union _ _, hu⟩) e with ⟨_, e2⟩ | ht
    · exact .inr (by rw [e2]; exact hu)
    · exact .inr ht

/-- C53: in the design space every side of the bounds of a contour is touched by one of its curves (every order). -/
theorem C53_contour_tight (c : Contour ℝ) (bc : BContour) (h : BContour.new c = .ok bc)
    (hd : ∀ s ∈ c, ∀ p ∈ s, InDesignSpace p) : Touched (curvePoints c) bc.bounds := by
  obtain ⟨hc, h2⟩ := (C52_new c).mp ⟨bc, h⟩
  unfold BContour.new build at h
  obtain ⟨out, e, h⟩ := bind_eq_ok.mp h
  obtain ⟨_, _, h⟩ := bind_eq_ok.mp h
  obtain ⟨_, _, h⟩ := bind_eq_ok.mp h
  obtain ⟨_, _, h⟩ := bind_eq_ok.mp h
  obtain ⟨_, _, h⟩ := bind_eq_ok.mp h
  cases h
  rcases build_touched (curvePoints c) c _ out h2 hd (fun s hs t h0 h1 => ⟨s, hs, t, h0, h1,
    get_ok s (by rintro rfl; simpa using h2 _ hs) t⟩) (.inl rfl) e with ⟨h, _⟩ | h
  · exact absurd h hc
  · exact h

private theorem contour_proper (c : Contour ℝ) (bc : BContour) (h : BContour.new c = .ok bc) :
    BoundsRectangle.Proper bc.bounds := by
  obtain ⟨hc, h2⟩ := (C52_new c).mp ⟨bc, h⟩
  obtain ⟨bc', e, _, _, hp, _⟩ := contour_new_spec c hc h2
  rw [h] at e
  cases e
  exact hp

/-- C53: in the design space every side of the bounds of a non-empty outline is touched by one of its curves. -/
theorem C53_outline_tight (cs : List (Contour ℝ)) (o : BOutline) (h : BOutline.new cs = .ok o) (hcs : cs ≠ [])
    (hd : ∀ c ∈ cs, ∀ s ∈ c, ∀ p ∈ s, InDesignSpace p) : Touched { p | ∃ c ∈ cs, p ∈ curvePoints c } o.bounds := by
  unfold BOutline.new at h
  obtain ⟨out, e, h⟩ := bind_eq_ok.mp h
  cases h
  suffices H : ∀ (S : Set (Pt ℝ)) (cs : List (Contour ℝ)) (acc : List BContour × BoundsRectangle ℝ),
      (∀ c ∈ cs, curvePoints c ⊆ S) → (∀ c ∈ cs, ∀ s ∈ c, ∀ p ∈ s, InDesignSpace p) →
      (acc.2 = BoundsRectangle.new [] ∨ BoundsRectangle.Proper acc.2 ∧ Touched S acc.2) →
      cs.foldlM (fun (acc : List BContour × BoundsRectangle ℝ) contour => do
        let bc ← BContour.new contour
        return (acc.1 ++ [bc], acc.2.union bc.bounds)) acc = .ok out → (cs = [] ∧ out.2 = acc.2) ∨ Touched S out.2 by
    rcases H { p | ∃ c ∈ cs, p ∈ curvePoints c } cs _ (fun c hc p hp => ⟨c, hc, hp⟩) hd (.inl rfl) e with ⟨h, _⟩ | h
    · exact absurd h hcs
    · exact h
  clear h e hd hcs cs
  intro S cs
  induction cs with
  | nil => intro acc _ _ _ e; cases e; exact .inl ⟨rfl, rfl⟩
  | cons c cs ih =>
    intro acc hS hd hacc e
    rw [List.foldlM_cons] at e
    obtain ⟨acc', e', e⟩ := bind_eq_ok.mp e
    obtain ⟨bc, hbc, e'⟩ := bind_eq_ok.mp e'
    cases e'
    have ht : Touched S bc.bounds := by
      obtain ⟨⟨p1, m1, e1⟩, ⟨p2, m2, e2⟩, ⟨p3, m3, e3⟩, ⟨p4, m4, e4⟩⟩ := C53_contour_tight c bc hbc (hd c (by simp))
      have m := hS c (by simp)
      exact ⟨⟨p1, m m1, e1⟩, ⟨p2, m m2, e2⟩, ⟨p3, m m3, e3⟩, ⟨p4, m m4, e4⟩⟩
    have hu : Touched S (acc.2.union bc.bounds) := touched_union hacc (contour_proper c bc hbc) ht
    rcases ih _ (fun c hc => hS c (by simp [hc])) (fun c hc => hd c (by simp [hc]))
      (.inr ⟨BoundsRectangle.proper_union _ _, hu⟩) e with ⟨_, e2⟩ | ht
    · exact .inr (by rw [e2]; exact hu)
    · exact .inr ht

/-- C53: edits never change the bounds. -/
theorem C53_edits_keep_bounds (c : Contour ℝ) (bc : BContour) (h : BContour.new c = .ok bc) (es : List Edit) :
    (es.foldl (fun s e => (edit e s).2) bc).bounds = bc.bounds := (contour_history c bc h es).2.1

/-- C53: after any edits the bounds still enclose those curves that were there from the start. -/
theorem C53_after_edits (c : Contour ℝ) (bc : BContour) (h : BContour.new c = .ok bc) (es : List Edit) (s : Segment ℝ)
    (hs : s ∈ c) (h4 : s.length ≤ 4) (t : ℝ) (h0 : 0 ≤ t) (h1 : t ≤ 1) (p : Pt ℝ) (hp : Bezier.get s t = .ok p) :
    (es.foldl (fun s e => (edit e s).2) bc).bounds.enclosesPoint p = true := by
  rw [C53_edits_keep_bounds c bc h es]
  exact C53_contour c bc h s hs h4 t h0 h1 p hp

/-- C53: after any deletions the bounds enclose all remaining curves. -/
theorem C53_after_deletions (c : Contour ℝ) (bc : BContour) (h : BContour.new c = .ok bc) (is : List Int) (b : Bezier)
    (hb : b ∈ ((is.map Edit.del).foldl (fun s e => (edit e s).2) bc).iter) (h4 : b.controlPoints.length ≤ 4)
    (t : ℝ) (h0 : 0 ≤ t) (h1 : t ≤ 1) (p : Pt ℝ) (hp : Bezier.get b.controlPoints t = .ok p) :
    ((is.map Edit.del).foldl (fun s e => (edit e s).2) bc).bounds.enclosesPoint p = true := by
  refine C53_after_edits c bc h _ b.controlPoints ?_ h4 t h0 h1 p hp
  have e := (C52_history c bc h (is.map Edit.del)).1
  have hm : b.controlPoints ∈ (is.map Edit.del).foldl Edit.onList c := by
    rw [← e]; exact List.mem_map_of_mem hb
  clear e hb h hp
  induction is generalizing c with
  | nil => exact hm
  | cons i is ih =>
    have := ih _ hm
    unfold Edit.onList at this
    split_ifs at this
    · exact List.mem_of_mem_eraseIdx this
    · exact this

/-- C53: but item assignment leaves the bounds stale: the new curve can leave them. -/
theorem C53_stale_counterexample :
    ∃ bc p, BContour.new [[((0:ℝ), 0), (1, 0)]] = .ok bc ∧ (setitem 0 [(0, 0), (0, 5)] bc).1 = .ok () ∧
      (setitem 0 [(0, 0), (0, 5)] bc).2.iter.map (·.controlPoints) = [[(0, 0), (0, 5)]] ∧
      Bezier.get [((0:ℝ), 0), (0, 5)] 1 = .ok p ∧ (setitem 0 [(0, 0), (0, 5)] bc).2.bounds.enclosesPoint p = false := by
  obtain ⟨bc, h⟩ := (C52_new [[((0:ℝ), 0), (1, 0)]]).mpr ⟨by simp, by simp⟩
  have hs : Edit.onList [[((0:ℝ), 0), (1, 0)]] (.set 0 [(0, 0), (0, 5)]) = [[(0, 0), (0, 5)]] := by
    norm_num [Edit.onList, Edit.Possible, IsIndex]
  have hp : Edit.Possible [[((0:ℝ), 0), (1, 0)]] (.set 0 [(0, 0), (0, 5)]) := by
    norm_num [Edit.Possible, IsIndex]
  refine ⟨bc, (0, 5), h, ?_, ?_, ?_, ?_⟩
  · have := C52_raises _ bc h [] (.set 0 [(0, 0), (0, 5)])
    simp only [List.foldl_nil, hs, hp] at this
    simpa [edit] using this
  · have := (C52_history _ bc h [.set 0 [(0, 0), (0, 5)]]).1
    simp only [List.foldl_cons, List.foldl_nil, hs] at this
    exact this
  · norm_num [Bezier.get, order]
  · have hb := C53_edits_keep_bounds _ bc h [.set 0 [(0, 0), (0, 5)]]
    simp only [List.foldl_cons, List.foldl_nil, edit] at hb
    rw [hb]
    obtain ⟨_, _, _, q, ⟨s, hs, t, _, _, hq⟩, e⟩ := C53_contour_tight _ bc h (by
      intro s hs p hp
      simp at hs
      subst hs
      simp at hp
      rcases hp with rfl | rfl <;> norm_num [InDesignSpace])
    simp at hs
    subst hs
    rw [get_ok _ (by simp), curve_two] at hq
    cases hq
    simp at e
    rw [Bool.eq_false_iff]
    intro hh
    rw [BoundsRectangle.enclosesPoint_iff, ← e] at hh
    exact absurd hh.2.2 (by norm_num)

/-! ## C54 -/

/-- The samples of one curve at the parameters `i / (n - 1)`. -/
noncomputable def Spec.samples (s : Segment ℝ) (n : Nat) : List (Pt ℝ) :=
  (List.range n).map fun (i : Nat) => curve s ((i : ℝ) / ((n - 1 : Nat) : ℝ))

/-- `tbl` follows the curves in order: `n` samples of each, where the last sample of a curve stands for the first of the next. -/
def Spec.IsLut (l : List (Segment ℝ)) (n : Nat) (tbl : List (Pt ℝ)) : Prop :=
  tbl.length = l.length * (n - 1) + 1 ∧
  ∀ k (hk : k < l.length) j, j ≤ n - 1 → (k = 0 ∨ 1 ≤ j) →
    ∃ p, Bezier.get l[k] ((j : ℝ) / ((n - 1 : Nat) : ℝ)) = .ok p ∧ tbl[k * (n - 1) + j]? = some p

private theorem lutOf_samples (s : Segment ℝ) (h : s ≠ []) (n : Nat) (hn : 2 ≤ n) : lutOf s n = .ok (samples s n) := by
  obtain ⟨l, e, hl, hs⟩ := C40_samples s h n hn
  rw [e]
  congr 1
  apply List.ext_getElem
  · simp [samples, hl]
  · intro i h1 h2
    have := hs i h1
    rw [get_ok s h] at this
    simp [samples]
    exact (Except.ok.inj this).symm

private theorem lutLoop_tail (n : Nat) (hn : 2 ≤ n) (bs : List Bezier) (l : List (Segment ℝ)) (hb : bs.map (·.controlPoints) = l)
    (hne : ∀ s ∈ l, s ≠ []) (acc : List (Pt ℝ)) :
    lutLoop n bs 1 acc = (.ok (), acc ++ (l.map fun s => (samples s n).drop 1).flatten) := by
  subst hb
  induction bs generalizing acc with
  | nil => simp [lutLoop]
  | cons b bs ih =>
    unfold lutLoop
    rw [lutOf_samples _ (hne _ (by simp)) n hn]
    simp only
    rw [ih (hne := fun s hs => hne s (by simp at hs ⊢; exact .inr hs))]
    simp

/-- The table that `getLUT` computes from scratch. -/
noncomputable def freshLut (n : Nat) : List (Segment ℝ) → List (Pt ℝ)
  | [] => []
  | s :: l => samples s n ++ (l.map fun s => (samples s n).drop 1).flatten

theorem lutLoop_fresh (n : Nat) (hn : 2 ≤ n) (bs : List Bezier) (l : List (Segment ℝ)) (hb : bs.map (·.controlPoints) = l)
    (hne : ∀ s ∈ l, s ≠ []) : lutLoop n bs 0 [] = (.ok (), freshLut n l) := by
  subst hb
  cases bs with
  | nil => rfl
  | cons b bs =>
    unfold lutLoop
    rw [lutOf_samples _ (hne _ (by simp)) n hn]
    simp only
    rw [lutLoop_tail n hn bs _ rfl (fun s hs => hne s (by simp at hs ⊢; exact .inr hs))]
    simp [freshLut]

private theorem flatten_get {α : Type} (m : Nat) (L : List (List α)) (h : ∀ x ∈ L, x.length = m) (k j : Nat) (hj : j < m) :
    L.flatten[k * m + j]? = L[k]?.bind (·[j]?) := by
  induction L generalizing k with
  | nil => simp
  | cons x L ih =>
    have hx := h x (by simp)
    cases k with
    | zero => simp [List.getElem?_append_left (show j < x.length by omega)]
    | succ k =>
      rw [List.flatten_cons, List.getElem?_append_right (by rw [hx, Nat.succ_mul]; omega)]
      have : (k + 1) * m + j - x.length = k * m + j := by rw [hx, Nat.succ_mul]; omega
      rw [this, ih (fun x hx => h x (by simp [hx]))]
      rfl

theorem freshLut_length (n : Nat) (hn : 2 ≤ n) (l : List (Segment ℝ)) (hl : l ≠ []) :
    (freshLut n l).length = l.length * (n - 1) + 1 := by
  match l, hl with
  | s :: l, _ =>
    simp only [freshLut, List.length_append, List.length_flatten, List.map_map]
    have : (List.length ∘ fun s : Segment ℝ => (samples s n).drop 1) = fun _ => n - 1 := by
      funext s; simp [samples]
    rw [this]
    simp [samples, Nat.succ_mul]
    omega

theorem freshLut_isLut (n : Nat) (hn : 2 ≤ n) (l : List (Segment ℝ)) (hl : l ≠ []) (hne : ∀ s ∈ l, s ≠ []) :
    IsLut l n (freshLut n l) := by
  refine ⟨freshLut_length n hn l hl, ?_⟩
  intro k hk j hj hkj
  refine ⟨_, get_ok _ (hne _ (List.getElem_mem hk)) _, ?_⟩
  match l, hl with
  | s :: l, _ =>
    cases k with
    | zero =>
      simp only [freshLut, Nat.zero_mul, Nat.zero_add, List.getElem_cons_zero]
      rw [List.getElem?_append_left (by simp [samples]; omega)]
      simp [samples, show j < n by omega]
    | succ k =>
      have hj1 : 1 ≤ j := by omega
      simp only [freshLut, List.getElem_cons_succ]
      have hlen : (samples s n).length = n := by simp [samples]
      rw [List.getElem?_append_right (by rw [hlen, Nat.succ_mul]; omega)]
      have e : (k + 1) * (n - 1) + j - (samples s n).length = k * (n - 1) + (j - 1) := by
        rw [hlen, Nat.succ_mul]; omega
      rw [e, flatten_get (n - 1) _ (by simp [samples]) k (j - 1) (by omega)]
      simp only [List.length_cons, Nat.add_lt_add_iff_right] at hk
      rw [List.getElem?_map, List.getElem?_eq_getElem hk]
      simp only [Option.map_some, Option.bind_some, List.getElem?_drop]
      rw [show 1 + (j - 1) = j by omega]
      simp [samples, show j < n by omega]

theorem refines_ne {bs : List Bezier} {l : List (Segment ℝ)}
    (h : List.Forall₂ (fun b s => Bezier.new s = .ok b) bs l) : ∀ s ∈ l, s ≠ [] := by
  intro s hs
  obtain ⟨b, _, hb⟩ := forall₂_left' h.flip s hs
  have := two_le hb
  rintro rfl
  simp at this

/-- C54: the first `getLUT` after any edits of a new contour follows the curves. -/
theorem C54_fresh (c : Contour ℝ) (bc : BContour) (h : BContour.new c = .ok bc) (es : List Edit) (n : Nat) (hn : 2 ≤ n)
    (hl : es.foldl Edit.onList c ≠ []) :
    ∃ tbl, (getLUT n (es.foldl (fun s e => (edit e s).2) bc)).1 = .ok tbl ∧ IsLut (es.foldl Edit.onList c) n tbl := by
  obtain ⟨hr, _, hlut⟩ := contour_history c bc h es
  have hne := refines_ne hr.curves
  refine ⟨_, ?_, freshLut_isLut n hn _ hl hne⟩
  unfold getLUT
  rw [hlut]
  rw [if_neg (by simp; omega), lutLoop_fresh n hn _ _ (refines_points hr.curves) hne]

/-- The contour after a sequence of `getLUT` calls. -/
noncomputable def BContour.afterCalls (bc : BContour) (calls : List Int) : BContour :=
  calls.foldl (fun s n => (getLUT n s).2) bc

private theorem calls_spec (l : List (Segment ℝ)) (hl : l ≠ []) (hne : ∀ s ∈ l, s ≠ []) (bc : BContour)
    (hp : bc.beziers.map (·.controlPoints) = l) (hlut : bc.lut = []) (calls : List Int) :
    (bc.afterCalls calls).beziers.map (·.controlPoints) = l ∧
      ((bc.afterCalls calls).lut = [] ∨ ∃ m : Nat, (m : Int) ∈ calls ∧ 2 ≤ m ∧ (bc.afterCalls calls).lut = freshLut m l) := by
  suffices H : ∀ (calls done : List Int) (bc : BContour), bc.beziers.map (·.controlPoints) = l →
      (bc.lut = [] ∨ ∃ m : Nat, (m : Int) ∈ done ∧ 2 ≤ m ∧ bc.lut = freshLut m l) →
      (bc.afterCalls calls).beziers.map (·.controlPoints) = l ∧ ((bc.afterCalls calls).lut = [] ∨
        ∃ m : Nat, (m : Int) ∈ done ++ calls ∧ 2 ≤ m ∧ (bc.afterCalls calls).lut = freshLut m l) by
    simpa using H calls [] bc hp (.inl hlut)
  intro calls
  induction calls with
  | nil => intro done bc h1 h2; simpa [afterCalls] using ⟨h1, h2⟩
  | cons n calls ih =>
    intro done bc h1 h2
    have key : (getLUT n bc).2.beziers = bc.beziers ∧ ((getLUT n bc).2.lut = [] ∨
        ∃ m : Nat, (m : Int) ∈ done ++ [n] ∧ 2 ≤ m ∧ (getLUT n bc).2.lut = freshLut m l) := by
      unfold getLUT
      by_cases hc : (bc.lut.length : Int) = n
      · rw [if_pos hc]
        refine ⟨rfl, ?_⟩
        rcases h2 with h2 | ⟨m, hm, h2, h3⟩
        · exact .inl h2
        · exact .inr ⟨m, by simp [hm], h2, h3⟩
      · rw [if_neg hc]
        by_cases hn : 2 ≤ n
        · obtain ⟨n', rfl⟩ : ∃ n' : Nat, n = n' := ⟨n.toNat, by omega⟩
          rw [lutLoop_fresh n' (by omega) _ l h1 hne]
          exact ⟨rfl, .inr ⟨n', by simp, by omega, rfl⟩⟩
        · by_cases hn1 : n = 1
          · subst hn1
            obtain ⟨b, bs, hb⟩ : ∃ b bs, bc.beziers = b :: bs := by
              cases hbz : bc.beziers with
              | nil => rw [hbz] at h1; exact absurd h1.symm hl
              | cons b bs => exact ⟨b, bs, rfl⟩
            have : lutLoop 1 bc.beziers 0 [] = (.error .zeroDivisionError, []) := by
              rw [hb]; unfold lutLoop; rw [(C40_few_steps _).1]
            rw [this]
            exact ⟨rfl, .inl rfl⟩
          · have : ∀ (bs : List Bezier) k, lutLoop n bs k [] = (.ok (), []) := by
              intro bs
              induction bs with
              | nil => intro k; rfl
              | cons b bs ih =>
                intro k
                unfold lutLoop
                rw [(C40_few_steps _).2 n (by omega)]
                simpa using ih 1
            rw [this]
            exact ⟨rfl, .inl rfl⟩
    have := ih (done ++ [n]) (getLUT n bc).2 (by rw [key.1]; exact h1) key.2
    simpa [afterCalls] using this

/-- C54: after any `getLUT` calls on a new contour of `N` curves, `getLUT(n)` follows the curves, unless an earlier call had a
different number of steps `m` with `N * (m - 1) + 1 = n`. -/
theorem C54_history (c : Contour ℝ) (bc : BContour) (h : BContour.new c = .ok bc) (calls : List Int) (n : Nat) (hn : 2 ≤ n)
    (hok : ∀ m : Nat, (m : Int) ∈ calls → 2 ≤ m → c.length * (m - 1) + 1 = n → m = n) :
    ∃ tbl, (getLUT n (bc.afterCalls calls)).1 = .ok tbl ∧ IsLut c n tbl := by
  obtain ⟨hc, _⟩ := (C52_new c).mp ⟨bc, h⟩
  obtain ⟨hr, _, hlut⟩ := contour_history c bc h []
  simp only [List.foldl_nil] at hr hlut
  have hne := refines_ne hr.curves
  obtain ⟨h1, h2⟩ := calls_spec c hc hne bc (refines_points hr.curves) hlut calls
  refine ⟨freshLut n c, ?_, freshLut_isLut n hn _ hc hne⟩
  unfold getLUT
  by_cases he : ((bc.afterCalls calls).lut.length : Int) = n
  · rw [if_pos he]
    rcases h2 with h2 | ⟨m, hm, hm2, h3⟩
    · rw [h2] at he; simp at he; omega
    · rw [h3] at he ⊢
      rw [freshLut_length m hm2 c hc] at he
      rw [hok m hm hm2 (by exact_mod_cast he)]
  · rw [if_neg he, lutLoop_fresh n hn _ _ h1 hne]

/-- C54: in particular when all calls have the same number of steps. -/
theorem C54_same_steps (c : Contour ℝ) (bc : BContour) (h : BContour.new c = .ok bc) (calls : List Int) (n : Nat) (hn : 2 ≤ n)
    (hs : ∀ m ∈ calls, m = n) : ∃ tbl, (getLUT n (bc.afterCalls calls)).1 = .ok tbl ∧ IsLut c n tbl :=
  C54_history c bc h calls n hn (fun m hm _ _ => by have := hs _ hm; omega)

/-- C54: and on a contour of one curve. -/
theorem C54_single_curve (s : Segment ℝ) (bc : BContour) (h : BContour.new [s] = .ok bc) (calls : List Int) (n : Nat)
    (hn : 2 ≤ n) : ∃ tbl, (getLUT n (bc.afterCalls calls)).1 = .ok tbl ∧ IsLut [s] n tbl :=
  C54_history [s] bc h calls n hn (fun m _ hm he => by simp at he; omega)

/-- C54: on every contour of two or more curves there is a sequence of two calls where the second returns a stale table, which is
too short. -/
theorem C54_stale_steps_counterexample (c : Contour ℝ) (bc : BContour) (h : BContour.new c = .ok bc) (hN : 2 ≤ c.length)
    (m : Nat) (hm : 2 ≤ m) :
    ∃ tbl, (getLUT (c.length * (m - 1) + 1 : Nat) (getLUT m bc).2).1 = .ok tbl ∧ IsLut c m tbl ∧
      ¬ IsLut c (c.length * (m - 1) + 1) tbl := by
  obtain ⟨hc, _⟩ := (C52_new c).mp ⟨bc, h⟩
  obtain ⟨hr, _, hlut⟩ := contour_history c bc h []
  simp only [List.foldl_nil] at hr hlut
  have hne := refines_ne hr.curves
  have hg : (getLUT m bc).2.lut = freshLut m c := by
    unfold getLUT
    rw [hlut, if_neg (by simp; omega), lutLoop_fresh m hm _ _ (refines_points hr.curves) hne]
  have hlen := freshLut_length m hm c hc
  refine ⟨freshLut m c, ?_, freshLut_isLut m hm _ hc hne, ?_⟩
  · unfold getLUT
    rw [show (if (bc.lut.length : Int) = m then ((.ok bc.lut : Py _), bc) else _).2.lut = freshLut m c from hg]
    rw [if_pos (by rw [hlen])]
  · intro hh
    have h1 := hh.1
    rw [hlen] at h1
    have : 0 < c.length * (m - 1) := by
      apply Nat.mul_pos <;> omega
    simp at h1
    rcases h1 with h1 | h1
    · have : 2 * (m - 1) ≤ c.length * (m - 1) := Nat.mul_le_mul_right _ hN
      omega
    · exact hc h1

/-- C54: edits do not invalidate the table: after replacing the only curve `s` by `v`, `getLUT` still returns samples of `s`. -/
theorem C54_stale_edit_counterexample (s v : Segment ℝ) (bc : BContour) (h : BContour.new [s] = .ok bc) (hv : 2 ≤ v.length)
    (n : Nat) (hn : 2 ≤ n) :
    ∃ tbl, (getLUT n (setitem 0 v (getLUT n bc).2).2).1 = .ok tbl ∧ IsLut [s] n tbl ∧
      (setitem 0 v (getLUT n bc).2).2.iter.map (·.controlPoints) = [v] := by
  obtain ⟨hr, _, hlut⟩ := contour_history [s] bc h []
  simp only [List.foldl_nil] at hr hlut
  have hne := refines_ne hr.curves
  have hg : getLUT n bc = (.ok (freshLut n [s]), { bc with lut := freshLut n [s] }) := by
    unfold getLUT
    rw [hlut, if_neg (by simp; omega), lutLoop_fresh n hn _ _ (refines_points hr.curves) hne]
  have hr' : ({ bc with lut := freshLut n [s] } : BContour).Refines [s] := ⟨hr.curves, hr.ends⟩
  obtain ⟨e1, _, _, e4⟩ := contour_edit_spec _ _ hr' (.set 0 v)
  have ho : Edit.onList [s] (.set 0 v) = [v] := by
    simp [Edit.onList, Edit.Possible, IsIndex, hv]
  rw [ho] at e1
  refine ⟨freshLut n [s], ?_, freshLut_isLut n hn _ (by simp) hne, ?_⟩
  · rw [hg]
    unfold getLUT
    have e4' : (setitem 0 v { bc with lut := freshLut n [s] }).2.lut = freshLut n [s] := e4
    simp only
    rw [e4', freshLut_length n hn _ (by simp), if_pos (by simp; omega)]
  · rw [hg]
    exact refines_points e1.curves

end PathLib
