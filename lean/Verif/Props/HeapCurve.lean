import Verif.Lemmas.HeapCurve
import Verif.Lemmas.HeapPen
import Verif.Props.BezierBounds
import Verif.Props.BezierCache

/-!
# C101: curves and the lists they keep

A curve keeps the list of control points it is given. The theorems say what its methods return when that list is changed later, and that nothing else
can happen to it.
-/

namespace PathLib
open Spec Bezier

/-- Something that happens to a curve in the model with lists as values: a call, or other code replaces the items of its list of control points. -/
inductive Spec.Event
  | call (c : Call)
  | points (ps : Segment ℝ)

/-- The curve with other control points; its other attributes and its caches stay. -/
def Spec.withPoints (w : World) (ps : Segment ℝ) : World :=
  { w with obj := { w.obj with val := { w.obj.val with controlPoints := ps } } }

/-- The state after an event. -/
noncomputable def Spec.Event.run : Event → World → World
  | .call c, w => c.run w
  | .points ps, w => withPoints w ps

/-- The state after a sequence of events. -/
noncomputable def Spec.events (w : World) (es : List Event) : World := es.foldl (fun w e => e.run w) w

/-- The curve and its lists after a call, whether it returned or raised. -/
noncomputable def Spec.Call.runHeap : Call → Heap.Place → Heap.Place
  | .dcPoints, p => (Heap.Curve.dcPoints p).2
  | .derivative t, p => (Heap.Curve.derivative t p).2
  | .normal t, p => (Heap.Curve.normal t p).2
  | .extrema, p => (Heap.Curve.extrema p).2
  | .bbox, p => (Heap.Curve.bbox p).2
  | .boundsRectangle, p => (Heap.Curve.boundsRectangle p).2
  | .getLUT n, p => (Heap.Curve.getLUT n p).2
  | .length, p => (Heap.Curve.length p).2
  | .reduce, p => (Heap.Curve.reduce p).2
  | .overlaps r, p => (Heap.Curve.overlaps r p).2

/-- What can happen to a curve and its lists: it is created from a list of points, its methods are called (also after calls that raised), other code
replaces the items of that list, and other code creates lists and changes lists that are not the curve's. `S` collects the addresses of the lists that the
curve creates; `w` follows the events in the model with lists as values. -/
inductive Spec.CurveHistory : Set Nat → Heap.Place → World → Prop
  | new (h : Heap ℝ) (r : Nat) (ps : Segment ℝ) (b : Bezier) (c : Heap.Curve) (h' : Heap ℝ) (prec : Int) : h[r]? = some (.pts ps) →
      Bezier.new ps = .ok b → Heap.Curve.new r h = (.ok c, h') → CurveHistory (created h h') ⟨c, prec, h'⟩ ⟨{ val := b }, prec⟩
  | call (S : Set Nat) (p : Heap.Place) (w : World) (c : Call) : CurveHistory S p w →
      CurveHistory (S ∪ created p.heap (c.runHeap p).heap) (c.runHeap p) (c.run w)
  | points (S : Set Nat) (p : Heap.Place) (w : World) (ps : Segment ℝ) : CurveHistory S p w →
      CurveHistory S { p with heap := p.heap.set p.curve.points (.pts ps) } (withPoints w ps)
  | other (S : Set Nat) (p : Heap.Place) (w : World) (h' : Heap ℝ) : CurveHistory S p w → SameOn S p.heap h' →
      h'[p.curve.points]? = p.heap[p.curve.points]? → p.heap.length ≤ h'.length → CurveHistory S { p with heap := h' } w

namespace Heap

/-! ### Curves on the heap -/

/-- C101: a curve keeps the very list that it is given, and creates one list of its own. The constructor raises what it raises
in the model with lists as values, and the curve stands for the one there. -/
theorem C101_new (h : Heap ℝ) (r : Nat) (ps : Segment ℝ) (hr : h[r]? = some (.pts ps)) :
    match Bezier.new ps with
    | .ok b => ∃ c, Curve.new r h = (.ok c, h ++ [.pts []]) ∧ c.points = r ∧ IsCurve (newSince h.length) (h ++ [.pts []]) c { val := b }
    | .error e => Curve.new r h = (.error e, h ++ [.pts []]) := by
  have := Curve.new_run hr
  cases hb : Bezier.new ps <;> rw [hb] at this <;> exact this

/-- C101: every method agrees with the method of the model with lists as values, in whatever state the curve is; of the lists that exist it changes at most the
curve's three lists of extrema, and it leaves the attribute `controlPoints` alone. -/
theorem C101_methods (S : Set Nat) (p : Place) (w : World) (hc : IsCurve S p.heap p.curve w.obj) (hp : p.prec = w.prec) :
    Agrees S p IsContour (Curve.dcPoints p) (World.dcPoints w) ∧
    (∀ t, Agrees S p Same (Curve.derivative t p) (World.derivative t w)) ∧
    (∀ t, Agrees S p Same (Curve.normal t p) (World.normal t w)) ∧
    Agrees S p IsExtrema (Curve.extrema p) (World.extrema w) ∧
    Agrees S p Same (Curve.bbox p) (World.bbox w) ∧
    Agrees S p Same (Curve.boundsRectangle p) (World.boundsRectangle w) ∧
    (∀ n, Agrees S p IsSegment (Curve.getLUT n p) (World.getLUT n w)) ∧
    Agrees S p Same (Curve.length p) (World.length w) ∧
    Agrees S p Same (Curve.reduce p) (World.reduce w) ∧
    (∀ r, Agrees S p Same (Curve.overlaps r p) (World.overlaps r w)) :=
  ⟨Curve.dcPoints_agrees hc hp, Curve.derivative_agrees hc hp, Curve.normal_agrees hc hp, (Curve.extrema_agrees hc hp).1,
    Curve.bbox_agrees hc hp, Curve.boundsRectangle_agrees hc hp, Curve.getLUT_agrees hc hp, Curve.length_agrees hc hp,
    Curve.reduce_agrees hc hp, Curve.overlaps_agrees hc hp⟩

private theorem runHeap_ok {S : Set Nat} {p : Place} {w : World} (hc : IsCurve S p.heap p.curve w.obj) (hp : p.prec = w.prec) (c : Call) :
    IsCurve (S ∪ newSince p.heap.length) (c.runHeap p).heap (c.runHeap p).curve (c.run w).obj ∧ (c.runHeap p).prec = (c.run w).prec ∧
      Changes p (c.runHeap p) := by
  obtain ⟨h1, h2, h3, h4, h5, h6, h7, h8, h9, h10⟩ := C101_methods S p w hc hp
  cases c with
  | dcPoints => exact ⟨h1.1, h1.2.1, h1.2.2.1⟩
  | derivative t => exact ⟨(h2 t).1, (h2 t).2.1, (h2 t).2.2.1⟩
  | normal t => exact ⟨(h3 t).1, (h3 t).2.1, (h3 t).2.2.1⟩
  | extrema => exact ⟨h4.1, h4.2.1, h4.2.2.1⟩
  | bbox => exact ⟨h5.1, h5.2.1, h5.2.2.1⟩
  | boundsRectangle => exact ⟨h6.1, h6.2.1, h6.2.2.1⟩
  | getLUT n => exact ⟨(h7 n).1, (h7 n).2.1, (h7 n).2.2.1⟩
  | length => exact ⟨h8.1, h8.2.1, h8.2.2.1⟩
  | reduce => exact ⟨h9.1, h9.2.1, h9.2.2.1⟩
  | overlaps r => exact ⟨(h10 r).1, (h10 r).2.1, (h10 r).2.2.1⟩

private theorem isCurve_inside {S T : Set Nat} {h : Heap ℝ} {c : Curve} {o : CachedBezier} (hc : IsCurve S h c o)
    (hT : ∀ i ∈ S, i < h.length → i ∈ T) (hp : c.points ∉ T) : IsCurve T h c o := by
  have hST : S ∩ {i | i < h.length} ⊆ T := fun i hi => hT i hi.1 hi.2
  refine ⟨hp, hc.points, hc.val, rel_imp (fun _ _ hx => ?_) hc.dc, rel_imp (fun _ _ hx => ?_) hc.ext, hc.len, hc.box, hc.rect, ?_⟩
  · exact local_contour _ _ _ _ _ _ hST (fun _ _ _ hx => hx) (inside_contour _ _ _ _ hx)
  · exact local_extrema hST (fun _ _ _ hx => hx) ⟨inside_row _ _ _ _ hx.1, inside_row _ _ _ _ hx.2.1, inside_row _ _ _ _ hx.2.2.1, hx.2.2.2⟩
  · exact local_segment _ _ _ _ _ _ hST (fun _ _ _ hx => hx) (inside_segment _ _ _ _ hc.lut)

/-- C101: whatever happens, the curve stands for the one that follows the same events in the model with lists as values. -/
theorem C101_history (S : Set Nat) (p : Place) (w : World) (hh : CurveHistory S p w) :
    IsCurve S p.heap p.curve w.obj ∧ p.prec = w.prec := by
  induction hh with
  | new h r ps b c h' prec hr hb hc =>
    have := C101_new h r ps hr
    rw [hb] at this
    obtain ⟨c', h1, h2, h3⟩ := this
    rw [hc] at h1
    cases h1
    refine ⟨isCurve_inside h3 (fun i hi hl => ⟨hi, hl⟩) ?_, rfl⟩
    rintro ⟨hi, _⟩
    exact h3.notOwn hi
  | call S p w c _ ih =>
    obtain ⟨h1, h2, h3⟩ := runHeap_ok ih.1 ih.2 c
    refine ⟨isCurve_inside h1 ?_ ?_, h2⟩
    · rintro i (hi | hi) hl
      · exact .inl hi
      · exact .inr ⟨hi, hl⟩
    · rintro (hi | ⟨hi, _⟩)
      · exact h1.notOwn (.inl hi)
      · exact h1.notOwn (.inr hi)
  | points S p w ps _ ih =>
    obtain ⟨hc, hp⟩ := ih
    have hS : ∀ i ∈ S, ∀ x, p.heap[i]? = some x → (p.heap.set p.curve.points (.pts ps))[i]? = some x := by
      intro i hi x hx
      rw [List.getElem?_set_ne, hx]
      rintro rfl
      exact hc.notOwn hi
    refine ⟨⟨hc.notOwn, ?_, ?_, rel_imp (fun _ _ => local_contour _ _ _ _ _ _ (fun _ hi => hi) hS) hc.dc,
      rel_imp (fun _ _ => local_extrema (fun _ hi => hi) hS) hc.ext, hc.len, hc.box, hc.rect,
      local_segment _ _ _ _ _ _ (fun _ hi => hi) hS hc.lut⟩, hp⟩
    · exact List.getElem?_set_self (lt_of_cell hc.points)
    · have := hc.val
      simp only [withPoints]
      rw [this]
      rfl
  | other S p w h' _ h1 h2 _ ih =>
    refine ⟨ih.1.mono (fun _ hi => hi) ih.1.notOwn ?_, ih.2⟩
    rintro i (hi | rfl) x hx
    · rw [h1 i hi, hx]
    · rw [h2, hx]

/-- C101: `start`, `end`, `get` and `hull` use the items that the list holds at the time of the call; `hull` returns a new list. -/
theorem C101_current (S : Set Nat) (p : Place) (w : World) (hc : IsCurve S p.heap p.curve w.obj) :
    Curve.controlPoints p = (.ok p.curve.points, p) ∧
    Curve.start p = (pyGet w.obj.pts 0, p) ∧ Curve.stop p = (pyGet w.obj.pts (-1), p) ∧
    (∀ t, Curve.get t p = (Bezier.get w.obj.pts t, p)) ∧
    (∀ t, Curve.hull t p = (.ok p.heap.length, { p with heap := p.heap ++ [.pts (Bezier.hull w.obj.pts t)] })) := by
  refine ⟨rfl, ?_, ?_, fun t => ?_, fun t => ?_⟩
  · exact onHeap_read (by rw [bind_ok _ _ _ _ _ (loadPts_run hc.points)]; rfl)
  · exact onHeap_read (by rw [bind_ok _ _ _ _ _ (loadPts_run hc.points)]; rfl)
  · exact onHeap_read (by rw [bind_ok _ _ _ _ _ (loadPts_run hc.points)]; rfl)
  · unfold Curve.hull onHeap
    rw [bind_ok _ _ _ _ _ (loadPts_run hc.points), alloc_run]
    rfl

/-- C101: a call on one curve does not change another one whose own lists are different, even if both have the same list of control points. -/
theorem C101_two_curves (S T : Set Nat) (p : Place) (w : World) (hc : IsCurve S p.heap p.curve w.obj) (hp : p.prec = w.prec) (c2 : Curve)
    (o2 : CachedBezier) (h2 : IsCurve T p.heap c2 o2) (hST : Disjoint S T) (c : Call) : IsCurve T (c.runHeap p).heap c2 o2 := by
  obtain ⟨_, _, h3⟩ := runHeap_ok hc hp c
  have hext : ∀ i, ExtremaList p.curve i → i ∈ S ∧ ∃ l, p.heap[i]? = some (.nums l) := by
    rintro i ⟨r, hr, hi⟩
    have he := hc.ext
    rw [hr] at he
    cases ho : w.obj.ext with
    | none => rw [ho] at he; cases he
    | some e =>
      rw [ho] at he
      cases he with
      | some he =>
        rcases hi with rfl | rfl | rfl
        · exact ⟨he.1.1, _, he.1.2⟩
        · exact ⟨he.2.1.1, _, he.2.1.2⟩
        · exact ⟨he.2.2.1.1, _, he.2.2.1.2⟩
  refine h2.mono (fun _ hi => hi) h2.notOwn ?_
  rintro i hi x hx
  rw [h3.same i (lt_of_cell hx), hx]
  intro he
  obtain ⟨hS, l, hl⟩ := hext i he
  rcases hi with hi | rfl
  · exact Set.disjoint_left.mp hST hS hi
  · rw [h2.points] at hl; cases hl

/-- C101: the list that `getLUT` returns is the one it keeps: whatever other code does to it, `getLUT` returns it again as long as it has as many items as
asked for. -/
theorem C101_table (n : Int) (p : Place) (r : Nat) (hr : (Curve.getLUT n p).1 = .ok r) :
    (Curve.getLUT n p).2.curve.lut = r ∧ ∀ (p' : Place) (l : Segment ℝ), p'.curve.lut = r → p'.heap[r]? = some (.pts l) →
      (l.length : Int) = n → Curve.getLUT n p' = (.ok r, p') := by
  refine ⟨?_, fun p' l h1 h2 h3 => ?_⟩
  · revert hr
    unfold Curve.getLUT
    generalize onHeap (loadPts p.curve.lut) p = x
    obtain ⟨a, q⟩ := x
    cases a with
    | error e => intro hr; cases hr
    | ok l =>
      simp only
      split_ifs with h
      · intro hr; cases hr; rfl
      · simp only [onHeap, alloc]
        generalize hx : (do Curve.lutLoop q.heap.length (← loadPts q.curve.points) (n - 1) (List.range (n - 1 + 1).toNat) : Prog ℝ Unit)
          (q.heap ++ [.pts []]) = x
        obtain ⟨a, k⟩ := x
        cases a with
        | error e => intro hr; cases hr
        | ok u => intro hr; cases hr; rfl
  · subst h1
    unfold Curve.getLUT
    simp only [onHeap_read (loadPts_run h2), h3, if_true]

/-! ### Contours -/

private theorem pyGet_error {α : Type} {l : List α} {i : Int} {e : PyErr} (h : pyGet l i = .error e) : e = .indexError := by
  have key : ∀ j : Int, (if j < 0 then .error .indexError
      else match l[j.toNat]? with
        | some x => .ok x
        | none => .error .indexError : Py α) = .error e → e = .indexError := by
    intro j hj
    by_cases h0 : j < 0
    · rw [if_pos h0] at hj; cases hj; rfl
    · rw [if_neg h0] at hj
      cases hx : l[j.toNat]? <;> rw [hx] at hj <;> cases hj
      rfl
  exact key _ h

private theorem build_run (h0 : Heap ℝ) (rs : List Nat) (cs : Contour ℝ) (hrs : List.Forall₂ (IsSegment Set.univ h0) rs cs)
    (h : Heap ℝ) (hp : h0 <+: h) (curves : List Curve) (bs : List Bezier) (bounds : BoundsRectangle ℝ)
    (hcs : List.Forall₂ (fun c b => ∃ o, o.val = b ∧ IsCurve (newSince h0.length) h c o) curves bs) :
    ∃ res h', rs.foldlM (fun (acc : List Curve × BoundsRectangle ℝ) (segment : Nat) => CurveContour.buildStep acc segment) (curves, bounds) h =
        (res, h') ∧ h <+: h' ∧
      match cs.foldlM (fun (acc : List Bezier × BoundsRectangle ℝ) segment => do
          let bezier ← Bezier.new segment
          let r ← Bezier.boundsRectangle bezier.controlPoints
          return (acc.1 ++ [bezier], acc.2.union r)) (bs, bounds) with
      | .error e => res = .error e
      | .ok (bs', bounds') => ∃ curves', res = .ok (curves', bounds') ∧ curves'.map Curve.points = curves.map Curve.points ++ rs ∧
          List.Forall₂ (fun c b => ∃ o, o.val = b ∧ IsCurve (newSince h0.length) h' c o) curves' bs' := by
  induction hrs generalizing h curves bs bounds with
  | nil => exact ⟨_, _, rfl, List.prefix_rfl, curves, rfl, by simp, hcs⟩
  | @cons r s rs cs hs _ ih =>
    rw [List.foldlM_cons, List.foldlM_cons]
    have hs' := prefix_cell hp hs.2
    have hnew := C101_new h r s hs'
    have hpre : h <+: h ++ [Cell.pts []] := ⟨_, rfl⟩
    cases hb : Bezier.new s with
    | error e =>
      rw [hb] at hnew
      refine ⟨_, _, bind_error _ _ _ _ _ (bind_error _ _ _ _ _ hnew), hpre, rfl⟩
    | ok b =>
      rw [hb] at hnew
      obtain ⟨c, e1, hcp, hc⟩ := hnew
      have hag := Curve.boundsRectangle_agrees (p := ⟨c, 0, h ++ [.pts []]⟩) (w := ⟨{ val := b }, 0⟩) hc rfl
      obtain ⟨hval, hco⟩ := (Coherent.after b 0 []).boundsRectangle
      have hafter : after b 0 [] = ⟨{ val := b }, 0⟩ := rfl
      rw [hafter] at hval hco
      simp only [ok_bind]
      rw [← hval]
      generalize hx : Curve.boundsRectangle ⟨c, 0, h ++ [.pts []]⟩ = x at hag
      generalize World.boundsRectangle ⟨{ val := b }, 0⟩ = y at hag hco ⊢
      obtain ⟨a, q⟩ := x
      obtain ⟨v, w⟩ := y
      have hq : h <+: q.heap := by
        refine hpre.trans (prefix_of_get fun i hi => hag.2.2.1.same i hi ?_)
        rintro ⟨r', hr', _⟩
        have := hc.ext
        rw [hr'] at this
        cases this
      cases v with
      | error e =>
        have ha : a = .error e := hag.2.2.2
        subst ha
        refine ⟨.error e, q.heap, ?_, hq, rfl⟩
        refine bind_error _ _ _ _ _ ?_
        unfold CurveContour.buildStep
        rw [bind_ok _ _ _ _ _ e1]
        refine bind_error _ _ _ _ _ ?_
        simp only [CurveContour.boundsOf, hx]
      | ok v =>
        obtain ⟨_, rfl, rfl⟩ := hag.2.2.2
        rename_i v
        have hstep : CurveContour.buildStep (curves, bounds) r h = (.ok (curves ++ [q.curve], bounds.union v), q.heap) := by
          unfold CurveContour.buildStep
          rw [bind_ok _ _ _ _ _ e1, bind_ok _ _ _ q.heap (v, q.curve) (by simp only [CurveContour.boundsOf, hx])]
          rfl
        have hqc : IsCurve (newSince h0.length) q.heap q.curve w.obj := by
          refine hag.1.mono ?_ ?_ (fun _ _ _ hx => hx)
          · rintro i (hi | hi) <;> simp only [newSince, Set.mem_ofPred_eq, List.length_append] at hi ⊢ <;> have := hp.length_le <;> omega
          · have h1 : q.curve.points = r := hag.2.2.1.points.trans hcp
            have h2 := lt_of_cell hs.2
            rw [h1]
            simp only [newSince, Set.mem_ofPred_eq]
            omega
        have hcs' : List.Forall₂ (fun c b => ∃ o, o.val = b ∧ IsCurve (newSince h0.length) q.heap c o) (curves ++ [q.curve]) (bs ++ [b]) := by
          refine List.rel_append (hcs.imp ?_) (.cons ⟨w.obj, hco.val, hqc⟩ .nil)
          rintro c' b' ⟨o, ho, hc'⟩
          exact ⟨o, ho, hc'.mono (fun _ hi => hi) hc'.notOwn (fun _ _ _ => prefix_cell hq)⟩
        obtain ⟨res, h', e2, p2, q2⟩ := ih q.heap (hp.trans hq) (curves ++ [q.curve]) (bs ++ [b]) (bounds.union v) hcs'
        refine ⟨res, h', ?_, hq.trans p2, ?_⟩
        · rw [bind_ok _ _ _ _ _ hstep, e2]
        · simp only [ok_bind, pure_eq_ok] at q2 ⊢
          generalize List.foldlM (m := Py) _ _ cs = z at q2 ⊢
          cases z with
          | error e => exact q2
          | ok z =>
            obtain ⟨curves', r1, r2, r3⟩ := q2
            refine ⟨curves', r1, ?_, r3⟩
            have hqr : q.curve.points = r := hag.2.2.1.points.trans hcp
            rw [r2, List.map_append]
            simp [hqr]

/-- C101: a contour built from a list of segments keeps those segment lists, but not the list that contains them; it changes no list. It is the contour of the model
with lists as values, and raises what that raises. -/
theorem C101_contour (h : Heap ℝ) (r : Nat) (rs : List Nat) (cs : Contour ℝ) (hr : h[r]? = some (.refs rs))
    (hrs : List.Forall₂ (IsSegment Set.univ h) rs cs) :
    ∃ res h', CurveContour.new r h = (res, h') ∧ h <+: h' ∧
      match BContour.new cs with
      | .error e => res = .error e
      | .ok bc => ∃ c, res = .ok c ∧ c.curves.map Curve.points = rs ∧ c.bounds = bc.bounds ∧ c.start = bc.start ∧ c.stop = bc.stop ∧
          IsSegment (newSince h.length) h' c.lut [] ∧
          List.Forall₂ (fun c b => ∃ o, o.val = b ∧ IsCurve (newSince h.length) h' c o) c.curves bc.beziers := by
  obtain ⟨res, h', e1, p1, q1⟩ := build_run h rs cs hrs h List.prefix_rfl [] [] (BoundsRectangle.new []) .nil
  unfold CurveContour.new BContour.new BContour.build
  rw [bind_ok _ _ _ _ _ (loadRefs_run hr)]
  generalize List.foldlM (m := Py) _ _ cs = z at q1 ⊢
  cases z with
  | error e =>
    simp only at q1
    subst q1
    exact ⟨_, _, bind_error _ _ _ _ _ e1, p1, rfl⟩
  | ok z =>
    obtain ⟨bs, bounds⟩ := z
    obtain ⟨curves, rfl, r2, r3⟩ := q1
    rw [bind_ok _ _ _ _ _ e1, ok_bind]
    simp only
    rw [bind_ok _ _ _ _ _ (alloc_run _ _)]
    have hpre : h' <+: h' ++ [Cell.pts []] := ⟨_, rfl⟩
    have hend : ∀ i j : Int, ∃ res, CurveContour.item curves i j (h' ++ [Cell.pts []]) = (res, h' ++ [Cell.pts []]) ∧
        res = (do pyGet (← pyGet bs i).controlPoints j) := by
      intro i j
      unfold CurveContour.item
      cases hb : pyGet bs i with
      | error e =>
        refine ⟨.error e, bind_error _ _ _ _ _ ?_, rfl⟩
        rw [ofPy_run]
        cases hc : pyGet curves i with
        | error e' => rw [pyGet_error hb, pyGet_error hc]
        | ok c =>
          obtain ⟨b, hb', _⟩ := forall₂_pyGet r3.flip i c hc
          rw [hb] at hb'
          cases hb'
      | ok b =>
        obtain ⟨c, hc, o, rfl, ho⟩ := forall₂_pyGet r3 i b hb
        refine ⟨_, ?_, rfl⟩
        rw [bind_ok _ _ _ _ _ (by rw [ofPy_run, hc]), bind_ok _ _ _ _ _ (loadPts_run (prefix_cell hpre ho.points)), ofPy_run]
        rfl
    obtain ⟨r0, e0, hr0⟩ := hend 0 0
    obtain ⟨rn, en, hrn⟩ := hend (-1) (-1)
    have hm : (do
        let start ← BContour.bezierStart (← pyGet bs 0)
        let stop ← BContour.bezierEnd (← pyGet bs (-1))
        return { beziers := bs, bounds := bounds, lut := [], start := start, stop := stop } : Py BContour) = (do
        let start ← r0
        let stop ← rn
        return { beziers := bs, bounds := bounds, lut := [], start := start, stop := stop }) := by
      rw [hr0, hrn]
      unfold BContour.bezierStart BContour.bezierEnd
      simp only [bind_assoc]
    rw [hm]
    cases r0 with
    | error e => exact ⟨_, _, bind_error _ _ _ _ _ e0, p1.trans hpre, rfl⟩
    | ok start =>
      rw [bind_ok _ _ _ _ _ e0]
      cases rn with
      | error e => exact ⟨_, _, bind_error _ _ _ _ _ en, p1.trans hpre, rfl⟩
      | ok stop =>
        rw [bind_ok _ _ _ _ _ en]
        refine ⟨_, _, rfl, p1.trans hpre, _, rfl, by simpa using r2, rfl, rfl, rfl, ⟨?_, by simp⟩, r3.imp ?_⟩
        · have := p1.length_le
          simp only [newSince, Set.mem_ofPred_eq]
          omega
        · rintro c b ⟨o, ho, hc⟩
          exact ⟨o, ho, hc.mono (fun _ hi => hi) hc.notOwn (fun _ _ _ => prefix_cell hpre)⟩

/-- C101: `pathFromSegments` makes a contour that shares the lists of control points with the curves it is given. -/
theorem C101_pathFromSegments (h : Heap ℝ) (segments : List Curve) (cs : Contour ℝ)
    (hs : List.Forall₂ (fun c s => h[Curve.points c]? = some (.pts s)) segments cs) :
    ∃ res h', CurveContour.pathFromSegments segments h = (res, h') ∧ h <+: h' ∧
      match BContour.new cs with
      | .error e => res = .error e
      | .ok bc => ∃ c, res = .ok c ∧ c.curves.map Curve.points = segments.map Curve.points ∧ c.bounds = bc.bounds ∧ c.start = bc.start ∧
          c.stop = bc.stop := by
  have hpre : h <+: h ++ [Cell.refs (segments.map Curve.points)] := ⟨_, rfl⟩
  have hrs : List.Forall₂ (IsSegment Set.univ (h ++ [Cell.refs (segments.map Curve.points)])) (segments.map Curve.points) cs := by
    rw [List.forall₂_map_left_iff]
    exact hs.imp fun _ _ hx => ⟨trivial, prefix_cell hpre hx⟩
  obtain ⟨res, h', e, p, q⟩ := C101_contour _ h.length _ cs (by simp) hrs
  refine ⟨res, h', ?_, hpre.trans p, ?_⟩
  · unfold CurveContour.pathFromSegments
    rw [bind_ok _ _ _ _ _ (alloc_run _ _), e]
  · cases hb : BContour.new cs with
    | error e => rw [hb] at q; exact q
    | ok bc =>
      rw [hb] at q
      obtain ⟨c, h1, h2, h3, h4, h5, _⟩ := q
      exact ⟨c, h1, h2, h3, h4, h5⟩

end Heap

/-! ### What the methods return when the control points are changed -/

/-- What calls leave alone: the attributes, and every cache that is filled (the lists of extrema may be completed by 0 and 1); the look-up table if `L` holds. -/
private structure Stays (L : Prop) (w w' : World) : Prop where
  val : w'.obj.val = w.obj.val
  dc : ∀ d ds, w.obj.dc = some (d :: ds) → w'.obj.dc = some (d :: ds)
  ext : ∀ e, w.obj.ext = some e → ∃ e', w'.obj.ext = some e' ∧ (e'.x = e.x ∨ e'.x = addEnds e.x) ∧ (e'.y = e.y ∨ e'.y = addEnds e.y) ∧
    (e'.all = e.all ∨ e'.all = addEnds e.all)
  len : ∀ l, l ≠ 0 → w.obj.len = some l → w'.obj.len = some l
  box : ∀ b, w.obj.box = some b → w'.obj.box = some b
  rect : ∀ r, w.obj.rect = some r → w'.obj.rect = some r
  lut : L → w'.obj.lut = w.obj.lut

namespace Stays
variable {L : Prop} {w w' w'' : World}

private theorem refl (L : Prop) (w : World) : Stays L w w :=
  ⟨rfl, fun _ _ h => h, fun e h => ⟨e, h, .inl rfl, .inl rfl, .inl rfl⟩, fun _ _ h => h, fun _ h => h, fun _ h => h, fun _ => rfl⟩

private theorem comp {l l0 l1 : List ℝ} (h1 : l1 = l0 ∨ l1 = addEnds l0) (h2 : l = l1 ∨ l = addEnds l1) : l = l0 ∨ l = addEnds l0 := by
  rcases h1 with rfl | rfl
  · exact h2
  · rcases h2 with rfl | rfl
    · exact .inr rfl
    · exact .inr (addEnds_addEnds _)

private theorem trans (h1 : Stays L w w') (h2 : Stays L w' w'') : Stays L w w'' := by
  refine ⟨h2.val.trans h1.val, fun d ds h => h2.dc d ds (h1.dc d ds h), fun e h => ?_, fun l hl h => h2.len l hl (h1.len l hl h),
    fun b h => h2.box b (h1.box b h), fun r h => h2.rect r (h1.rect r h), fun hL => (h2.lut hL).trans (h1.lut hL)⟩
  obtain ⟨e1, a1, a2, a3, a4⟩ := h1.ext e h
  obtain ⟨e2, b1, b2, b3, b4⟩ := h2.ext e1 a1
  exact ⟨e2, b1, comp a2 b2, comp a3 b3, comp a4 b4⟩

private theorem dcPoints (L : Prop) (w : World) : Stays L w (World.dcPoints w).2 := by
  unfold World.dcPoints
  split
  · exact refl L w
  · rename_i hx
    exact ⟨rfl, fun d ds h => (hx d ds h).elim, fun e h => ⟨e, h, .inl rfl, .inl rfl, .inl rfl⟩, fun _ _ h => h, fun _ h => h, fun _ h => h, fun _ => rfl⟩

private theorem derivative (L : Prop) (t : ℝ) (w : World) : Stays L w (World.derivative t w).2 := by
  have h := dcPoints L w
  unfold World.derivative
  generalize World.dcPoints w = x at h
  obtain ⟨a, w'⟩ := x
  cases a <;> exact h

private theorem normal (L : Prop) (t : ℝ) (w : World) : Stays L w (World.normal t w).2 := by
  have h := derivative L t w
  unfold World.normal
  generalize World.derivative t w = x at h
  obtain ⟨a, w'⟩ := x
  cases a <;> exact h

private theorem extrema (L : Prop) (w : World) : Stays L w (World.extrema w).2 ∧
    ∀ e, (World.extrema w).1 = .ok e → (World.extrema w).2.obj.ext = some e := by
  unfold World.extrema
  cases he : w.obj.ext with
  | some e => exact ⟨refl L w, fun e h => by cases h; exact he⟩
  | none =>
    have h := dcPoints L w
    simp only
    generalize World.dcPoints w = x at h
    obtain ⟨a, w'⟩ := x
    cases a with
    | error e => exact ⟨h, fun e h => by cases h⟩
    | ok dc =>
      simp only
      cases extremaOf (order w'.obj.pts) dc with
      | error e => exact ⟨h, fun e h => by cases h⟩
      | ok ex => exact ⟨⟨h.val, h.dc, fun e h => (by rw [he] at h; cases h), h.len, h.box, h.rect, h.lut⟩, fun e h => by cases h; rfl⟩

private theorem bbox (L : Prop) (w : World) : Stays L w (World.bbox w).2 ∧
    ∀ b, (World.bbox w).1 = .ok b → (World.bbox w).2.obj.box = some b := by
  unfold World.bbox
  cases hb : w.obj.box with
  | some b => exact ⟨refl L w, fun b h => by cases h; exact hb⟩
  | none =>
    obtain ⟨h, he⟩ := extrema L w
    simp only
    generalize World.extrema w = x at h he
    obtain ⟨a, w'⟩ := x
    cases a with
    | error e => exact ⟨h, fun e h => by cases h⟩
    | ok ex =>
      have he := he ex rfl
      simp only at he h
      have k : ∀ (ex' : Extrema), (ex'.x = ex.x ∨ ex'.x = addEnds ex.x) → (ex'.y = ex.y ∨ ex'.y = addEnds ex.y) →
          (ex'.all = ex.all ∨ ex'.all = addEnds ex.all) → ∀ box, (∀ b, w'.obj.box = some b → box = some b) →
          Stays L w { w' with obj := { w'.obj with ext := some ex', box := box } } := by
        intro ex' h1 h2 h3 box h4
        refine h.trans ⟨rfl, fun _ _ h => h, fun e h => ?_, fun _ _ h => h, h4, fun _ h => h, fun _ => rfl⟩
        rw [he] at h
        cases h
        exact ⟨ex', rfl, h1, h2, h3⟩
      simp only [getminmax]
      cases minmaxLoop w'.obj.pts 0 (addEnds ex.x) with
      | error e => exact ⟨k ⟨addEnds ex.x, ex.y, ex.all⟩ (.inr rfl) (.inl rfl) (.inl rfl) _ (fun _ h => h), fun b h => by cases h⟩
      | ok mx =>
        simp only
        have hpts : ({ w' with obj := { w'.obj with ext := some { ex with x := addEnds ex.x } } } : World).obj.pts = w'.obj.pts := rfl
        rw [hpts]
        cases minmaxLoop w'.obj.pts 1 (addEnds ex.y) with
        | error e => exact ⟨k ⟨addEnds ex.x, addEnds ex.y, ex.all⟩ (.inr rfl) (.inr rfl) (.inl rfl) _ (fun _ h => h), fun b h => by cases h⟩
        | ok my =>
          refine ⟨⟨h.val, h.dc, (k ⟨addEnds ex.x, addEnds ex.y, ex.all⟩ (.inr rfl) (.inr rfl) (.inl rfl) _ (fun _ h => h)).ext, h.len,
            fun b h => (by rw [hb] at h; cases h), h.rect, h.lut⟩, fun b h => by cases h; rfl⟩

private theorem boundsRectangle (L : Prop) (w : World) : Stays L w (World.boundsRectangle w).2 ∧
    ∀ b, (World.boundsRectangle w).1 = .ok b → (World.boundsRectangle w).2.obj.rect = some b := by
  unfold World.boundsRectangle
  cases hb : w.obj.rect with
  | some b => exact ⟨refl L w, fun b h => by cases h; exact hb⟩
  | none =>
    obtain ⟨h, _⟩ := bbox L w
    simp only
    generalize World.bbox w = x at h
    obtain ⟨a, w'⟩ := x
    cases a with
    | error e => exact ⟨h, fun e h => by cases h⟩
    | ok b =>
      obtain ⟨⟨_, _⟩, _, _⟩ := b
      exact ⟨⟨h.val, h.dc, h.ext, h.len, h.box, fun b h => (by rw [hb] at h; cases h), h.lut⟩, fun b h => by cases h; rfl⟩

private theorem lengthLoop (L : Prop) (is : List Nat) : ∀ (sum : ℝ) (w : World), Stays L w (World.lengthLoop is sum w).2 := by
  induction is with
  | nil => intro sum w; exact refl L w
  | cons i is ih =>
    intro sum w
    rw [World.lengthLoop]
    cases pyGet butils.tValues (i : Int) with
    | error e => exact refl L w
    | ok tv =>
      cases pyGet butils.cValues (i : Int) with
      | error e => exact refl L w
      | ok cv =>
        have h := derivative L ((tv : ℝ) * (1 / 2) + 1 / 2) w
        simp only
        generalize World.derivative _ w = x at h
        obtain ⟨a, w'⟩ := x
        cases a with
        | error e => exact h
        | ok d => exact h.trans (ih _ _)

private theorem length (L : Prop) (w : World) : Stays L w (World.length w).2 ∧
    ∀ l, (World.length w).1 = .ok l → (World.length w).2.obj.len = some l := by
  have h := lengthLoop L (List.range butils.tValues.length) 0 { w with prec := w.prec + 2 }
  unfold World.length
  cases hb : w.obj.len with
  | none =>
    simp only
    generalize World.lengthLoop _ 0 _ = x at h
    obtain ⟨a, w'⟩ := x
    cases a with
    | error e => exact ⟨⟨h.val, h.dc, h.ext, h.len, h.box, h.rect, h.lut⟩, fun e h => by cases h⟩
    | ok b => exact ⟨⟨h.val, h.dc, h.ext, fun l _ h => (by rw [hb] at h; cases h), h.box, h.rect, h.lut⟩, fun b h => by cases h; rfl⟩
  | some l =>
    simp only
    by_cases hl : l = 0
    · simp only [hl, if_true]
      generalize World.lengthLoop _ 0 _ = x at h
      obtain ⟨a, w'⟩ := x
      cases a with
      | error e => exact ⟨⟨h.val, h.dc, h.ext, h.len, h.box, h.rect, h.lut⟩, fun e h => by cases h⟩
      | ok b => exact ⟨⟨h.val, h.dc, h.ext, fun l' h1 h2 => (by rw [hb, hl] at h2; cases h2; exact (h1 rfl).elim), h.box, h.rect, h.lut⟩, fun b h => by cases h; rfl⟩
    · simp only [hl, if_false]
      exact ⟨refl L w, fun b h => by cases h; exact hb⟩

private theorem reduce (L : Prop) (w : World) : Stays L w (World.reduce w).2 := by
  obtain ⟨h, he⟩ := extrema L w
  unfold World.reduce
  generalize World.extrema w = x at h he
  obtain ⟨a, w'⟩ := x
  cases a with
  | error e => exact h
  | ok ex =>
    have he := he ex rfl
    simp only at he h
    refine h.trans ⟨rfl, fun _ _ h => h, fun e h => ?_, fun _ _ h => h, fun _ h => h, fun _ h => h, fun _ => rfl⟩
    rw [he] at h
    cases h
    exact ⟨_, rfl, .inl rfl, .inl rfl, .inr rfl⟩

private theorem overlaps (L : Prop) (r : BoundsRectangle ℝ) (w : World) : Stays L w (World.overlaps r w).2 := by
  obtain ⟨h, _⟩ := boundsRectangle L w
  unfold World.overlaps
  generalize World.boundsRectangle w = x at h
  obtain ⟨a, w'⟩ := x
  cases a <;> exact h

private theorem getLUT (n : Int) (w : World) : Stays ((w.obj.lut.length : Int) = n) w (World.getLUT n w).2 := by
  unfold World.getLUT
  split_ifs with h
  · exact refl _ w
  · cases lutOf w.obj.pts n <;>
      exact ⟨rfl, fun _ _ h => h, fun e h => ⟨e, h, .inl rfl, .inl rfl, .inl rfl⟩, fun _ _ h => h, fun _ h => h, fun _ h => h, fun h' => (h h').elim⟩

/-- No call, with the possible exception of `getLUT`, changes what is there. -/
private theorem call (c : Call) (w : World) : Stays (∀ n, c = .getLUT n → (w.obj.lut.length : Int) = n) w (c.run w) := by
  cases c with
  | dcPoints => exact dcPoints _ w
  | derivative t => exact derivative _ t w
  | normal t => exact normal _ t w
  | extrema => exact (extrema _ w).1
  | bbox => exact (bbox _ w).1
  | boundsRectangle => exact (boundsRectangle _ w).1
  | getLUT n =>
    have h := getLUT n w
    exact ⟨h.val, h.dc, h.ext, h.len, h.box, h.rect, fun hL => h.lut (hL n rfl)⟩
  | length => exact (length _ w).1
  | reduce => exact reduce _ w
  | overlaps r => exact overlaps _ r w

end Stays

/-- The same for a sequence of events, apart from the control points. -/
private theorem events_stay (es : List Event) : ∀ w : World,
    (events w es).obj.val = { w.obj.val with controlPoints := (events w es).obj.pts } ∧
    Stays (∀ n, .call (.getLUT n) ∈ es → (w.obj.lut.length : Int) = n) w (withPoints (events w es) w.obj.pts) := by
  induction es with
  | nil => intro w; exact ⟨rfl, Stays.refl _ w⟩
  | cons e es ih =>
    intro w
    obtain ⟨h1, h2⟩ := ih (e.run w)
    have hev : events w (e :: es) = events (e.run w) es := rfl
    rw [hev]
    cases e with
    | points ps =>
      refine ⟨h1, ?_⟩
      have : Stays (∀ n, .call (.getLUT n) ∈ Event.points ps :: es → (w.obj.lut.length : Int) = n) w (withPoints (events (withPoints w ps) es) w.obj.pts) := by
        refine ⟨?_, h2.dc, h2.ext, h2.len, h2.box, h2.rect, fun hL => h2.lut fun n hn => hL n (by simp [hn])⟩
        exact congrArg (fun v : Bezier => { v with controlPoints := w.obj.pts }) h1
      exact this
    | call c =>
      have hc := Stays.call c w
      have hval : (c.run w).obj.val = w.obj.val := hc.val
      refine ⟨?_, ?_⟩
      · rw [h1]; simp only [Event.run]; rw [hval]
      · have hL : (∀ n, .call (.getLUT n) ∈ Event.call c :: es → (w.obj.lut.length : Int) = n) →
            (∀ n, c = .getLUT n → (w.obj.lut.length : Int) = n) := fun h n hn => h n (by simp [hn])
        have hpts : (Event.run (.call c) w).obj.pts = w.obj.pts := by
          simp only [Event.run, CachedBezier.pts]; rw [hval]
        rw [hpts] at h2
        refine ⟨h2.val.trans hval, fun d ds h => h2.dc d ds (hc.dc d ds h), fun e h => ?_, fun l hl h => h2.len l hl (hc.len l hl h),
          fun b h => h2.box b (hc.box b h), fun r h => h2.rect r (hc.rect r h), fun hL' => ?_⟩
        · obtain ⟨e1, a1, a2, a3, a4⟩ := hc.ext e h
          obtain ⟨e2, b1, b2, b3, b4⟩ := h2.ext e1 a1
          exact ⟨e2, b1, Stays.comp a2 b2, Stays.comp a3 b3, Stays.comp a4 b4⟩
        · have k := hc.lut (hL hL')
          refine (h2.lut fun n hn => ?_).trans k
          simp only [Event.run]
          rw [k]
          exact hL' n (by simp [hn])

/-- C101: the attributes computed by the constructor (`direction`, `linear`, `clockwise`, and the parameters of the part) never change again. -/
theorem C101_attributes (w : World) (es : List Event) :
    (events w es).obj.val = { w.obj.val with controlPoints := (events w es).obj.pts } := (events_stay es w).1

/-- C101: a value that has once been returned is returned ever after, whatever happens to the control points: the rectangles, the length if it is not zero, the
derivative points; a look-up table as long as no table of another size is asked for. -/
theorem C101_stale (w : World) (es : List Event) :
    (∀ r, (World.boundsRectangle w).1 = .ok r → (World.boundsRectangle (events (World.boundsRectangle w).2 es)).1 = .ok r) ∧
    (∀ b, (World.bbox w).1 = .ok b → (World.bbox (events (World.bbox w).2 es)).1 = .ok b) ∧
    (∀ l, l ≠ 0 → (World.length w).1 = .ok l → (World.length (events (World.length w).2 es)).1 = .ok l) ∧
    (∀ d, d ≠ [] → (World.dcPoints w).1 = .ok d → (World.dcPoints (events (World.dcPoints w).2 es)).1 = .ok d) ∧
    (∀ n l, (l.length : Int) = n → (World.getLUT n w).1 = .ok l → (∀ m, .call (.getLUT m) ∈ es → m = n) →
      (World.getLUT n (events (World.getLUT n w).2 es)).1 = .ok l) := by
  refine ⟨fun r hr => ?_, fun b hb => ?_, fun l hl h => ?_, fun d hd h => ?_, fun n l hn h hm => ?_⟩
  · have h := (events_stay es (World.boundsRectangle w).2).2.rect r ((Stays.boundsRectangle True w).2 r hr)
    have h : (events (World.boundsRectangle w).2 es).obj.rect = some r := h
    unfold World.boundsRectangle
    unfold World.boundsRectangle at h
    rw [h]
  · have h := (events_stay es (World.bbox w).2).2.box b ((Stays.bbox True w).2 b hb)
    have h : (events (World.bbox w).2 es).obj.box = some b := h
    generalize events (World.bbox w).2 es = w' at h
    unfold World.bbox
    rw [h]
  · have h := (events_stay es (World.length w).2).2.len l hl ((Stays.length True w).2 l h)
    have h : (events (World.length w).2 es).obj.len = some l := h
    generalize events (World.length w).2 es = w' at h
    unfold World.length
    simp only [h, hl, if_false]
  · obtain ⟨x, xs, rfl⟩ := List.exists_cons_of_ne_nil hd
    have h1 : (World.dcPoints w).2.obj.dc = some (x :: xs) := by
      revert h
      unfold World.dcPoints
      split
      · rename_i hx; intro h; cases h; exact hx
      · intro h; simp only; rw [Except.ok.inj h]
    have h := (events_stay es (World.dcPoints w).2).2.dc x xs h1
    have h : (events (World.dcPoints w).2 es).obj.dc = some (x :: xs) := h
    generalize events (World.dcPoints w).2 es = w' at h
    unfold World.dcPoints
    rw [h]
  · have h1 : (World.getLUT n w).2.obj.lut = l := by
      revert h
      unfold World.getLUT
      split_ifs with h0
      · intro h; cases h; rfl
      · cases lutOf w.obj.pts n with
        | error e => intro h; cases h
        | ok l' => intro h; cases h; rfl
    have h := (events_stay es (World.getLUT n w).2).2.lut fun m hm' => by rw [h1, hn, hm m hm']
    have h : (events (World.getLUT n w).2 es).obj.lut = l := h.trans h1
    generalize events (World.getLUT n w).2 es = w' at h
    unfold World.getLUT
    rw [if_pos (by rw [h, hn]), h]

/-- C101: changes of the control points before the first call are as if the list had held the last points from the start, for all values that are computed on
demand. -/
theorem C101_unread (b : Bezier) (prec : Int) (pss : List (Segment ℝ)) (ps : Segment ℝ) (calls : List Call) :
    events ⟨{ val := b }, prec⟩ ((pss ++ [ps]).map .points ++ calls.map .call) = after { b with controlPoints := ps } prec calls := by
  have h1 : ∀ (pss : List (Segment ℝ)) (b : Bezier), events ⟨{ val := b }, prec⟩ ((pss ++ [ps]).map .points) =
      ⟨{ val := { b with controlPoints := ps } }, prec⟩ := by
    intro pss
    induction pss with
    | nil => intro b; rfl
    | cons x xs ih => intro b; exact ih { b with controlPoints := x }
  have h2 : ∀ (calls : List Call) (w : World), events w (calls.map .call) = calls.foldl (fun w c => c.run w) w := by
    intro calls
    induction calls with
    | nil => intro w; rfl
    | cons c cs ih => intro w; exact ih _
  have h3 : ∀ (xs ys : List Event) (w : World), events w (xs ++ ys) = events (events w xs) ys := by
    intro xs ys w
    exact List.foldl_append
  rw [h3, h1, h2]
  rfl

/-- A concrete case of two curves on one list: their own lists are different. -/
example (h : Heap ℝ) (r : Nat) (ps : Segment ℝ) (hr : h[r]? = some (.pts ps)) (h2 : 2 ≤ ps.length) : ∃ c1 c2 b h1 h2,
    Heap.Curve.new r h = (.ok c1, h1) ∧ Heap.Curve.new r h1 = (.ok c2, h2) ∧ c1.points = c2.points ∧
    IsCurve (created h h1) h2 c1 { val := b } ∧ IsCurve (created h1 h2) h2 c2 { val := b } ∧ Disjoint (created h h1) (created h1 h2) := by
  obtain ⟨b, hb, -⟩ := Bezier.new_ok ps h2
  have k1 := Heap.C101_new h r ps hr
  rw [hb] at k1
  obtain ⟨c1, e1, p1, i1⟩ := k1
  have k2 := Heap.C101_new (h ++ [.pts []]) r ps (Heap.prefix_cell ⟨_, rfl⟩ hr)
  rw [hb] at k2
  obtain ⟨c2, e2, p2, i2⟩ := k2
  refine ⟨c1, c2, b, _, _, e1, e2, p1.trans p2.symm, ?_, ?_, ?_⟩
  · exact (Heap.C101_history _ _ _ (.other _ _ _ (h ++ [.pts []] ++ [.pts []]) (.new h r ps b c1 _ 0 hr hb e1)
      (fun i hi => List.getElem?_append_left hi.2) (List.getElem?_append_left (Heap.lt_of_cell i1.points)) (by simp))).1
  · exact (Heap.C101_history _ _ _ (.new _ r ps b c2 _ 0 (Heap.prefix_cell ⟨_, rfl⟩ hr) hb e2)).1
  · rw [Set.disjoint_left]
    rintro i hi ⟨hj, _⟩
    exact absurd hi.2 (Nat.not_lt.mpr hj)

/-- C101: a line from (0, 0) to (1, 1) is created and asked for its bounds, and then other code moves the end in the caller's list to (5, 5): the curve ends there, but its
bounds are still the old ones. -/
theorem C101_stale_counterexample : ∃ S p w r, CurveHistory S p w ∧ (Heap.Curve.stop p).1 = .ok (5, 5) ∧
    (Heap.Curve.boundsRectangle p).1 = .ok r ∧ r.enclosesPoint (5, 5) = false ∧
    ∃ r', boundsRectangle w.obj.pts = .ok r' ∧ r'.enclosesPoint (5, 5) = true := by
  obtain ⟨b, hb, -⟩ := Bezier.new_ok [((0:ℝ), 0), (1, 1)] (by simp)
  have hpts := (Bezier.new_controlPoints hb).1
  have h0 := Heap.C101_new [.pts [((0:ℝ), 0), (1, 1)]] 0 _ rfl
  rw [hb] at h0
  obtain ⟨c, e1, e2, _⟩ := h0
  have k0 := CurveHistory.new [.pts [((0:ℝ), 0), (1, 1)]] 0 _ b c _ 50 rfl hb e1
  have k1 := CurveHistory.points _ _ _ [((0:ℝ), 0), (5, 5)] (CurveHistory.call _ _ _ .boundsRectangle k0)
  obtain ⟨hc, hp⟩ := Heap.C101_history _ _ _ k1
  obtain ⟨r, hr, _, _, ⟨t, ht0, ht1, ht⟩, _⟩ := C37_tight [((0:ℝ), 0), (1, 1)] (by simp) (by simp [InDesignSpace]; norm_num)
  have hw : (World.boundsRectangle ⟨{ val := b }, 50⟩).1 = .ok r := by
    rw [← hr, ← hpts]
    exact (C38_uncached b 50 []).2.2.2.2.1
  have hst := (C101_stale ⟨{ val := b }, 50⟩ [.points [((0:ℝ), 0), (5, 5)]]).1 r hw
  have hag := (Heap.C101_methods _ _ _ hc hp).2.2.2.2.2.1
  obtain ⟨r', hr', _, hr2⟩ := boundsRectangle_ok [((0:ℝ), 0), (5, 5)] (by simp)
  refine ⟨_, _, _, r, k1, ?_, ?_, ?_, r', hr', ?_⟩
  · rw [(Heap.C101_current _ _ _ hc).2.2.1]
    rfl
  · have hst : (World.boundsRectangle (withPoints (Call.run .boundsRectangle ⟨{ val := b }, 50⟩) [((0:ℝ), 0), (5, 5)])).1 = .ok r := hst
    have := hag.2.2.2
    rw [hst] at this
    obtain ⟨_, h, rfl⟩ := this
    exact h
  · rw [Bool.eq_false_iff]
    intro h
    rw [BoundsRectangle.enclosesPoint_iff] at h
    norm_num [curve, bernList, bernSum, bern, Finset.sum_range_succ] at ht
    have h5 : (5:ℝ) ≤ r.right := h.1.2
    linarith only [h5, ht, ht1]
  · have := hr2 (by simp) 1 (by norm_num) le_rfl
    norm_num [curve, bernList, bernSum, bern, Finset.sum_range_succ] at this
    exact this

end PathLib
