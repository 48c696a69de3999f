import Verif.Model.SegmentPen
import Verif.Spec.Contour
import Verif.Props.Transform

set_option linter.unusedSectionVars false
set_option linter.unusedSimpArgs false

/-!
# Property theorems about PathLib/SegmentPen.py (C57-C59)
-/

namespace PathLib
open Spec

variable {K : Type} [Field K] [DecidableEq K] [CharZero K]

namespace SegmentPen

/-! ## C58 -/

private theorem half_mul (x y : K) : 1 / 2 * (x + y) = (x + y) / 2 := by ring

private theorem qLoop_spec (rest : List (Pt K)) : ∀ (pre : List (Pt K)) (o e sp : Pt K),
    ∃ ps last, qLoop (pre ++ (o :: rest) ++ [e]) sp (List.range' pre.length rest.length) = .ok (ps, last) ∧
      ps ++ [[last, (o :: rest).getLast (by simp), e]] = spline sp (o :: rest) e := by
  induction rest with
  | nil => intro pre o e sp; exact ⟨[], sp, rfl, rfl⟩
  | cons o' rest ih =>
    intro pre o e sp
    obtain ⟨ps, last, h1, h2⟩ := ih (pre ++ [o]) o' e (middle o o')
    refine ⟨[sp, o, middle o o'] :: ps, last, ?_, ?_⟩
    · have e1 : pre ++ (o :: o' :: rest) ++ [e] = (pre ++ [o]) ++ (o' :: rest) ++ [e] := by simp
      have g1 : pyGet (pre ++ (o :: o' :: rest) ++ [e]) (pre.length : Nat) = .ok o := by
        rw [pyGet_nat]; simp
      have g2 : pyGet (pre ++ (o :: o' :: rest) ++ [e]) ((pre.length + 1 : Nat) : Int) = .ok o' := by
        rw [pyGet_nat, e1]; simp
      rw [List.length_cons, List.range'_succ, qLoop]
      simp only [g1, g2, ok_bind, half_mul]
      rw [show List.range' (pre.length + 1) rest.length = List.range' (pre ++ [o]).length rest.length by simp, e1]
      change (qLoop _ (middle o o') _ >>= _) = _
      rw [h1]
      rfl
    · rw [spline, ← h2]
      simp [List.getLast_cons]

private theorem qSegments_spec (start e : Pt K) (offs : List (Pt K)) :
    qSegments (start :: offs ++ [e]) = .ok (spline start offs e) := by
  match offs with
  | [] => rfl
  | [o] => rfl
  | o :: o' :: rest =>
    unfold qSegments
    rw [if_neg (by simp)]
    obtain ⟨ps, last, h1, h2⟩ := qLoop_spec (o' :: rest) [start] o e start
    have hl : (start :: (o :: o' :: rest) ++ [e]).length - 3 = (o' :: rest).length := by simp
    rw [hl]
    simp only [List.cons_append, pyGet_zero_cons, ok_bind]
    have h1' : qLoop (start :: o :: o' :: (rest ++ [e])) start (List.range' 1 (o' :: rest).length) = .ok (ps, last) := h1
    simp only [h1', ok_bind]
    rw [pyGet_neg_one _ (by simp)]
    have g : pyGet (start :: o :: o' :: (rest ++ [e])) (-2) = .ok ((o :: o' :: rest).getLast (by simp)) := by
      unfold pyGet
      have : ((-2 : Int) + ((start :: o :: o' :: (rest ++ [e])).length : Int)).toNat = rest.length + 2 := by
        simp; omega
      simp only [show (-2 : Int) < 0 by decide, if_true, this]
      rw [if_neg (by simp; omega)]
      have e2 : start :: o :: o' :: (rest ++ [e]) = ((start :: o :: o' :: rest) ++ [e]) := by simp
      rw [e2, List.getElem?_append_left (by simp), List.getElem?_eq_getElem (by simp)]
      simp only
      congr 1
      rw [List.getLast_eq_getElem]
      simp
    rw [g]
    simp only [ok_bind, pure_eq_ok, ← h2]
    congr 4
    simp

/-- C58: `qCurveTo` with off-curve points `offs` and end point `stop` appends the pieces of the TrueType spline and moves to
`stop`. -/
theorem C58_qCurveTo (s : SegmentPen K) (c : Contour K) (hc : s.contour = some c) (offs : List (Pt K)) (stop : Pt K) :
    qCurveTo s (offs ++ [stop]) =
      ({ s with contour := some (c ++ spline s.lastOnCurve offs stop), lastOnCurve := stop }, .ok ()) := by
  unfold qCurveTo
  have h := qSegments_spec s.lastOnCurve stop offs
  simp only [List.cons_append] at h
  simp only [h, hc]
  rw [pyGet_neg_one _ (by simp)]
  simp

/-- C58: the end points of the pieces of a spline: the start, the middles of consecutive off-curve points, and the end. -/
def _root_.PathLib.Spec.joints (start : Pt K) (offs : List (Pt K)) (stop : Pt K) : List (Pt K) :=
  start :: (List.zipWith middle offs offs.tail ++ [stop])

/-- C58: with `n ≥ 1` off-curve points the spline has `n` pieces; piece `i` runs from joint `i` to joint `i + 1` with the off-curve
point `i` in between. -/
theorem C58_pieces (start stop : Pt K) (offs : List (Pt K)) (h : offs ≠ []) :
    (spline start offs stop).length = offs.length ∧
    ∀ i (hi : i < offs.length), ∃ a b, (joints start offs stop)[i]? = some a ∧
      (joints start offs stop)[i + 1]? = some b ∧ (spline start offs stop)[i]? = some [a, offs[i], b] := by
  induction offs generalizing start with
  | nil => exact absurd rfl h
  | cons o rest ih =>
    cases rest with
    | nil =>
      refine ⟨rfl, ?_⟩
      intro i hi
      have : i = 0 := by simpa using hi
      subst this
      exact ⟨start, stop, rfl, rfl, rfl⟩
    | cons o' rest =>
      obtain ⟨h1, h2⟩ := ih (middle o o') (by simp)
      refine ⟨by simp [spline, h1], ?_⟩
      intro i hi
      cases i with
      | zero => exact ⟨start, middle o o', rfl, rfl, rfl⟩
      | succ i =>
        obtain ⟨a, b, e1, e2, e3⟩ := h2 i (by simpa using hi)
        exact ⟨a, b, e1, e2, e3⟩

/-- C58: at an implied joint the two pieces have the same tangent: the joint is as far from the off-curve point before it as the
off-curve point after it is from the joint, in the same direction. -/
theorem C58_tangents (start stop : Pt K) (offs : List (Pt K)) (i : Nat) (hi : i + 1 < offs.length) :
    ∃ j, (joints start offs stop)[i + 1]? = some j ∧
      j.1 - offs[i].1 = offs[i + 1].1 - j.1 ∧ j.2 - offs[i].2 = offs[i + 1].2 - j.2 := by
  refine ⟨middle offs[i] offs[i + 1], ?_, ?_, ?_⟩
  · unfold joints
    rw [List.getElem?_cons_succ, List.getElem?_append_left (by simp; omega), List.getElem?_zipWith]
    simp [List.getElem?_eq_getElem hi, List.getElem?_eq_getElem (show i < offs.length by omega)]
  · unfold middle
    have : (2 : K) ≠ 0 := two_ne_zero
    field_simp; ring
  · unfold middle
    have : (2 : K) ≠ 0 := two_ne_zero
    field_simp; ring

/-- C58: a call without points appends the single point as a segment. -/
theorem C58_no_points (s : SegmentPen K) (c : Contour K) (hc : s.contour = some c) :
    qCurveTo s [] = ({ s with contour := some (c ++ [[s.lastOnCurve]]) }, .ok ()) := by
  have : pyGet [s.lastOnCurve] (-1) = .ok s.lastOnCurve := by rw [pyGet_neg_one _ (by simp)]; rfl
  simp [qCurveTo, qSegments, hc, this]

/-- C58: before the first `moveTo` there is no contour to append to. -/
theorem C58_no_contour (s : SegmentPen K) (hc : s.contour = none) (points : List (Pt K)) :
    qCurveTo s points = (s, .error .attributeError) := by
  rcases List.eq_nil_or_concat points with rfl | ⟨offs, stop, rfl⟩
  · simp [qCurveTo, qSegments, hc]
  · unfold qCurveTo
    have h := qSegments_spec s.lastOnCurve stop offs
    simp only [List.cons_append] at h
    simp only [List.concat_eq_append, h, hc]

/-- A case of C58 with three off-curve points. -/
example : (qCurveTo (⟨[], some [], (0, 0)⟩ : SegmentPen ℚ) [(0, 2), (4, 2), (4, 6), (8, 8)]).1.contour =
    some [[(0, 0), (0, 2), (2, 2)], [(2, 2), (4, 2), (4, 4)], [(4, 4), (4, 6), (8, 8)]] := by decide +kernel

/-! ## C57 -/

/-- What holds of the pen after every call. -/
structure _root_.PathLib.Spec.PenInv (s : SegmentPen K) : Prop where
  stored : ∀ c ∈ s.contours, Connected c ∧ Closed c
  opened : ∀ c, s.contour = some c → Connected c ∧
    ∀ sn, c.getLast? = some sn → sn.getLast? = some s.lastOnCurve

private theorem connected_nil : Connected ([] : Contour K) := ⟨by simp, List.isChain_nil⟩

private theorem connected_append (c d : Contour K) (p : Pt K) (hc : Connected c)
    (hl : ∀ sn, c.getLast? = some sn → sn.getLast? = some p) (hd : Connected d)
    (hh : ∀ s0, d.head? = some s0 → s0.head? = some p) : Connected (c ++ d) := by
  refine ⟨?_, ?_⟩
  · intro s hs
    rcases List.mem_append.mp hs with h | h
    · exact hc.1 s h
    · exact hd.1 s h
  · rw [List.isChain_append]
    refine ⟨hc.2, hd.2, ?_⟩
    intro x hx y hy
    exact ⟨p, hl x hx, hh y hy⟩

private theorem connected_single (s : Segment K) (h : s ≠ []) : Connected [s] :=
  ⟨by simpa using h, List.isChain_singleton s⟩

private theorem spline_connected (start stop : Pt K) (offs : List (Pt K)) :
    Connected (spline start offs stop) ∧ (∀ s0, (spline start offs stop).head? = some s0 → s0.head? = some start) ∧
      (∀ sn, (spline start offs stop).getLast? = some sn → sn.getLast? = some stop) ∧ spline start offs stop ≠ [] := by
  induction offs generalizing start with
  | nil =>
    refine ⟨connected_single _ (by simp), ?_, ?_, by simp [spline]⟩ <;> simp [spline]
  | cons o rest ih =>
    cases rest with
    | nil =>
      refine ⟨connected_single _ (by simp), ?_, ?_, by simp [spline]⟩ <;> simp [spline]
    | cons o' rest =>
      obtain ⟨h1, h2, h3, h4⟩ := ih (middle o o')
      rw [spline]
      refine ⟨?_, by simp, ?_, by simp⟩
      · exact connected_append [[start, o, middle o o']] _ (middle o o') (connected_single _ (by simp)) (by simp) h1 h2
      · intro sn hs
        rw [List.getLast?_cons, Option.some.injEq] at hs
        apply h3
        rw [← hs]
        rw [List.getLast?_eq_some_getLast h4]
        rfl

private theorem map_connected (f : Pt K → Pt K) (c : Contour K) (h : Connected c) : Connected (c.map (List.map f)) := by
  refine ⟨?_, ?_⟩
  · intro s hs
    obtain ⟨s', h1, rfl⟩ := List.mem_map.mp hs
    simpa using h.1 s' h1
  · rw [List.isChain_map]
    refine h.2.imp ?_
    rintro a b ⟨p, h1, h2⟩
    exact ⟨f p, by simp [h1], by simp [h2]⟩

private theorem map_closed (f : Pt K → Pt K) (c : Contour K) (h : Closed c) : Closed (c.map (List.map f)) := by
  obtain ⟨s0, sn, p, h1, h2, h3, h4⟩ := h
  exact ⟨s0.map f, sn.map f, f p, by simp [h1], by simp [h2], by simp [h3], by simp [h4]⟩

private theorem closing_spec (c : Contour K) (hne : c ≠ []) (hc : Connected c) :
    ∃ s0 sn a b, c.head? = some s0 ∧ c.getLast? = some sn ∧ s0.head? = some a ∧ sn.getLast? = some b ∧
      closing c = .ok (if a = b then c else c ++ [[b, a]]) := by
  obtain ⟨s0, rest, rfl⟩ := List.exists_cons_of_ne_nil hne
  have h0 : s0 ≠ [] := hc.1 s0 (by simp)
  have hn : (s0 :: rest).getLast hne ≠ [] := hc.1 _ (List.getLast_mem hne)
  refine ⟨s0, (s0 :: rest).getLast hne, s0.head h0, ((s0 :: rest).getLast hne).getLast hn, rfl,
    List.getLast?_eq_some_getLast hne, List.head?_eq_some_head h0, List.getLast?_eq_some_getLast hn, ?_⟩
  unfold closing
  rw [pyGet_neg_one _ hne]
  simp only [pyGet_zero_cons, ok_bind]
  rw [pyGet_neg_one _ hn]
  have g0 : pyGet s0 0 = .ok (s0.head h0) := by
    obtain ⟨a, as, rfl⟩ := List.exists_cons_of_ne_nil h0
    rfl
  rw [g0]
  simp only [ok_bind, ne_eq, ite_not]
  split_ifs with h
  · rfl
  · rfl

private theorem closing_closed (c : Contour K) (hne : c ≠ []) (hc : Connected c) :
    ∃ c', closing c = .ok c' ∧ Connected c' ∧ Closed c' := by
  obtain ⟨s0, sn, a, b, h1, h2, h3, h4, h5⟩ := closing_spec c hne hc
  refine ⟨_, h5, ?_⟩
  split_ifs with hab
  · exact ⟨hc, s0, sn, a, h1, h2, h3, by rw [h4, hab]⟩
  · refine ⟨connected_append c [[b, a]] b hc ?_ (connected_single _ (by simp)) (by simp), s0, [b, a], a, ?_, by simp, h3, by simp⟩
    · intro s hs; rw [h2] at hs; cases hs; exact h4
    · simp [List.head?_append, h1]

private theorem transformed (tr : ComponentTransform K) (drawGlyph : String → Py (List (Contour K))) (s : SegmentPen K)
    (name : String) :
    addComponent drawGlyph s name tr = match drawGlyph name with
      | .error e => (s, .error e)
      | .ok cs => ({ s with contours := s.contours ++ cs.map (List.map (List.map
          (affineMap tr.xScale tr.xyScale tr.yxScale tr.yScale tr.xOffset tr.yOffset))) }, .ok ()) := by
  unfold addComponent
  by_cases ht : tr = identityTransformation
  · subst ht
    have : (affineMap (1 : K) 0 0 1 0 0) = id := by funext p; simp [affineMap]
    simp only [ne_eq, not_true, if_false, pure_eq_ok, ok_bind]
    cases h : drawGlyph name <;> simp [identityTransformation, this]
  · simp only [ne_eq, ht, not_false_eq_true, if_true, Transform.new_single, ok_bind, pure_eq_ok]
    cases h : drawGlyph name with
    | error e => simp
    | ok cs =>
      simp only [ok_bind]
      rw [← Transform.affineMat_eq, (C06_affine _ _ _ _ _ _).2.2]

/-- C57: every call keeps the invariant, also when it raises. -/
theorem C57_call (drawGlyph : String → Py (List (Contour K)))
    (hd : ∀ name cs, drawGlyph name = .ok cs → ∀ c ∈ cs, Connected c ∧ Closed c) (s : SegmentPen K) (hs : PenInv s)
    (c : PenCall K) : PenInv (call drawGlyph s c).1 := by
  have happ : ∀ (s : SegmentPen K) (d : Contour K) (p : Pt K), PenInv s → ∀ c, s.contour = some c → Connected d → d ≠ [] →
      (∀ s0, d.head? = some s0 → s0.head? = some s.lastOnCurve) →
      (∀ sn, d.getLast? = some sn → sn.getLast? = some p) →
      PenInv { s with contour := some (c ++ d), lastOnCurve := p } := by
    intro s d p hs c hc h1 hne h2 h3
    refine ⟨hs.stored, ?_⟩
    rintro _ ⟨rfl⟩
    obtain ⟨k1, k2⟩ := hs.opened c hc
    refine ⟨connected_append c d s.lastOnCurve k1 k2 h1 h2, ?_⟩
    intro sn hsn
    apply h3
    rw [List.getLast?_append, List.getLast?_eq_some_getLast hne] at hsn
    rw [← hsn, List.getLast?_eq_some_getLast hne]; rfl
  cases c with
  | moveTo p =>
    refine ⟨hs.stored, ?_⟩
    rintro _ ⟨rfl⟩
    exact ⟨connected_nil, by simp⟩
  | lineTo p =>
    simp only [call, lineTo, append]
    split_ifs with hp
    · cases hc : s.contour with
      | none => exact hs
      | some c =>
        exact happ s [[s.lastOnCurve, p]] p hs c hc (connected_single _ (by simp)) (by simp) (by simp) (by simp)
    · exact hs
  | curveTo ps =>
    simp only [call, curveTo, append]
    cases hc : s.contour with
    | none => exact hs
    | some c =>
      rcases List.eq_nil_or_concat ps with rfl | ⟨l, p, rfl⟩
      · simp only [pyGet_nil]
        exact happ s [[s.lastOnCurve]] s.lastOnCurve hs c hc (connected_single _ (by simp)) (by simp) (by simp) (by simp)
      · rw [pyGet_neg_one _ (by simp)]
        simp only [List.concat_eq_append, List.getLast_append_singleton]
        exact happ s [s.lastOnCurve :: (l ++ [p])] p hs c hc (connected_single _ (by simp)) (by simp) (by simp)
          (by simp [List.getLast?_cons])
  | qCurveTo ps =>
    simp only [call]
    cases hc : s.contour with
    | none => rw [C58_no_contour s hc]; exact hs
    | some c =>
      rcases List.eq_nil_or_concat ps with rfl | ⟨l, p, rfl⟩
      · rw [C58_no_points s c hc]
        exact happ s [[s.lastOnCurve]] s.lastOnCurve hs c hc (connected_single _ (by simp)) (by simp) (by simp) (by simp)
      · rw [List.concat_eq_append, C58_qCurveTo s c hc]
        obtain ⟨h1, h2, h3, h4⟩ := spline_connected s.lastOnCurve p l
        exact happ s _ p hs c hc h1 h4 h2 h3
  | closePath =>
    simp only [call]
    unfold closePath
    split
    · exact hs
    · exact hs
    · rename_i c hne hc
      obtain ⟨c', h1, h2, h3⟩ := closing_closed c (by rintro rfl; exact hne rfl) (hs.opened c hc).1
      rw [h1]
      refine ⟨?_, ?_⟩
      · intro d hd
        rcases List.mem_append.mp hd with h | h
        · exact hs.stored d h
        · rw [List.mem_singleton] at h; subst h; exact ⟨h2, h3⟩
      · rintro _ ⟨rfl⟩
        exact ⟨connected_nil, by simp⟩
  | addComponent name t =>
    simp only [call]
    rw [transformed]
    cases h : drawGlyph name with
    | error e => exact hs
    | ok cs =>
      refine ⟨?_, hs.opened⟩
      intro d hd'
      rcases List.mem_append.mp hd' with h' | h'
      · exact hs.stored d h'
      · obtain ⟨c0, h1, rfl⟩ := List.mem_map.mp h'
        obtain ⟨k1, k2⟩ := hd name cs h c0 h1
        exact ⟨map_connected _ c0 k1, map_closed _ c0 k2⟩
  | addPoint => exact hs
  | beginPath => exact hs
  | endPath => exact hs

theorem C57_init : PenInv (init : SegmentPen K) := ⟨by simp [init], by simp [init]⟩

private theorem run_inv (drawGlyph : String → Py (List (Contour K)))
    (hd : ∀ name cs, drawGlyph name = .ok cs → ∀ c ∈ cs, Connected c ∧ Closed c) (calls : List (PenCall K))
    (s : SegmentPen K) (hs : PenInv s) : PenInv (run drawGlyph s calls).1 := by
  induction calls generalizing s with
  | nil => exact hs
  | cons c cs ih =>
    have := C57_call drawGlyph hd s hs c
    rw [run]
    cases h : call drawGlyph s c with
    | mk s' r =>
      rw [h] at this
      cases r with
      | error e => exact this
      | ok u => exact ih s' this

/-- C57: the contours of a glyph are connected and closed, whatever the glyph set. -/
theorem C57_drawGlyph (depth : Nat) (gs : GlyphSet K) (name : String) (cs : List (Contour K))
    (h : drawGlyph depth gs name = .ok cs) : ∀ c ∈ cs, Connected c ∧ Closed c := by
  induction depth generalizing name cs with
  | zero => simp [drawGlyph] at h
  | succ depth ih =>
    rw [drawGlyph] at h
    cases hg : gs name with
    | none => rw [hg] at h; simp at h
    | some calls =>
      rw [hg] at h
      have := run_inv (drawGlyph depth gs) (fun n cs h => ih n cs h) calls init C57_init
      cases hr : run (drawGlyph depth gs) init calls with
      | mk s' r =>
        rw [hr] at this
        simp only [hr] at h
        cases r with
        | error e => simp at h
        | ok u => cases h; exact this.stored

/-- The state of a pen after a history of calls, where the caller goes on after exceptions. -/
def history (depth : Nat) (gs : GlyphSet K) (s : SegmentPen K) (calls : List (PenCall K)) : SegmentPen K :=
  calls.foldl (fun s c => (call (drawGlyph depth gs) s c).1) s

/-- C57: after any history of calls on a new pen, including calls that raised, every stored contour has at least one segment, no
empty segment, each segment starts where the previous ended, and the last ends at the start of the first. -/
theorem C57_history (depth : Nat) (gs : GlyphSet K) (calls : List (PenCall K)) :
    ∀ c ∈ (history depth gs init calls).contours, Connected c ∧ Closed c := by
  suffices h : ∀ s : SegmentPen K, PenInv s → PenInv (history depth gs s calls) from (h init C57_init).stored
  induction calls with
  | nil => intro s hs; exact hs
  | cons c cs ih =>
    intro s hs
    exact ih _ (C57_call _ (C57_drawGlyph depth gs) s hs c)

/-- C57: a call never removes or changes a stored contour. -/
theorem C57_prefix (drawGlyph : String → Py (List (Contour K))) (s : SegmentPen K) (c : PenCall K) :
    s.contours <+: (call drawGlyph s c).1.contours := by
  cases c with
  | moveTo p => exact List.prefix_rfl
  | lineTo p =>
    simp only [call, lineTo, append]
    split_ifs
    · cases hc : s.contour <;> exact List.prefix_rfl
    · exact List.prefix_rfl
  | curveTo ps =>
    simp only [call, curveTo, append]
    cases hc : s.contour with
    | none => exact List.prefix_rfl
    | some c => simp only; cases pyGet ps (-1) <;> exact List.prefix_rfl
  | qCurveTo ps =>
    simp only [call, qCurveTo]
    cases qSegments (s.lastOnCurve :: ps) with
    | error e => exact List.prefix_rfl
    | ok l =>
      cases hc : s.contour with
      | none => exact List.prefix_rfl
      | some c => simp only; cases pyGet (s.lastOnCurve :: ps) (-1) <;> exact List.prefix_rfl
  | closePath =>
    simp only [call]
    unfold closePath
    split
    · exact List.prefix_rfl
    · exact List.prefix_rfl
    · split <;> exact List.prefix_append _ _
  | addComponent name t =>
    simp only [call]
    rw [transformed]
    cases h : drawGlyph name with
    | error e => exact List.prefix_rfl
    | ok cs => exact List.prefix_append _ _
  | addPoint => exact List.prefix_rfl
  | beginPath => exact List.prefix_rfl
  | endPath => exact List.prefix_rfl

/-! ### What is drawn -/

/-- A drawing step between `moveTo` and `closePath`. -/
inductive _root_.PathLib.Spec.Stroke (K : Type)
  | line (stop : Pt K)
  | curve (offs : List (Pt K)) (stop : Pt K)
  | spline (offs : List (Pt K)) (stop : Pt K)

/-- The pen call that makes a stroke. -/
def _root_.PathLib.Spec.Stroke.toCall : Stroke K → PenCall K
  | .line p => .lineTo p
  | .curve offs p => .curveTo (offs ++ [p])
  | .spline offs p => .qCurveTo (offs ++ [p])

/-- The point where a stroke ends. -/
def _root_.PathLib.Spec.Stroke.stop : Stroke K → Pt K
  | .line p => p
  | .curve _ p => p
  | .spline _ p => p

/-- The control polygons of a stroke from `start`. A line of length zero has none. -/
def _root_.PathLib.Spec.Stroke.polygons (start : Pt K) : Stroke K → List (Segment K)
  | .line p => if p = start then [] else [[start, p]]
  | .curve offs p => [start :: (offs ++ [p])]
  | .spline offs p => Spec.spline start offs p

/-- The control polygons of consecutive strokes. -/
def _root_.PathLib.Spec.polygons (start : Pt K) : List (Stroke K) → List (Segment K)
  | [] => []
  | k :: ks => k.polygons start ++ polygons k.stop ks

private theorem run_append (d : String → Py (List (Contour K))) (s s' : SegmentPen K) (l l' : List (PenCall K))
    (h : run d s l = (s', .ok ())) : run d s (l ++ l') = run d s' l' := by
  induction l generalizing s with
  | nil => simp only [run, Prod.mk.injEq, and_true] at h; subst h; rfl
  | cons c l ih =>
    rw [run] at h
    rw [List.cons_append, run]
    cases hc : call d s c with
    | mk s1 r =>
      rw [hc] at h
      cases r with
      | error e => simp at h
      | ok u => exact ih s1 h

private theorem run_strokes (d : String → Py (List (Contour K))) (ks : List (Stroke K)) (s : SegmentPen K) (c : Contour K)
    (hc : s.contour = some c) : ∃ p, run d s (ks.map Stroke.toCall) =
      ({ s with contour := some (c ++ polygons s.lastOnCurve ks), lastOnCurve := p }, .ok ()) := by
  induction ks generalizing s c with
  | nil => refine ⟨s.lastOnCurve, ?_⟩; simp [run, polygons, ← hc]
  | cons k ks ih =>
    have h1 : call d s k.toCall =
        ({ s with contour := some (c ++ k.polygons s.lastOnCurve), lastOnCurve := k.stop }, .ok ()) := by
      cases k with
      | line p =>
        simp only [Stroke.toCall, call, lineTo, append, hc, Stroke.polygons, Stroke.stop]
        by_cases hp : p = s.lastOnCurve
        · simp [hp, ← hc]
        · simp [hp]
      | curve offs p =>
        simp only [Stroke.toCall, call, curveTo, append, hc, Stroke.polygons, Stroke.stop]
        rw [pyGet_neg_one _ (by simp)]
        simp
      | spline offs p =>
        simp only [Stroke.toCall, call, Stroke.polygons, Stroke.stop]
        rw [C58_qCurveTo s c hc]
    obtain ⟨p, hp⟩ := ih { s with contour := some (c ++ k.polygons s.lastOnCurve), lastOnCurve := k.stop }
      (c ++ k.polygons s.lastOnCurve) rfl
    refine ⟨p, ?_⟩
    rw [List.map_cons, run, h1]
    simp only
    rw [hp]
    simp only [polygons, List.append_assoc]

/-- C57: drawing one closed path, `moveTo(start)`, strokes, `closePath()`, adds exactly one contour: the control polygons of the
strokes, and a closing line unless the last one ends at the first point; it adds nothing when there are no polygons. -/
theorem C57_path (d : String → Py (List (Contour K))) (s : SegmentPen K) (start : Pt K) (ks : List (Stroke K)) :
    ∃ p, run d s (.moveTo start :: ks.map Stroke.toCall ++ [.closePath]) =
      (⟨s.contours ++ (if polygons start ks = [] then [] else
          let c := polygons start ks
          let first := (c.flatten.head?).getD start
          let last := (c.flatten.getLast?).getD start
          [if first = last then c else c ++ [[last, first]]]), some [], p⟩, .ok ()) := by
  obtain ⟨p, hp⟩ := run_strokes d ks (moveTo s start) [] rfl
  refine ⟨p, ?_⟩
  have h0 : run d s (.moveTo start :: ks.map Stroke.toCall) =
      (⟨s.contours, some (polygons start ks), p⟩, .ok ()) := by
    rw [run]; simp only [call]; rw [hp]; simp [moveTo]
  rw [run_append d s _ _ _ h0]
  rw [run]
  simp only [call]
  by_cases hne : polygons start ks = []
  · simp [closePath, hne, run]
  · have hinv : Connected (polygons start ks) := by
      have hi : PenInv (run (fun _ => .error .keyError) (moveTo (init : SegmentPen K) start) (ks.map Stroke.toCall)).1 := by
        refine run_inv _ (by simp) _ _ ⟨by simp [init, moveTo], ?_⟩
        rintro _ ⟨rfl⟩
        exact ⟨connected_nil, by simp⟩
      obtain ⟨q, hq⟩ := run_strokes (fun _ => .error .keyError) ks (moveTo (init : SegmentPen K) start) [] rfl
      rw [hq] at hi
      exact (hi.opened _ rfl).1
    obtain ⟨s0, sn, a, b, h1, h2, h3, h4, h5⟩ := closing_spec _ hne hinv
    have hf : (polygons start ks).flatten.head? = some a := by
      obtain ⟨s0', rest, e⟩ := List.exists_cons_of_ne_nil hne
      rw [e] at h1 ⊢
      cases h1
      rw [List.flatten_cons, List.head?_append, h3]; rfl
    have hl : (polygons start ks).flatten.getLast? = some b := by
      rcases List.eq_nil_or_concat (polygons start ks) with e | ⟨l, x, e⟩
      · exact absurd e hne
      · rw [e, List.concat_eq_append] at h2 ⊢
        simp only [List.getLast?_append, List.getLast?_singleton, Option.some_or, Option.some.injEq] at h2
        subst h2
        simp [List.getLast?_append, h4]
    unfold closePath
    simp only
    rw [h5]
    simp only [hne, hf, hl, Option.getD_some, if_false, run]

/-- A case of C57: a triangle drawn by three lines, the last one implied, after a discarded path. -/
example : (history 5 (fun _ => none) (init : SegmentPen ℚ)
    [.lineTo (1, 1), .moveTo (9, 9), .lineTo (8, 8), .moveTo (0, 0), .lineTo (0, 0), .lineTo (4, 0), .curveTo [],
     .lineTo (0, 3), .closePath, .closePath]).contours =
    [[[(0, 0), (4, 0)], [(4, 0)], [(4, 0), (0, 3)], [(0, 3), (0, 0)]]] := by decide +kernel

/-- C57: `moveTo` without `closePath` before it drops what has been drawn. -/
theorem C57_moveTo_discards (s : SegmentPen K) (p : Pt K) :
    (moveTo s p).contours = s.contours ∧ (moveTo s p).contour = some [] := ⟨rfl, rfl⟩

/-- C57: before the first `moveTo`, drawing raises `AttributeError` and changes nothing, except for a line to the current
point, which is ignored. -/
theorem C57_no_contour (d : String → Py (List (Contour K))) (s : SegmentPen K) (hc : s.contour = none) :
    (∀ p, call d s (.lineTo p) = (s, if p = s.lastOnCurve then .ok () else .error .attributeError)) ∧
    (∀ ps, call d s (.curveTo ps) = (s, .error .attributeError)) ∧
    (∀ ps, call d s (.qCurveTo ps) = (s, .error .attributeError)) ∧
    call d s .closePath = (s, .error .attributeError) := by
  refine ⟨?_, ?_, ?_, ?_⟩
  · intro p
    simp only [call, lineTo, append, hc]
    split_ifs <;> simp_all
  · intro ps; simp [call, curveTo, append, hc]
  · intro ps; exact C58_no_contour s hc ps
  · simp [call, closePath, hc]

/-- C57: a new pen has no contours and stands at the origin: the only line it accepts before the first `moveTo` goes there. -/
theorem C57_fresh (d : String → Py (List (Contour K))) :
    (init : SegmentPen K).contours = [] ∧
    ∀ p : Pt K, call d init (.lineTo p) = (init, if p = (0, 0) then .ok () else .error .attributeError) :=
  ⟨rfl, (C57_no_contour d init rfl).1⟩

/-- C57: `addPoint`, `beginPath` and `endPath` raise `NotImplementedError` and change nothing. -/
theorem C57_unsupported (d : String → Py (List (Contour K))) (s : SegmentPen K) (c : PenCall K)
    (hc : c = .addPoint ∨ c = .beginPath ∨ c = .endPath) : call d s c = (s, .error .notImplementedError) := by
  rcases hc with rfl | rfl | rfl <;> rfl

/-- C57: a glyph with an open contour, which ends in `endPath`, cannot be drawn: what is left of the calls is not executed. -/
theorem C57_open (d : String → Py (List (Contour K))) (s : SegmentPen K) (before after : List (PenCall K)) (c : PenCall K)
    (hc : c = .addPoint ∨ c = .beginPath ∨ c = .endPath) :
    (run d s (before ++ c :: after)).1 = (run d s before).1 ∧
    (run d s (before ++ c :: after)).2 = ((run d s before).2 >>= fun _ => .error .notImplementedError) := by
  induction before generalizing s with
  | nil => simp [run, C57_unsupported d s c hc]
  | cons b before ih =>
    rw [List.cons_append, run, run]
    rcases hb : call d s b with ⟨s', e | ⟨⟩⟩
    · exact ⟨rfl, rfl⟩
    · exact ih s'

/-! ## C59 -/

/-- C59: `addComponent` appends the contours of the component with every point mapped by the affine map of the transformation, and
leaves everything else as it is; if the component cannot be drawn, the pen is unchanged and the exception is passed on. -/
theorem C59_addComponent (d : String → Py (List (Contour K))) (s : SegmentPen K) (name : String)
    (tr : ComponentTransform K) :
    (∀ cs, d name = .ok cs → call d s (.addComponent name tr) =
      (⟨s.contours ++ cs.map (List.map (List.map
        (affineMap tr.xScale tr.xyScale tr.yxScale tr.yScale tr.xOffset tr.yOffset))), s.contour, s.lastOnCurve⟩, .ok ())) ∧
    (∀ e, d name = .error e → call d s (.addComponent name tr) = (s, .error e)) := by
  constructor
  · intro cs h; simp only [call]; rw [transformed, h]
  · intro e h; simp only [call]; rw [transformed, h]

/-- C59: an unknown glyph raises `KeyError` and changes nothing. -/
theorem C59_unknown (depth : Nat) (gs : GlyphSet K) (s : SegmentPen K) (name : String) (tr : ComponentTransform K)
    (h : gs name = none) : call (drawGlyph (depth + 1) gs) s (.addComponent name tr) = (s, .error .keyError) :=
  (C59_addComponent _ s name tr).2 _ (by rw [drawGlyph, h])

/-- C59: nested components compose: a glyph that consists of a component placed by `t2` and is itself placed by `t1` contributes
the innermost contours mapped by `t2` and then `t1`. -/
theorem C59_nested (depth : Nat) (gs : GlyphSet K) (s : SegmentPen K) (outer inner : String)
    (t1 t2 : ComponentTransform K) (cs : List (Contour K)) (ho : gs outer = some [.addComponent inner t2])
    (hi : drawGlyph depth gs inner = .ok cs) :
    (call (drawGlyph (depth + 1) gs) s (.addComponent outer t1)).1.contours =
      s.contours ++ cs.map (List.map (List.map fun p =>
        affineMap t1.xScale t1.xyScale t1.yxScale t1.yScale t1.xOffset t1.yOffset
          (affineMap t2.xScale t2.xyScale t2.yxScale t2.yScale t2.xOffset t2.yOffset p))) := by
  have h1 : drawGlyph (depth + 1) gs outer = .ok (cs.map (List.map (List.map
      (affineMap t2.xScale t2.xyScale t2.yxScale t2.yScale t2.xOffset t2.yOffset)))) := by
    rw [drawGlyph, ho]
    simp only [run]
    rw [(C59_addComponent _ init inner t2).1 cs hi]
    simp [init]
  rw [(C59_addComponent _ s outer t1).1 _ h1]
  simp [Function.comp_def]

/-- C59: glyphs that begin with a component from the same set of glyphs, such as a glyph that contains itself, are never
drawn: every stack is exhausted. -/
theorem C59_cyclic (gs : GlyphSet K) (S : String → Prop)
    (hS : ∀ n, S n → ∃ n' t rest, S n' ∧ gs n = some (.addComponent n' t :: rest)) (depth : Nat) (n : String) (hn : S n) :
    drawGlyph depth gs n = .error .recursionError := by
  induction depth generalizing n with
  | zero => rfl
  | succ depth ih =>
    obtain ⟨n', t, rest, h1, h2⟩ := hS n hn
    rw [drawGlyph, h2]
    simp only [run]
    rw [(C59_addComponent _ init n' t).2 _ (ih n' h1)]

private theorem run_mono (d d' : String → Py (List (Contour K))) (h : ∀ n cs, d n = .ok cs → d' n = .ok cs)
    (calls : List (PenCall K)) (s s' : SegmentPen K) (hr : run d s calls = (s', .ok ())) :
    run d' s calls = (s', .ok ()) := by
  induction calls generalizing s with
  | nil => exact hr
  | cons c calls ih =>
    rw [run] at hr ⊢
    have hcall : ∀ s1, call d s c = (s1, .ok ()) → call d' s c = (s1, .ok ()) := by
      intro s1 h1
      cases c with
      | addComponent n t =>
        simp only [call] at h1 ⊢
        rw [transformed] at h1 ⊢
        cases hn : d n with
        | error e => rw [hn] at h1; simp at h1
        | ok cs => rw [hn] at h1; rw [h n cs hn]; exact h1
      | _ => exact h1
    cases hc : call d s c with
    | mk s1 r =>
      rw [hc] at hr
      cases r with
      | error e => simp at hr
      | ok u => rw [hcall s1 hc]; exact ih s1 hr

/-- C59: more stack never changes the contours of a glyph that can be drawn. -/
theorem C59_depth_irrelevant (depth extra : Nat) (gs : GlyphSet K) (name : String) (cs : List (Contour K))
    (h : drawGlyph depth gs name = .ok cs) : drawGlyph (depth + extra) gs name = .ok cs := by
  induction depth generalizing name cs with
  | zero => simp [drawGlyph] at h
  | succ depth ih =>
    rw [show depth + 1 + extra = depth + extra + 1 by omega]
    rw [drawGlyph] at h ⊢
    cases hg : gs name with
    | none => rw [hg] at h; simp at h
    | some calls =>
      rw [hg] at h
      simp only at h ⊢
      cases hr : run (drawGlyph depth gs) init calls with
      | mk s' r =>
        rw [hr] at h
        cases r with
        | error e => simp at h
        | ok u => rw [run_mono _ _ ih calls init s' hr]; exact h

/-- A case of C59: a component used twice, once mirrored and moved, inside a glyph that is itself used as a component. -/
example :
    let gs : GlyphSet ℚ := fun n =>
      if n = "line" then some [.moveTo (0, 0), .lineTo (1, 2), .closePath]
      else if n = "both" then some [.addComponent "line" ⟨1, 0, 0, 1, 0, 0⟩, .addComponent "line" ⟨-1, 0, 0, 1, 5, 0⟩]
      else none
    (call (drawGlyph 2 gs) init (.addComponent "both" ⟨2, 0, 0, 2, 0, 1⟩)).1.contours =
      [[[(0, 1), (2, 5)], [(2, 5), (0, 1)]], [[(10, 1), (8, 5)], [(8, 5), (10, 1)]]] := by decide +kernel

end SegmentPen
end PathLib
