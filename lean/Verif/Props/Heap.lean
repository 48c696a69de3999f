import Verif.Lemmas.HeapPen
import Verif.Model.PathUtilities

/-!
# C100: sharing of lists

`h <+: h'` says that the lists of `h` are still there in `h'`, at the same addresses and with the same items; `IsContours (newSince h.length) h' a out` says that the list `a`
stands for `out` and that it and all lists in it were created after `h`.
-/

namespace PathLib.Heap
open Spec
variable {K : Type}

/-! ### Transforms -/

section transform
variable [Field K] [DecidableEq K]

/-- C100: `applyToSegment` changes no list and returns a new one, with the items of the model with lists as values. -/
theorem C100_applyToSegment (h : Heap K) (m r : Nat) (M : Mat K) (s : Segment K) (hm : IsMatrix Set.univ h m M)
    (hr : IsSegment Set.univ h r s) :
    ∃ res h', applyToSegment m r h = (res, h') ∧ h <+: h' ∧
      match Transform.applyToSegment ⟨M⟩ s with
      | .ok out => ∃ a, res = .ok a ∧ IsSegment (newSince h.length) h' a out
      | .error e => res = .error e := by
  obtain ⟨res, h', e, hp, hq⟩ := segment_creates h _ m r M s hm hr h List.prefix_rfl
  refine ⟨res, h', e, hp, ?_⟩
  cases hv : Transform.applyToSegment ⟨M⟩ s <;> rw [hv] at hq <;> exact hq

/-- C100: `applyToContour` changes no list and returns new lists only. -/
theorem C100_applyToContour (h : Heap K) (m r : Nat) (M : Mat K) (c : Contour K) (hm : IsMatrix Set.univ h m M)
    (hr : IsContour Set.univ h r c) :
    ∃ res h', applyToContour m r h = (res, h') ∧ h <+: h' ∧
      match Transform.applyToContour ⟨M⟩ c with
      | .ok out => ∃ a, res = .ok a ∧ IsContour (newSince h.length) h' a out
      | .error e => res = .error e := by
  obtain ⟨res, h', e, hp, hq⟩ := contour_creates h _ m r M c hm hr h List.prefix_rfl
  refine ⟨res, h', e, hp, ?_⟩
  cases hv : Transform.applyToContour ⟨M⟩ c <;> rw [hv] at hq <;> exact hq

/-- C100: `applyToContours` changes no list and returns new lists only. -/
theorem C100_applyToContours (h : Heap K) (m r : Nat) (M : Mat K) (cs : List (Contour K)) (hm : IsMatrix Set.univ h m M)
    (hr : IsContours Set.univ h r cs) :
    ∃ res h', applyToContours m r h = (res, h') ∧ h <+: h' ∧
      match Transform.applyToContours ⟨M⟩ cs with
      | .ok out => ∃ a, res = .ok a ∧ IsContours (newSince h.length) h' a out
      | .error e => res = .error e := by
  obtain ⟨res, h', e, hp, hq⟩ := contours_creates h _ m r M cs hm hr h List.prefix_rfl
  refine ⟨res, h', e, hp, ?_⟩
  cases hv : Transform.applyToContours ⟨M⟩ cs <;> rw [hv] at hq <;> exact hq

omit [Field K] [DecidableEq K] in
/-- C100: what later happens to lists outside `S` changes nothing: a result made of new lists is not affected by changes to the lists that existed
before the call, and those are not affected by changes to the result. -/
theorem C100_independent (S : Set Nat) (h h' : Heap K) (hs : SameOn S h h') (r : Nat) :
    (∀ s, IsSegment S h r s → IsSegment S h' r s) ∧ (∀ c, IsContour S h r c → IsContour S h' r c) ∧
      (∀ cs, IsContours S h r cs → IsContours S h' r cs) ∧ (∀ m, IsMatrix S h r m → IsMatrix S h' r m) :=
  ⟨fun _ => local_segment.same hs, fun _ => local_contour.same hs, fun _ => local_contours.same hs, fun _ => local_matrix.same hs⟩

omit [DecidableEq K] in
/-- C100: a `Transform` made from one matrix keeps that very list. -/
theorem C100_one_matrix (m : Nat) (h : Heap K) : concatenateMatrices [m] h = (.ok m, h) := rfl

omit [DecidableEq K] in
private theorem fold_creates (h0 : Heap K) (ms : List Nat) (Ms : List (Mat K)) (hms : List.Forall₂ (IsMatrix Set.univ h0) ms Ms)
    (n : Nat) (h : Heap K) (hp : h0 <+: h) (hn : n ≤ h.length) (acc : Nat) (A : Mat K) (ha : IsMatrix (newSince n) h acc A) :
    ∃ res h', ms.foldlM (fun (acc m : Nat) => multiplyMatrixByMatrix acc m) acc h = (res, h') ∧ h <+: h' ∧
      match Ms.foldlM Transform.multiplyMatrixByMatrix A with
      | .ok out => ∃ a, res = .ok a ∧ IsMatrix (newSince n) h' a out
      | .error e => res = .error e := by
  induction hms generalizing h acc A with
  | nil => exact ⟨.ok acc, h, rfl, List.prefix_rfl, acc, rfl, ha⟩
  | @cons m M ms Ms hm _ ih =>
    have hM : IsMatrix Set.univ h m M := local_matrix.grow hp hm
    have hA : IsMatrix Set.univ h acc A := local_matrix _ _ _ _ _ _ (Set.subset_univ _) (fun _ _ _ hc => hc) ha
    obtain ⟨r1, h1, e1, p1, q1⟩ := matrix_creates h _ acc m A M hA hM h List.prefix_rfl
    rw [List.foldlM_cons, List.foldlM_cons]
    cases hv : Transform.multiplyMatrixByMatrix A M with
    | error e =>
      rw [hv] at q1
      simp only at q1
      subst q1
      exact ⟨_, _, bind_error _ _ _ _ _ e1, p1, rfl⟩
    | ok B =>
      rw [hv] at q1
      obtain ⟨b, rfl, hb⟩ := q1
      have hb' : IsMatrix (newSince n) h1 b B := by
        refine local_matrix _ _ _ _ _ _ ?_ (fun _ _ _ hc => hc) hb
        intro i hi
        simp only [newSince, Set.mem_ofPred_eq] at hi ⊢
        omega
      obtain ⟨r2, h2, e2, p2, q2⟩ := ih h1 (hp.trans p1) (hn.trans p1.length_le) b B hb'
      refine ⟨r2, h2, ?_, p1.trans p2, ?_⟩
      · rw [bind_ok _ _ _ _ _ e1, e2]
      · rw [ok_bind]; exact q2

omit [DecidableEq K] in
/-- C100: a `Transform` made from two or more matrices has a matrix of its own, all of new lists. -/
theorem C100_more_matrices (h : Heap K) (m1 m2 : Nat) (ms : List Nat) (M1 M2 : Mat K) (Ms : List (Mat K)) (h1 : IsMatrix Set.univ h m1 M1)
    (h2 : IsMatrix Set.univ h m2 M2) (hms : List.Forall₂ (IsMatrix Set.univ h) ms Ms) :
    ∃ res h', concatenateMatrices (m1 :: m2 :: ms) h = (res, h') ∧ h <+: h' ∧
      match Transform.concatenateMatrices (M1 :: M2 :: Ms) with
      | .ok out => ∃ a, res = .ok a ∧ IsMatrix (newSince h.length) h' a out
      | .error e => res = .error e := by
  obtain ⟨r1, k1, e1, p1, q1⟩ := matrix_creates h _ m1 m2 M1 M2 h1 h2 h List.prefix_rfl
  simp only [concatenateMatrices, Transform.concatenateMatrices]
  rw [List.foldlM_cons, List.foldlM_cons]
  cases hv : Transform.multiplyMatrixByMatrix M1 M2 with
  | error e =>
    rw [hv] at q1
    simp only at q1
    subst q1
    exact ⟨_, _, bind_error _ _ _ _ _ e1, p1, rfl⟩
  | ok B =>
    rw [hv] at q1
    obtain ⟨b, rfl, hb⟩ := q1
    obtain ⟨r2, k2, e2, p2, q2⟩ := fold_creates h ms Ms hms h.length k1 p1 p1.length_le b B hb
    exact ⟨r2, k2, by rw [bind_ok _ _ _ _ _ e1, e2], p1.trans p2, by rw [ok_bind]; exact q2⟩

end transform

/-- `m = [[1, 0, 0], [0, 1, 0], [0, 0, 1]]`, with the rows at the addresses 0, 1 and 2. -/
private def identityHeap : Heap ℚ := [.nums [1, 0, 0], .nums [0, 1, 0], .nums [0, 0, 1], .refs [0, 1, 2]]

/-- C100: `t = Transform(m)`, then `m[2][0] = 10`: the transform now moves points by 10. -/
theorem C100_one_matrix_counterexample :
    ∃ t, concatenateMatrices [3] identityHeap = (.ok t, identityHeap) ∧ (applyToPoint t ((0 : ℚ), 0) identityHeap).1 = .ok (0, 0) ∧
      (applyToPoint t ((0 : ℚ), 0) (identityHeap.set 2 (.nums [10, 0, 1]))).1 = .ok (10, 0) :=
  ⟨3, rfl, by decide +kernel, by decide +kernel⟩

/-- `Transform(m, m)` does not follow. -/
example : (do
    let t ← concatenateMatrices [3, 3]
    fun (h : Heap ℚ) => applyToPoint t ((0 : ℚ), 0) (h.set 2 (.nums [10, 0, 1])) : Prog ℚ (ℚ × ℚ)) identityHeap |>.1 |> (· = .ok (0, 0)) := by
  decide +kernel

/-- A case of C100_applyToContours: one contour of two segments, moved by (2, 3). -/
example :
    let h : Heap ℚ := [.nums [1, 0, 0], .nums [0, 1, 0], .nums [2, 3, 1], .refs [0, 1, 2], .pts [(0, 0), (1, 1)], .pts [(1, 1), (0, 0)],
      .refs [4, 5], .refs [6]]
    applyToContours 3 7 h = (.ok 8, h ++ [.refs [9], .refs [10, 11], .pts [(2, 3), (3, 4)], .pts [(3, 4), (2, 3)]]) := by
  decide +kernel

/-- C100: `flatten` changes no list; its result is a new list that holds the same segment lists as the contours do. -/
theorem C100_flatten (h : Heap K) (r : Nat) (rs : List Nat) (segs : List (List Nat)) (hr : h[r]? = some (.refs rs))
    (hs : List.Forall₂ (fun (x : Nat) (l : List Nat) => h[x]? = some (.refs l)) rs segs) :
    flatten r h = (.ok h.length, h ++ [.refs segs.flatten]) := by
  have key : (rs.mapM fun (contour : Nat) => (loadRefs contour : Prog K (List Nat))) h = (.ok segs, h) := by
    clear hr
    induction hs with
    | nil => rfl
    | cons hx _ ih => rw [List.mapM_cons, bind_ok _ _ _ _ _ (loadRefs_run hx), bind_ok _ _ _ _ _ ih, pure_run]
  unfold flatten
  rw [bind_ok _ _ _ _ _ (loadRefs_run hr), bind_ok _ _ _ _ _ key, alloc_run]

/-- C100: the result of `flatten` stands for what the model with lists as values returns. -/
theorem C100_flatten_value (h : Heap K) (r : Nat) (cs : List (Contour K)) (hr : IsContours Set.univ h r cs) :
    ∃ a h', flatten r h = (.ok a, h') ∧ IsContour Set.univ h' a (PathUtilities.flatten cs) := by
  obtain ⟨_, rs, h1, h2⟩ := hr
  have key : ∃ segs, List.Forall₂ (fun (x : Nat) (l : List Nat) => h[x]? = some (.refs l)) rs segs ∧
      List.Forall₂ (IsSegment Set.univ h) segs.flatten cs.flatten := by
    clear h1
    induction h2 with
    | nil => exact ⟨[], .nil, .nil⟩
    | cons hx _ ih =>
      obtain ⟨segs, g1, g2⟩ := ih
      obtain ⟨_, l, k1, k2⟩ := hx
      exact ⟨l :: segs, .cons k1 g1, List.rel_append k2 g2⟩
  obtain ⟨segs, g1, g2⟩ := key
  refine ⟨_, _, C100_flatten h r rs segs h1 g1, trivial, segs.flatten, by simp, ?_⟩
  have : PathUtilities.flatten cs = cs.flatten := by
    unfold PathUtilities.flatten
    simp
  rw [this]
  exact g2.imp fun a b hab => local_segment.grow ⟨_, rfl⟩ hab

/-! ### The pen -/

private theorem isPen_inside {S : Set Nat} {h : Heap K} {p : Pen K} {s : SegmentPen K} (hp : IsPen S h p s) :
    IsPen (S ∩ {i | i < h.length}) h p s := by
  obtain ⟨h1, h2, rs, h3, h4, h5, h6⟩ := hp
  refine ⟨h1, ⟨h2, lt_of_cell h3⟩, rs, h3, h4.imp fun _ _ hc => inside_contour _ _ _ _ hc, h5, ?_⟩
  cases hx : p.contour <;> cases hc : s.contour <;> rw [hx, hc] at h6
  · trivial
  · exact h6
  · exact h6
  · exact ⟨inside_contour _ _ _ _ h6.1, h6.2⟩

section pen
variable [Field K] [DecidableEq K] [CharZero K]

/-- C100: every call of a method of a pen has the result that it has in the model with lists as values, and leaves the pen as there; of the lists
that existed before it changes at most the list of contours and the contour under construction. -/
theorem C100_call (depth : Nat) (gs : GlyphSet K) (S : Set Nat) (h : Heap K) (p : Pen K) (s : SegmentPen K) (hp : IsPen S h p s)
    (hs : PenInv s) (c : PenCall K) (p' : Pen K) (r : Py Unit) (h' : Heap K) (hc : call (drawGlyph depth gs) c p h = (p', r, h')) :
    r = (s.call (SegmentPen.drawGlyph depth gs) c).2 ∧
      IsPen (S ∪ created h h') h' p' (s.call (SegmentPen.drawGlyph depth gs) c).1 ∧
      h.length ≤ h'.length ∧ ∀ i < h.length, i ≠ p.contours → p.contour ≠ some i → h'[i]? = h[i]? := by
  obtain ⟨k1, k2, k3, k4, k5⟩ := call_ok (drawGlyph depth gs) (SegmentPen.drawGlyph depth gs) (drawGlyph_creates depth gs) S h p s hp hs c
  rw [hc] at k1 k2 k3
  refine ⟨k1, (isPen_inside k2).same ?_ (fun _ _ _ hc => hc), k3⟩
  rintro i ⟨hi | hi, hl⟩
  · exact .inl hi
  · exact .inr ⟨hi, hl⟩

/-- C100: whatever is done with a pen, and whatever other code does to lists that are not the pen's, the lists of the pen stand for the pen of the
model with lists as values. -/
theorem C100_history (depth : Nat) (gs : GlyphSet K) (S : Set Nat) (h : Heap K) (p : Pen K) (s : SegmentPen K)
    (hp : PenHistory depth gs S h p s) : IsPen S h p s ∧ PenInv s := by
  induction hp with
  | new h p h' e =>
    rw [newPen_run] at e
    cases e
    refine ⟨(isPen_inside (newPen_ok h)).same ?_ (fun _ _ _ hc => hc), SegmentPen.C57_init⟩
    rintro i ⟨hi, hl⟩
    exact ⟨hi, hl⟩
  | call S h p s c p' r h' _ e ih =>
    exact ⟨(C100_call depth gs S h p s ih.1 ih.2 c p' r h' e).2.1,
      SegmentPen.C57_call _ (SegmentPen.C57_drawGlyph depth gs) s ih.2 c⟩
  | other S h p s h' _ hsame _ ih =>
    exact ⟨ih.1.same (fun _ hi => hi) (fun i hi c hc => by rw [hsame i hi, hc]), ih.2⟩

/-- C100: the list that `contours` returns is always the same one; a call only adds to it. -/
theorem C100_live (depth : Nat) (gs : GlyphSet K) (S : Set Nat) (h : Heap K) (p : Pen K) (s : SegmentPen K) (hp : PenHistory depth gs S h p s)
    (c : PenCall K) (p' : Pen K) (r : Py Unit) (h' : Heap K) (hc : call (drawGlyph depth gs) c p h = (p', r, h')) :
    p'.contours = p.contours ∧ ∃ rs more, h[p.contours]? = some (.refs rs) ∧ h'[p.contours]? = some (.refs (rs ++ more)) := by
  obtain ⟨hP, hI⟩ := C100_history depth gs S h p s hp
  obtain ⟨_, _, _, k4, k5⟩ := call_ok (drawGlyph depth gs) (SegmentPen.drawGlyph depth gs) (drawGlyph_creates depth gs) S h p s hP hI c
  rw [hc] at k4 k5
  obtain ⟨_, _, rs, h3, _⟩ := hP
  obtain ⟨more, hm⟩ := k5 rs h3
  exact ⟨k4, rs, more, h3, hm⟩

/-- C100: no later call changes the list of a stored contour or one of its segments. -/
theorem C100_stored (depth : Nat) (gs : GlyphSet K) (S : Set Nat) (h : Heap K) (p : Pen K) (s : SegmentPen K) (hp : PenHistory depth gs S h p s)
    (c : PenCall K) (p' : Pen K) (r : Py Unit) (h' : Heap K) (hc : call (drawGlyph depth gs) c p h = (p', r, h'))
    (rs : List Nat) (hr : h[p.contours]? = some (.refs rs)) (x : Nat) (hx : x ∈ rs) (v : Contour K) (hv : IsContour Set.univ h x v) :
    IsContour Set.univ h' x v := by
  obtain ⟨hP, hI⟩ := C100_history depth gs S h p s hp
  obtain ⟨_, _, _, k4⟩ := C100_call depth gs S h p s hP hI c p' r h' hc
  obtain ⟨_, _, rs', h3, _, h5, h6⟩ := hP
  rw [hr] at h3
  cases h3
  have hcur : ∀ y, p.contour = some y → y ∉ rs ∧ ∃ l, h[y]? = some (.refs l) := by
    intro y hy
    rw [hy] at h6
    cases hs : s.contour with
    | none => rw [hs] at h6; exact h6.elim
    | some w =>
      rw [hs] at h6
      obtain ⟨_, l, hl, _⟩ := h6.1
      exact ⟨h6.2.1, l, hl⟩
  refine contour_keep (fun _ hi => hi) (k4 x ?_ ?_ ?_) ?_ hv
  · obtain ⟨_, _, hc, _⟩ := hv
    exact lt_of_cell hc
  · rintro rfl; exact h5 hx
  · intro he; exact (hcur x he).1 hx
  · intro i l hi
    rw [k4 i (lt_of_cell hi) ?_ ?_, hi]
    · rintro rfl; rw [hr] at hi; cases hi
    · intro he
      obtain ⟨_, l', hl'⟩ := hcur i he
      rw [hl'] at hi
      cases hi

end pen

/-- C100: the list that `contours` returns belongs to the pen: after `cs = pen.contours`, `cs.clear()` empties the pen (here a pen with one stored
contour, with its list of contours at the address 2). -/
theorem C100_contours_counterexample :
    let h : Heap ℚ := [.pts [(0, 0), (0, 0)], .refs [0], .refs [1]]
    let p : Pen ℚ := ⟨2, none, (0, 0)⟩
    IsPen Set.univ h p ⟨[[[(0, 0), (0, 0)]]], none, (0, 0)⟩ ∧ IsPen Set.univ (h.set 2 (.refs [])) p ⟨[], none, (0, 0)⟩ := by
  refine ⟨⟨rfl, trivial, [1], rfl, .cons ⟨trivial, [0], rfl, .cons ⟨trivial, rfl⟩ .nil⟩ .nil, by decide, trivial⟩,
    ⟨rfl, trivial, [], rfl, .nil, by decide, trivial⟩⟩

/-- A pen draws a triangle on an empty heap: the contour list at address 1 is stored, its closing line is added to it, and a
new list is begun. -/
example : (do
    let p ← (newPen : Prog ℚ (Pen ℚ))
    fun h => match run (fun _ => ofPy (.error .keyError)) [.moveTo (0, 0), .lineTo (4, 0), .lineTo (0, 4), .closePath] p h with
      | (p, .ok (), h) => (.ok p, h)
      | (_, .error e, h) => (.error e, h) : Prog ℚ (Pen ℚ)) [] =
    (.ok ⟨0, some 5, (0, 4)⟩, [.refs [1], .refs [2, 3, 4], .pts [(0, 0), (4, 0)], .pts [(4, 0), (0, 4)], .pts [(0, 4), (0, 0)], .refs []]) := by
  decide +kernel

/-- A history: a pen is created, another list is created, `moveTo` is called; the other list is not the pen's. -/
example : ∃ (S : Set Nat) (h : Heap ℚ) (p : Pen ℚ) (s : SegmentPen ℚ), PenHistory 0 (fun _ => none) S h p s ∧ 1 ∉ S ∧
    h = [.refs [], .pts [(7, 7)], .refs []] ∧ p = ⟨0, some 2, (3, 4)⟩ := by
  have h1 := PenHistory.new (depth := 0) (gs := fun _ => none) ([] : Heap ℚ) _ _ rfl
  have h2 := PenHistory.other _ _ _ _ ([.refs [], .pts [(7, 7)]] : Heap ℚ) h1 (fun i hi => by
    have : i = 0 := by simpa [created, newPen_run] using hi
    subst this; rfl) (by decide)
  refine ⟨_, _, _, _, .call _ _ _ _ (.moveTo (3, 4)) _ _ _ h2 rfl, ?_, rfl, rfl⟩
  simp [created]

end PathLib.Heap
