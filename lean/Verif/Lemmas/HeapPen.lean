import Verif.Lemmas.Heap
import Verif.Props.SegmentPen

/-!
# The pen on the heap
-/

namespace PathLib.Heap
open Spec
variable {K : Type}

theorem forall₂_pyGet {α β : Type} {R : α → β → Prop} {xs : List α} {bs : List β} (hR : List.Forall₂ R xs bs) (i : Int) (b : β)
    (hb : pyGet bs i = .ok b) : ∃ x, pyGet xs i = .ok x ∧ R x b := by
  have key : ∀ n : Nat, (match bs[n]? with | some x => .ok x | none => .error .indexError : Py β) = .ok b →
      ∃ x, (match xs[n]? with | some x => .ok x | none => .error .indexError : Py α) = .ok x ∧ R x b := by
    clear hb
    induction hR with
    | nil => simp
    | cons h1 _ ih =>
      intro n hb
      cases n with
      | zero => simp at hb ⊢; exact hb ▸ h1
      | succ n => simpa using ih n (by simpa using hb)
  unfold pyGet at hb ⊢
  rw [hR.length_eq]
  simp only at hb ⊢
  split_ifs at hb ⊢ <;> exact key _ hb

theorem contour_keep {S T : Set Nat} {h h' : Heap K} {x : Nat} {c : Contour K} (hST : S ⊆ T) (hx : h'[x]? = h[x]?)
    (hp : ∀ (i : Nat) (l : List (Pt K)), h[i]? = some (.pts l) → h'[i]? = some (.pts l)) (hc : IsContour S h x c) : IsContour T h' x c := by
  obtain ⟨h1, rs, h2, h3⟩ := hc
  exact ⟨hST h1, rs, by rw [hx, h2], h3.imp fun a b hab => ⟨hST hab.1, hp _ _ hab.2⟩⟩

theorem _root_.PathLib.Spec.IsPen.same {S T : Set Nat} {h h' : Heap K} {p : Pen K} {s : SegmentPen K} (hST : S ⊆ T)
    (hh : ∀ i ∈ S, ∀ c, h[i]? = some c → h'[i]? = some c) (hp : IsPen S h p s) : IsPen T h' p s := by
  obtain ⟨h1, h2, rs, h3, h4, h5, h6⟩ := hp
  refine ⟨h1, hST h2, rs, hh _ h2 _ h3, h4.imp fun _ _ hb => local_contour S T h h' _ _ hST hh hb, h5, ?_⟩
  cases hc : p.contour <;> cases hs : s.contour <;> rw [hc, hs] at h6
  · trivial
  · exact h6
  · exact h6
  · exact ⟨local_contour S T h h' _ _ hST hh h6.1, h6.2⟩

theorem _root_.PathLib.Spec.IsPen.none_left {S : Set Nat} {h : Heap K} {p : Pen K} {s : SegmentPen K} (hp : IsPen S h p s) (hc : p.contour = none) :
    s.contour = none := by
  obtain ⟨_, _, _, _, _, _, h6⟩ := hp
  rw [hc] at h6
  cases hs : s.contour with
  | none => rfl
  | some c => rw [hs] at h6; exact h6.elim

/-- Only the list of contours and the contour under construction have changed. -/
def Kept (p : Pen K) (h h' : Heap K) : Prop :=
  h.length ≤ h'.length ∧ ∀ i < h.length, i ≠ p.contours → p.contour ≠ some i → h'[i]? = h[i]?

theorem Kept.of_prefix {p : Pen K} {h h' : Heap K} (hp : h <+: h') : Kept p h h' :=
  ⟨hp.length_le, fun _ hi _ _ => prefix_get hp hi⟩

/-- The segments are appended to the contour under construction. -/
theorem appendSegments_run (p : Pen K) (segs : List (Segment K)) (hne : segs ≠ []) (h : Heap K) :
    ∃ r h', appendSegments p segs h = (r, h') ∧
      match p.contour with
      | none => r = .error .attributeError ∧ h <+: h'
      | some x => ∀ xs, h[x]? = some (.refs xs) → r = .ok () ∧ h.length ≤ h'.length ∧ (∀ i < h.length, i ≠ x → h'[i]? = h[i]?) ∧
          ∃ ys, h'[x]? = some (.refs (xs ++ ys)) ∧ List.Forall₂ (IsSegment (newSince h.length) h') ys segs := by
  unfold appendSegments
  cases hc : p.contour with
  | none =>
    obtain ⟨s, ss, rfl⟩ := List.exists_cons_of_ne_nil hne
    refine ⟨.error .attributeError, h ++ [.pts s], ?_, rfl, ⟨_, rfl⟩⟩
    simp only [forM_cons_run]
    rw [bind_error _ _ _ _ _ (by rw [bind_ok _ _ _ _ _ (alloc_run _ _)]; rfl)]
  | some x =>
    refine ⟨_, _, rfl, fun xs hx => ?_⟩
    obtain ⟨r, h', e, l, k, q⟩ := loop_creates (γ := Segment K) (α := Segment K) local_segment inside_segment []
      (fun s => alloc (.pts s)) (fun s => .ok s) segs segs
      (List.forall₂_same.mpr fun s _ h _ => ⟨.ok h.length, h ++ [.pts s], rfl, ⟨_, rfl⟩, h.length, rfl, by simp [newSince], by simp⟩)
      x (by simp) h (List.nil_prefix) xs hx
    have hm : segs.mapM (fun s => (.ok s : Py (Segment K))) = .ok segs := by
      clear * -
      induction segs with
      | nil => rfl
      | cons s ss ih => rw [List.mapM_cons, ih]; rfl
    rw [hm] at q
    obtain ⟨rfl, ys, h1, h2⟩ := q
    rw [show (fun (segment : Segment K) => (do
        let r ← alloc (.pts segment)
        extendRefs x [r] : Prog K Unit)) = fun s => do extendRefs x [← alloc (.pts s)] from rfl, e]
    exact ⟨rfl, l, k, ys, h1, h2⟩

/-- A new list of points, or the contour under construction grown by some segments. -/
theorem _root_.PathLib.Spec.IsPen.grown {S : Set Nat} {h h' : Heap K} {p : Pen K} {s : SegmentPen K} (hp : IsPen S h p s) (x : Nat) (c segs : Contour K)
    (hx : p.contour = some x) (hc : s.contour = some c) (hl : h.length ≤ h'.length) (hk : ∀ i < h.length, i ≠ x → h'[i]? = h[i]?)
    (hy : ∀ xs, h[x]? = some (.refs xs) → ∃ ys, h'[x]? = some (.refs (xs ++ ys)) ∧
      List.Forall₂ (IsSegment (newSince h.length) h') ys segs) (q : Pt K) :
    IsPen (S ∪ newSince h.length) h' { p with lastOnCurve := q } { s with contour := some (c ++ segs), lastOnCurve := q } ∧
      Kept p h h' := by
  obtain ⟨h1, h2, rs, h3, h4, h5, h6⟩ := hp
  rw [hx, hc] at h6
  obtain ⟨⟨hxS, xs, hxx, hxs⟩, hxr, hxc⟩ := h6
  obtain ⟨ys, hy1, hy2⟩ := hy xs hxx
  have hpts : ∀ (i : Nat) (l : List (Pt K)), h[i]? = some (.pts l) → h'[i]? = some (.pts l) := by
    intro i l hi
    rw [hk i (lt_of_cell hi), hi]
    rintro rfl
    rw [hxx] at hi
    cases hi
  refine ⟨⟨rfl, .inl h2, rs, ?_, ?_, h5, ?_⟩, hl, ?_⟩
  · rw [hk _ (lt_of_cell h3) (Ne.symm hxc), h3]
  · clear hxs hy2 h3
    generalize s.contours = cs at h4 ⊢
    induction h4 with
    | nil => exact .nil
    | @cons a b _ _ hab _ ih =>
      simp only [List.mem_cons, not_or] at h5 hxr
      refine .cons (contour_keep (fun i hi => .inl hi) ?_ hpts hab) (ih h5.2 hxr.2)
      obtain ⟨_, _, ha, _⟩ := hab
      exact hk _ (lt_of_cell ha) (Ne.symm hxr.1)
  · simp only [hx]
    refine ⟨⟨.inl hxS, xs ++ ys, hy1, ?_⟩, hxr, hxc⟩
    exact List.rel_append (hxs.imp fun a b hab => ⟨.inl hab.1, hpts _ _ hab.2⟩) (hy2.imp fun a b hab => ⟨.inr hab.1, hab.2⟩)
  · intro i hi _ hn
    exact hk i hi (fun he => hn (by rw [hx, he]))

theorem _root_.PathLib.Spec.IsPen.prefix {S : Set Nat} {h h' : Heap K} {p : Pen K} {s : SegmentPen K} (hp : IsPen S h p s) (hh : h <+: h') (T : Set Nat) :
    IsPen (S ∪ T) h' p s := hp.same (fun _ hi => .inl hi) fun _ _ _ hc => prefix_cell hh hc

/-- What a call has to do. -/
def CallOk (S : Set Nat) (h : Heap K) (p : Pen K) (out : Pen K × Py Unit × Heap K) (s' : SegmentPen K × Py Unit) : Prop :=
  out.2.1 = s'.2 ∧ IsPen (S ∪ newSince h.length) out.2.2 out.1 s'.1 ∧ Kept p h out.2.2 ∧ out.1.contours = p.contours ∧
    ∀ rs, h[p.contours]? = some (.refs rs) → ∃ more, out.2.2[p.contours]? = some (.refs (rs ++ more))

theorem stays {h h' : Heap K} {i : Nat} (he : h'[i]? = h[i]?) :
    ∀ rs, h[i]? = some (.refs rs) → ∃ more, h'[i]? = some (.refs (rs ++ more)) :=
  fun rs hr => ⟨[], by rw [he, hr, List.append_nil]⟩

theorem stays_prefix {h h' : Heap K} (hp : h <+: h') {i : Nat} :
    ∀ rs, h[i]? = some (.refs rs) → ∃ more, h'[i]? = some (.refs (rs ++ more)) :=
  fun rs hr => ⟨[], by rw [prefix_cell hp hr, List.append_nil]⟩

variable [Field K] [DecidableEq K]

omit [Field K] [DecidableEq K] in
theorem moveTo_ok (S : Set Nat) (h : Heap K) (p : Pen K) (s : SegmentPen K) (hp : IsPen S h p s) (pt : Pt K) :
    CallOk S h p (moveTo pt p h) (s.moveTo pt, .ok ()) := by
  obtain ⟨h1, h2, rs, h3, h4, h5, h6⟩ := hp
  have hpre : h <+: h ++ [Cell.refs []] := ⟨_, rfl⟩
  refine ⟨rfl, ⟨rfl, .inl h2, rs, prefix_cell hpre h3, ?_, h5, ⟨.inr (by simp [newSince]), [], by simp [moveTo], .nil⟩, ?_, ?_⟩, .of_prefix hpre, rfl, stays_prefix hpre⟩
  · exact h4.imp fun a b hab => local_contour _ _ _ _ _ _ (fun _ hi => .inl hi) (fun _ _ _ hc => prefix_cell hpre hc) hab
  · intro hm
    have : ∃ c, IsContour S h h.length c := by
      clear h3 h5 h6
      generalize s.contours = cs at h4
      induction h4 with
      | nil => simp at hm
      | cons hab _ ih =>
        rcases List.mem_cons.mp hm with rfl | hm
        · exact ⟨_, hab⟩
        · exact ih hm
    obtain ⟨c, _, _, hc, _⟩ := this
    exact lt_irrefl _ (lt_of_cell hc)
  · have := lt_of_cell h3
    show h.length ≠ p.contours
    omega

omit [Field K] [DecidableEq K] in
theorem append_ok (S : Set Nat) (h : Heap K) (p : Pen K) (s : SegmentPen K) (hp : IsPen S h p s) (segs : Contour K) (hne : segs ≠ []) :
    ∃ h', Kept p h h' ∧ h'[p.contours]? = h[p.contours]? ∧ match s.contour with
      | none => appendSegments p segs h = (.error .attributeError, h') ∧ IsPen (S ∪ newSince h.length) h' p s
      | some c => appendSegments p segs h = (.ok (), h') ∧ ∀ q, IsPen (S ∪ newSince h.length) h' { p with lastOnCurve := q }
          { s with contour := some (c ++ segs), lastOnCurve := q } := by
  obtain ⟨r, h', e, q⟩ := appendSegments_run p segs hne h
  have hp' := hp
  rw [e]
  cases hx : p.contour with
  | none =>
    rw [hx] at q
    obtain ⟨rfl, hh⟩ := q
    rw [hp.none_left hx]
    obtain ⟨_, _, _, h3, _⟩ := hp
    exact ⟨h', .of_prefix hh, prefix_get hh (lt_of_cell h3), rfl, hp'.prefix hh _⟩
  | some x =>
    rw [hx] at q
    cases hc : s.contour with
    | none => obtain ⟨_, _, _, _, _, _, h6⟩ := hp; rw [hx, hc] at h6; exact h6.elim
    | some c =>
      have hp' := hp
      obtain ⟨_, _, _, h3, _, _, h6⟩ := hp'
      rw [hx, hc] at h6
      obtain ⟨⟨_, xs, hxx, _⟩, _, hxc⟩ := h6
      obtain ⟨rfl, hl, hk, hy⟩ := q xs hxx
      have g := hp.grown x c _ hx hc hl hk (fun xs' h' => by rw [hxx] at h'; cases h'; exact hy)
      rw [hx] at g
      exact ⟨h', (g p.lastOnCurve).2, hk _ (lt_of_cell h3) (Ne.symm hxc), rfl, fun q => (g q).1⟩

omit [Field K] in
theorem lineTo_ok (S : Set Nat) (h : Heap K) (p : Pen K) (s : SegmentPen K) (hp : IsPen S h p s) (pt : Pt K) :
    CallOk S h p (lineTo pt p h) (s.lineTo pt) := by
  unfold lineTo SegmentPen.lineTo SegmentPen.append
  rw [hp.1]
  split_ifs with hne
  · obtain ⟨h', hk, hst, q⟩ := append_ok S h p s hp [[s.lastOnCurve, pt]] (by simp)
    cases hc : s.contour with
    | none =>
      rw [hc] at q
      rw [q.1]
      exact ⟨rfl, q.2, hk, rfl, stays hst⟩
    | some c =>
      rw [hc] at q
      rw [q.1]
      exact ⟨rfl, q.2 pt, hk, rfl, stays hst⟩
  · exact ⟨rfl, hp.prefix List.prefix_rfl _, .of_prefix List.prefix_rfl, rfl, stays rfl⟩

omit [Field K] [DecidableEq K] in
theorem curveTo_ok (S : Set Nat) (h : Heap K) (p : Pen K) (s : SegmentPen K) (hp : IsPen S h p s) (points : List (Pt K)) :
    CallOk S h p (curveTo points p h) (s.curveTo points) := by
  unfold curveTo SegmentPen.curveTo SegmentPen.append
  rw [hp.1]
  obtain ⟨h', hk, hst, q⟩ := append_ok S h p s hp [s.lastOnCurve :: points] (by simp)
  cases hc : s.contour with
  | none =>
    rw [hc] at q
    rw [q.1]
    exact ⟨rfl, q.2, hk, rfl, stays hst⟩
  | some c =>
    rw [hc] at q
    rw [q.1]
    cases hg : pyGet points (-1) with
    | error e =>
      have := q.2 p.lastOnCurve
      refine ⟨rfl, ?_, hk, rfl, stays hst⟩
      rw [hp.1] at this
      simp only
      rw [← hp.1] at this ⊢
      simpa using this
    | ok pt => exact ⟨rfl, q.2 pt, hk, rfl, stays hst⟩

omit [DecidableEq K] in
theorem qSegments_ne_nil (segment : Segment K) (pieces : List (Segment K)) (h : SegmentPen.qSegments segment = .ok pieces) :
    pieces ≠ [] := by
  unfold SegmentPen.qSegments at h
  split_ifs at h
  · simp only [pure_eq_ok, Except.ok.injEq] at h
    rw [← h]; simp
  · simp only [bind_eq_ok] at h
    obtain ⟨_, _, _, _, _, _, _, _, h⟩ := h
    simp only [pure_eq_ok, Except.ok.injEq] at h
    rw [← h]; simp

omit [DecidableEq K] in
theorem qCurveTo_ok (S : Set Nat) (h : Heap K) (p : Pen K) (s : SegmentPen K) (hp : IsPen S h p s) (points : List (Pt K)) :
    CallOk S h p (qCurveTo points p h) (s.qCurveTo points) := by
  unfold qCurveTo SegmentPen.qCurveTo
  rw [hp.1]
  cases hq : SegmentPen.qSegments (s.lastOnCurve :: points) with
  | error e =>
    simp only [hq]
    exact ⟨rfl, hp.prefix List.prefix_rfl _, .of_prefix List.prefix_rfl, rfl, stays rfl⟩
  | ok pieces =>
    obtain ⟨h', hk, hst, q⟩ := append_ok S h p s hp pieces (qSegments_ne_nil _ _ hq)
    cases hc : s.contour with
    | none =>
      rw [hc] at q
      simp only [hq, q.1]
      exact ⟨rfl, q.2, hk, rfl, stays hst⟩
    | some c =>
      rw [hc] at q
      simp only [hq, q.1]
      cases hg : pyGet (s.lastOnCurve :: points) (-1) with
      | error e =>
        have := q.2 p.lastOnCurve
        refine ⟨rfl, ?_, hk, rfl, stays hst⟩
        rw [hp.1] at this
        simp only
        rw [← hp.1] at this ⊢
        simpa using this
      | ok pt => exact ⟨rfl, q.2 pt, hk, rfl, stays hst⟩

omit [Field K] in
theorem closing_ok (c : Contour K) (hne : c ≠ []) (hc : ∀ s ∈ c, s ≠ []) :
    ∃ s0 sn a b, pyGet c 0 = .ok s0 ∧ pyGet c (-1) = .ok sn ∧ pyGet s0 0 = .ok a ∧ pyGet sn (-1) = .ok b ∧
      SegmentPen.closing c = .ok (if a = b then c else c ++ [[b, a]]) := by
  obtain ⟨s0, rest, rfl⟩ := List.exists_cons_of_ne_nil hne
  obtain ⟨a, as, rfl⟩ := List.exists_cons_of_ne_nil (hc s0 (by simp))
  have hn := hc _ (List.getLast_mem hne)
  have e1 : pyGet ((a :: as) :: rest) 0 = .ok (a :: as) := rfl
  have e2 : pyGet (a :: as) 0 = .ok a := rfl
  have e3 := pyGet_neg_one _ hne
  have e4 := pyGet_neg_one _ hn
  refine ⟨_, _, _, _, e1, e3, e2, e4, ?_⟩
  unfold SegmentPen.closing
  rw [e1, ok_bind, e2, ok_bind, e3, ok_bind, e4, ok_bind]
  split_ifs <;> first | rfl | contradiction

omit [Field K] in
theorem closePath_ok (S : Set Nat) (h : Heap K) (p : Pen K) (s : SegmentPen K) (hp : IsPen S h p s) (hs : PenInv s) :
    CallOk S h p (closePath p h) s.closePath := by
  unfold closePath SegmentPen.closePath
  cases hx : p.contour with
  | none =>
    rw [hp.none_left hx]
    exact ⟨rfl, hp.prefix List.prefix_rfl _, .of_prefix List.prefix_rfl, rfl, stays rfl⟩
  | some x =>
    cases hc : s.contour with
    | none => obtain ⟨_, _, _, _, _, _, h6⟩ := hp; rw [hx, hc] at h6; exact h6.elim
    | some c =>
      have hp' := hp
      obtain ⟨h1, h2, rs, h3, h4, h5, h6⟩ := hp'
      rw [hx, hc] at h6
      obtain ⟨⟨hxS, xs, hxx, hxs⟩, hxr, hxc⟩ := h6
      by_cases hnil : c = []
      · subst hnil
        cases hxs
        simp only [loadRefs_run hxx]
        exact ⟨rfl, hp.prefix List.prefix_rfl _, .of_prefix List.prefix_rfl, rfl, stays rfl⟩
      · have hxnil : xs ≠ [] := by
          rintro rfl; cases hxs; exact hnil rfl
        obtain ⟨s0, sn, a, b, g1, g2, g3, g4, g5⟩ := closing_ok c hnil (hs.opened c hc).1.1
        obtain ⟨x0, k1, k2⟩ := forall₂_pyGet hxs 0 s0 g1
        obtain ⟨xn, k3, k4⟩ := forall₂_pyGet hxs (-1) sn g2
        have hne0 : ∀ (i : Nat) (l : List (Pt K)), h[i]? = some (.pts l) → i ≠ p.contours ∧ i ≠ x := by
          intro i l hi
          constructor
          · rintro rfl; rw [h3] at hi; cases hi
          · rintro rfl; rw [hxx] at hi; cases hi
        have r0 : ∀ (i : Nat) (l : List (Pt K)), h[i]? = some (.pts l) →
            (h.set p.contours (.refs (rs ++ [x])))[i]? = some (.pts l) := by
          intro i l hi
          rw [List.getElem?_set_ne (Ne.symm (hne0 i l hi).1), hi]
        have body : ∀ (hh : Heap K), (∀ (i : Nat) (l : List (Pt K)), h[i]? = some (.pts l) → hh[i]? = some (.pts l)) →
            h.length ≤ hh.length → (∀ i < h.length, i ≠ p.contours → i ≠ x → hh[i]? = h[i]?) →
            hh[p.contours]? = some (.refs (rs ++ [x])) → ∀ c', IsContour (S ∪ newSince h.length) hh x c' →
            IsPen (S ∪ newSince h.length) (hh ++ [.refs []]) { p with contour := some hh.length }
              { s with contours := s.contours ++ [c'], contour := some [] } ∧ Kept p h (hh ++ [.refs []]) ∧
              ∀ rs, h[p.contours]? = some (.refs rs) → ∃ more, (hh ++ [Cell.refs []])[p.contours]? = some (.refs (rs ++ more)) := by
          intro hh q1 q2 q3 q4 c' q5
          have hpre : hh <+: hh ++ [Cell.refs []] := ⟨_, rfl⟩
          have hlt : ∀ r ∈ rs, r < h.length := by
            intro r hr
            clear * - h4 hr
            generalize s.contours = cs at h4
            induction h4 with
            | nil => simp at hr
            | cons hab _ ih =>
              rcases List.mem_cons.mp hr with rfl | hr
              · obtain ⟨_, _, hc, _⟩ := hab; exact lt_of_cell hc
              · exact ih hr
          refine ⟨⟨h1, .inl h2, rs ++ [x], prefix_cell hpre q4, ?_, ?_, ?_, ?_, ?_⟩, ⟨?_, ?_⟩, ?_⟩
          · refine List.rel_append ?_ (.cons (local_contour.grow hpre q5) .nil)
            clear h3 hs hp h1 g5 q4 hc r0
            generalize s.contours = cs at h4 ⊢
            induction h4 with
            | nil => exact .nil
            | @cons y b _ _ hab _ ih =>
              simp only [List.mem_cons, not_or] at h5 hxr
              refine .cons (contour_keep (h := h) (fun i hi => .inl hi) ?_ ?_ hab) (ih h5.2 hxr.2 (fun r hr => hlt r (by simp [hr])))
              · have := hlt y (by simp)
                rw [prefix_get hpre (by omega), q3 y this (Ne.symm h5.1) (Ne.symm hxr.1)]
              · intro i l hi
                exact prefix_cell hpre (q1 i l hi)
          · simp only [List.mem_append, List.mem_singleton, not_or]
            exact ⟨h5, fun he => hxc he.symm⟩
          · exact ⟨.inr (by simpa [newSince] using q2), [], by simp, .nil⟩
          · have := lt_of_cell hxx
            simp only [List.mem_append, List.mem_singleton, not_or]
            exact ⟨fun hm => by have := hlt _ hm; omega, by omega⟩
          · have := lt_of_cell h3
            show hh.length ≠ p.contours
            omega
          · simp; omega
          · intro i hi1 hi2 hi3
            rw [prefix_get hpre (by omega), q3 i hi1 hi2 (fun he => hi3 (by rw [hx, he]))]
          · intro rs' hr'
            rw [h3] at hr'
            cases hr'
            exact ⟨[x], prefix_cell hpre q4⟩
        obtain ⟨y, ys, rfl⟩ := List.exists_cons_of_ne_nil hxnil
        obtain ⟨d, ds, rfl⟩ := List.exists_cons_of_ne_nil hnil
        simp only [loadRefs_run hxx, g5]
        have hpl : p.contours < h.length := lt_of_cell h3
        have hxl : x < h.length := lt_of_cell hxx
        have e1 : closing x (y :: ys) (h.set p.contours (.refs (rs ++ [x]))) =
            ((if a ≠ b then extendRefs x [h.length] else pure () : Prog K Unit)
              (if a ≠ b then h.set p.contours (.refs (rs ++ [x])) ++ [.pts [b, a]] else h.set p.contours (.refs (rs ++ [x])))) := by
          unfold closing
          rw [bind_ok _ _ _ _ x0 (by rw [k1]; rfl), bind_ok _ _ _ _ _ (loadPts_run (r0 _ _ k2.2)),
            bind_ok _ _ _ _ a (by rw [g3]; rfl), bind_ok _ _ _ _ xn (by rw [k3]; rfl),
            bind_ok _ _ _ _ _ (loadPts_run (r0 _ _ k4.2)), bind_ok _ _ _ _ b (by rw [g4]; rfl)]
          split_ifs
          · rw [bind_ok _ _ _ _ _ (alloc_run _ _)]
            simp
          · rfl
        rw [bind_ok _ _ _ _ _ (extendRefs_run [x] h3), e1]
        by_cases hab : a = b
        · subst hab
          simp only [ne_eq, not_true, if_false, if_true, pure_run]
          have hb := body (h.set p.contours (.refs (rs ++ [x]))) r0 (by simp)
            (fun i _ hi _ => List.getElem?_set_ne (Ne.symm hi)) (List.getElem?_set_self hpl) (d :: ds)
            ⟨.inl hxS, y :: ys, by rw [List.getElem?_set_ne (Ne.symm hxc), hxx], hxs.imp fun i l hi => ⟨.inl hi.1, r0 _ _ hi.2⟩⟩
          exact ⟨rfl, hb.1, hb.2.1, rfl, hb.2.2⟩
        · simp only [ne_eq, hab, not_false_eq_true, if_true, if_false]
          have hpre : h.set p.contours (.refs (rs ++ [x])) <+: h.set p.contours (.refs (rs ++ [x])) ++ [Cell.pts [b, a]] := ⟨_, rfl⟩
          have hx2 : (h.set p.contours (.refs (rs ++ [x])) ++ [Cell.pts [b, a]])[x]? = some (.refs (y :: ys)) :=
            prefix_cell hpre (by rw [List.getElem?_set_ne (Ne.symm hxc), hxx])
          rw [extendRefs_run _ hx2]
          have r1 : ∀ (i : Nat) (l : List (Pt K)), h[i]? = some (.pts l) →
              ((h.set p.contours (.refs (rs ++ [x])) ++ [Cell.pts [b, a]]).set x (.refs (y :: ys ++ [h.length])))[i]? = some (.pts l) := by
            intro i l hi
            rw [List.getElem?_set_ne (Ne.symm (hne0 i l hi).2), prefix_cell hpre (r0 i l hi)]
          have hb := body ((h.set p.contours (.refs (rs ++ [x])) ++ [Cell.pts [b, a]]).set x (.refs (y :: ys ++ [h.length]))) r1
            (by simp) ?_ ?_ ((d :: ds) ++ [[b, a]]) ⟨.inl hxS, y :: ys ++ [h.length], ?_, ?_⟩
          · exact ⟨rfl, hb.1, hb.2.1, rfl, hb.2.2⟩
          · intro i hi1 hi2 hi3
            rw [List.getElem?_set_ne (Ne.symm hi3), prefix_get hpre (by simpa using hi1), List.getElem?_set_ne (Ne.symm hi2)]
          · rw [List.getElem?_set_ne hxc, prefix_get hpre (by simpa using hpl), List.getElem?_set_self hpl]
          · rw [List.getElem?_set_self (by simp; omega)]
          · refine List.rel_append (hxs.imp fun i l hi => ⟨.inl hi.1, r1 _ _ hi.2⟩) (.cons ⟨.inr (by simp [newSince]), ?_⟩ .nil)
            rw [List.getElem?_set_ne (by omega), List.getElem?_append_right (by simp)]
            simp

omit [Field K] [DecidableEq K] in
theorem allocRows_run (rows : Mat K) (h : Heap K) :
    ∃ rs, (rows.mapM fun (row : Row K) => (alloc (.nums row) : Prog K Nat)) h = (.ok rs, h ++ rows.map .nums) ∧
      List.Forall₂ (IsRow (newSince h.length) (h ++ rows.map .nums)) rs rows := by
  induction rows generalizing h with
  | nil => exact ⟨[], by simp [pure_run], .nil⟩
  | cons row rows ih =>
    obtain ⟨rs, h1, h2⟩ := ih (h ++ [.nums row])
    refine ⟨h.length :: rs, ?_, .cons ⟨by simp [newSince], by simp⟩ ?_⟩
    · rw [List.mapM_cons, bind_ok _ _ _ _ _ (alloc_run _ _), bind_ok _ _ _ _ _ h1, pure_run]
      simp
    · refine h2.imp fun i l hi => ?_
      rw [List.append_assoc] at hi
      refine ⟨?_, by simpa using hi.2⟩
      have := hi.1
      simp only [newSince, Set.mem_ofPred_eq, List.length_append, List.length_cons, List.length_nil] at this ⊢
      omega

omit [Field K] [DecidableEq K] in
theorem allocMatrix_creates (M : Mat K) : Creates [] (allocMatrix M) (.ok M) IsMatrix := by
  intro h _
  obtain ⟨rs, h1, h2⟩ := allocRows_run M h
  have hpre : h ++ M.map Cell.nums <+: h ++ M.map Cell.nums ++ [Cell.refs rs] := ⟨_, rfl⟩
  refine ⟨.ok (h ++ M.map Cell.nums).length, h ++ M.map Cell.nums ++ [Cell.refs rs], ?_, ⟨M.map Cell.nums ++ [Cell.refs rs], by simp⟩,
    _, rfl, by simp [newSince], rs, by simp, h2.imp fun i l hi => local_row.grow hpre hi⟩
  unfold allocMatrix
  rw [bind_ok _ _ _ _ _ h1, alloc_run]

/-- The contours that a component adds. -/
theorem component_creates (dg : String → Prog K Nat) (name : String) (res : Py (List (Contour K)))
    (hd : Creates [] (dg name) res IsContours) (tr : ComponentTransform K) :
    Creates [] (component dg name tr)
      (do
        let t ← (if tr ≠ SegmentPen.identityTransformation then do
            let m := Transform.matrix tr.xScale tr.xyScale tr.yxScale tr.yScale tr.xOffset tr.yOffset 0 0 1
            return some (← Transform.new [m])
          else return none : Py (Option (Transform K)))
        let contours ← res
        match t with
        | some t => t.applyToContours contours
        | none => return contours) IsContours := by
  intro h _
  unfold component
  by_cases ht : tr = SegmentPen.identityTransformation
  · simp only [ht, ne_eq, not_true, if_false, pure_eq_ok, ok_bind]
    obtain ⟨r, h', e, hp, q⟩ := hd h List.nil_prefix
    refine ⟨r, h', ?_, hp, ?_⟩
    · rw [bind_ok _ _ _ _ _ (pure_run none h), bind_run, e]
      cases r <;> rfl
    · cases res <;> exact q
  · simp only [ne_eq, ht, not_false_eq_true, if_true, Transform.new_single, ok_bind, pure_eq_ok]
    generalize Transform.matrix tr.xScale tr.xyScale tr.yxScale tr.yScale tr.xOffset tr.yOffset 0 0 1 = M
    obtain ⟨r1, h1, e1, p1, m, rfl, hm⟩ := allocMatrix_creates M h List.nil_prefix
    have e2 : (do
        let m ← allocMatrix M
        return some (← concatenateMatrices [m]) : Prog K (Option Nat)) h = (.ok (some m), h1) := by
      rw [bind_ok _ _ _ _ _ e1]; rfl
    rw [bind_ok _ _ _ _ _ e2]
    obtain ⟨r3, h3, e3, p3, q3⟩ := hd h1 List.nil_prefix
    cases hr : res with
    | error e =>
      rw [hr] at q3
      simp only at q3
      subst q3
      exact ⟨_, _, bind_error _ _ _ _ _ e3, p1.trans p3, rfl⟩
    | ok cs =>
      rw [hr] at q3
      obtain ⟨a, rfl, ha⟩ := q3
      have hm3 : IsMatrix (newSince h.length) h3 m M := local_matrix.grow p3 hm
      have ha3 : IsContours (newSince h.length) h3 a cs := by
        refine local_contours _ _ _ _ _ _ ?_ (fun _ _ _ hc => hc) ha
        intro i hi
        have := p1.length_le
        simp only [newSince, Set.mem_ofPred_eq] at hi ⊢
        omega
      obtain ⟨r4, h4, e4, p4, q4⟩ := contours_creates h3 (newSince h.length) m a M cs hm3 ha3 h3 List.prefix_rfl
      refine ⟨r4, h4, ?_, (p1.trans p3).trans p4, ?_⟩
      · rw [bind_ok _ _ _ _ _ e3]
        exact e4
      · simp only [ok_bind]
        cases ho : Transform.applyToContours ⟨M⟩ cs with
        | error e => rw [ho] at q4; exact q4
        | ok out =>
          rw [ho] at q4
          obtain ⟨b, hb1, hb2⟩ := q4
          refine ⟨b, hb1, local_contours _ _ _ _ _ _ ?_ (fun _ _ _ hc => hc) hb2⟩
          intro i hi
          have := p1.length_le
          have := p3.length_le
          simp only [newSince, Set.mem_ofPred_eq] at hi ⊢
          omega

theorem addComponent_ok (dg : String → Prog K Nat) (dgp : String → Py (List (Contour K)))
    (hd : ∀ name, Creates [] (dg name) (dgp name) IsContours) (S : Set Nat) (h : Heap K) (p : Pen K) (s : SegmentPen K)
    (hp : IsPen S h p s) (name : String) (tr : ComponentTransform K) :
    CallOk S h p (addComponent dg name tr p h) (s.addComponent dgp name tr) := by
  unfold addComponent SegmentPen.addComponent
  have key := component_creates dg name (dgp name) (hd name) tr h List.nil_prefix
  simp only at key ⊢
  generalize (do
        let t ← (if tr ≠ SegmentPen.identityTransformation then do
            let m := Transform.matrix tr.xScale tr.xyScale tr.yxScale tr.yScale tr.xOffset tr.yOffset 0 0 1
            return some (← Transform.new [m])
          else return none : Py (Option (Transform K)))
        let contours ← dgp name
        match t with
        | some t => t.applyToContours contours
        | none => return contours : Py (List (Contour K))) = res at key ⊢
  obtain ⟨r, h', e, hpre, q⟩ := key
  cases hr : res with
  | error er =>
    rw [hr] at q
    simp only at q
    subst q
    rw [bind_error _ _ _ _ _ e]
    exact ⟨rfl, hp.prefix hpre _, .of_prefix hpre, rfl, stays_prefix hpre⟩
  | ok cs =>
    rw [hr] at q
    obtain ⟨a, rfl, hnew, ys, hy1, hy2⟩ := q
    obtain ⟨h1, h2, rs, h3, h4, h5, h6⟩ := hp
    have hpl := lt_of_cell h3
    have hne : ∀ i ∈ newSince h.length, i ≠ p.contours := by
      intro i hi
      simp only [newSince, Set.mem_ofPred_eq] at hi
      omega
    rw [bind_ok _ _ _ _ _ e, bind_ok _ _ _ _ _ (loadRefs_run hy1), extendRefs_run _ (prefix_cell hpre h3)]
    have hlt : ∀ r ∈ rs, r < h.length := by
      intro r hr
      clear * - h4 hr
      generalize s.contours = cs at h4
      induction h4 with
      | nil => simp at hr
      | cons hab _ ih =>
        rcases List.mem_cons.mp hr with rfl | hr
        · obtain ⟨_, _, hc, _⟩ := hab; exact lt_of_cell hc
        · exact ih hr
    have hys : ∀ y ∈ ys, y ∈ newSince h.length := by
      intro y hy
      clear * - hy2 hy
      induction hy2 with
      | nil => simp at hy
      | cons hab _ ih =>
        rcases List.mem_cons.mp hy with rfl | hy
        · exact hab.1
        · exact ih hy
    have hpts : ∀ (i : Nat) (l : List (Pt K)), h[i]? = some (.pts l) →
        (h'.set p.contours (.refs (rs ++ ys)))[i]? = some (.pts l) := by
      intro i l hi
      rw [List.getElem?_set_ne, prefix_cell hpre hi]
      rintro rfl
      rw [h3] at hi
      cases hi
    have hkeep : ∀ i < h.length, i ≠ p.contours → (h'.set p.contours (.refs (rs ++ ys)))[i]? = h[i]? := by
      intro i hi hn
      rw [List.getElem?_set_ne (Ne.symm hn), prefix_get hpre hi]
    refine ⟨rfl, ⟨h1, .inl h2, rs ++ ys, ?_, ?_, ?_, ?_⟩, ⟨?_, ?_⟩, rfl, fun rs' hr' => ⟨ys, by
      rw [h3] at hr'; cases hr'; exact List.getElem?_set_self (by have := hpre.length_le; omega)⟩⟩
    · exact List.getElem?_set_self (by have := hpre.length_le; omega)
    · refine List.rel_append ?_ (hy2.imp fun i c hc => ?_)
      · clear * - h4 h5 hlt hpts hkeep
        generalize s.contours = cs at h4 ⊢
        generalize h'.set p.contours (.refs (rs ++ ys)) = hh at hpts hkeep ⊢
        induction h4 with
        | nil => exact .nil
        | @cons y b _ _ hab _ ih =>
          simp only [List.mem_cons, not_or] at h5
          exact .cons (contour_keep (fun i hi => .inl hi) (hkeep y (hlt y (by simp)) (Ne.symm h5.1)) hpts hab)
            (ih h5.2 (fun r hr => hlt r (by simp [hr])))
      · refine local_contour (newSince h.length) _ _ _ _ _ (fun i hi => .inr hi) ?_ hc
        intro i hi c hc
        rw [List.getElem?_set_ne (Ne.symm (hne i hi)), hc]
    · simp only [List.mem_append, not_or]
      exact ⟨h5, fun hm => hne _ (hys _ hm) rfl⟩
    · cases hx : p.contour with
      | none =>
        rw [hx] at h6
        cases hc : s.contour with
        | none => trivial
        | some c => rw [hc] at h6; exact h6
      | some x =>
        rw [hx] at h6
        cases hc : s.contour with
        | none => rw [hc] at h6; exact h6
        | some c =>
          rw [hc] at h6
          obtain ⟨g1, g2, g3⟩ := h6
          have hxl : x < h.length := by obtain ⟨_, _, hc, _⟩ := g1; exact lt_of_cell hc
          refine ⟨contour_keep (fun i hi => .inl hi) (hkeep x hxl g3) hpts g1, ?_, g3⟩
          simp only [List.mem_append, not_or]
          refine ⟨g2, fun hm => ?_⟩
          have := hys _ hm
          simp only [newSince, Set.mem_ofPred_eq] at this
          omega
    · simpa using hpre.length_le
    · intro i hi hn _
      exact hkeep i hi hn

/-- Every call does on the heap what it does in the model with lists as values. -/
theorem call_ok (dg : String → Prog K Nat) (dgp : String → Py (List (Contour K)))
    (hd : ∀ name, Creates [] (dg name) (dgp name) IsContours) (S : Set Nat) (h : Heap K) (p : Pen K) (s : SegmentPen K)
    (hp : IsPen S h p s) (hs : PenInv s) (c : PenCall K) : CallOk S h p (call dg c p h) (s.call dgp c) := by
  have same : ∀ e : PyErr, CallOk S h p (p, .error e, h) (s, .error e) := fun e =>
    ⟨rfl, hp.prefix List.prefix_rfl _, .of_prefix List.prefix_rfl, rfl, stays rfl⟩
  cases c with
  | moveTo pt => exact moveTo_ok S h p s hp pt
  | lineTo pt => exact lineTo_ok S h p s hp pt
  | curveTo ps => exact curveTo_ok S h p s hp ps
  | qCurveTo ps => exact qCurveTo_ok S h p s hp ps
  | closePath => exact closePath_ok S h p s hp hs
  | addComponent name t => exact addComponent_ok dg dgp hd S h p s hp name t
  | addPoint => exact same _
  | beginPath => exact same _
  | endPath => exact same _

/-- The lists that do not belong to the pen. -/
def Framed (S : Set Nat) (h h' : Heap K) : Prop := h.length ≤ h'.length ∧ ∀ i < h.length, i ∉ S → h'[i]? = h[i]?

omit [Field K] [DecidableEq K] in
theorem Kept.framed {S : Set Nat} {h h' : Heap K} {p : Pen K} {s : SegmentPen K} (hp : IsPen S h p s) (hk : Kept p h h') : Framed S h h' := by
  obtain ⟨_, h2, rs, _, _, _, h6⟩ := hp
  refine ⟨hk.1, fun i hi hn => hk.2 i hi (fun he => hn (he ▸ h2)) (fun he => ?_)⟩
  rw [he] at h6
  cases hc : s.contour with
  | none => rw [hc] at h6; exact h6
  | some c => rw [hc] at h6; exact hn h6.1.1

omit [Field K] [DecidableEq K] in
theorem Framed.trans {S : Set Nat} {h h1 h2 : Heap K} (f1 : Framed S h h1) (f2 : Framed (S ∪ newSince h.length) h1 h2) : Framed S h h2 := by
  refine ⟨f1.1.trans f2.1, fun i hi hn => ?_⟩
  rw [f2.2 i (lt_of_lt_of_le hi f1.1), f1.2 i hi hn]
  rintro (h | h)
  · exact hn h
  · simp only [newSince, Set.mem_ofPred_eq] at h; omega

variable [CharZero K]

theorem run_ok (dg : String → Prog K Nat) (dgp : String → Py (List (Contour K)))
    (hd : ∀ name, Creates [] (dg name) (dgp name) IsContours)
    (hc : ∀ name cs, dgp name = .ok cs → ∀ c ∈ cs, Connected c ∧ Closed c) (calls : List (PenCall K)) (S : Set Nat) (h : Heap K) (p : Pen K)
    (s : SegmentPen K) (hp : IsPen S h p s) (hs : PenInv s) :
    (run dg calls p h).2.1 = (s.run dgp calls).2 ∧
      IsPen (S ∪ newSince h.length) (run dg calls p h).2.2 (run dg calls p h).1 (s.run dgp calls).1 ∧
      Framed S h (run dg calls p h).2.2 ∧ (run dg calls p h).1.contours = p.contours := by
  induction calls generalizing S h p s with
  | nil => exact ⟨rfl, hp.prefix List.prefix_rfl _, ⟨le_refl _, fun _ _ _ => rfl⟩, rfl⟩
  | cons c cs ih =>
    obtain ⟨k1, k2, k3, k4, _⟩ := call_ok dg dgp hd S h p s hp hs c
    have k5 := SegmentPen.C57_call dgp hc s hs c
    have k6 := k3.framed hp
    unfold run SegmentPen.run
    rcases ho : call dg c p h with ⟨p', r, h'⟩
    rcases hv : s.call dgp c with ⟨s', r'⟩
    rw [ho, hv] at k1 k2
    rw [ho] at k4 k6
    rw [hv] at k5
    simp only at k1 k2 k4 k5 k6
    subst k1
    cases r with
    | error e => exact ⟨rfl, k2, k6, k4⟩
    | ok u =>
      obtain ⟨i1, i2, i3, i4⟩ := ih (S ∪ newSince h.length) h' p' s' k2 k5
      refine ⟨i1, i2.same ?_ (fun _ _ _ hc => hc), k6.trans i3, i4.trans k4⟩
      rintro i (hi | hi)
      · exact hi
      · right
        have := k6.1
        simp only [newSince, Set.mem_ofPred_eq] at hi ⊢
        omega

omit [DecidableEq K] [CharZero K] in
theorem newPen_run (h : Heap K) : newPen h = (.ok ⟨h.length, none, (0, 0)⟩, h ++ [.refs []]) := rfl

omit [DecidableEq K] [CharZero K] in
theorem newPen_ok (h : Heap K) : IsPen (newSince h.length) (h ++ [.refs []]) ⟨h.length, none, (0, 0)⟩ (SegmentPen.init : SegmentPen K) :=
  ⟨rfl, by simp [newSince], [], by simp, .nil, by simp, trivial⟩

/-- Drawing a glyph with a new pen. -/
theorem drawGlyph_creates (depth : Nat) (gs : GlyphSet K) (name : String) :
    Creates [] (drawGlyph depth gs name) (SegmentPen.drawGlyph depth gs name) IsContours := by
  induction depth generalizing name with
  | zero => exact fun h _ => ⟨_, _, rfl, List.prefix_rfl, rfl⟩
  | succ depth ih =>
    intro h _
    unfold drawGlyph SegmentPen.drawGlyph
    cases hg : gs name with
    | none => exact ⟨_, _, rfl, List.prefix_rfl, rfl⟩
    | some calls =>
      simp only [newPen_run]
      obtain ⟨k1, k2, k3, k4⟩ := run_ok (drawGlyph depth gs) (SegmentPen.drawGlyph depth gs) ih (SegmentPen.C57_drawGlyph depth gs) calls
        (newSince h.length) (h ++ [.refs []]) ⟨h.length, none, (0, 0)⟩ SegmentPen.init (newPen_ok h) SegmentPen.C57_init
      rcases ho : run (drawGlyph depth gs) calls ⟨h.length, none, (0, 0)⟩ (h ++ [.refs []]) with ⟨p', r, h'⟩
      rcases hv : SegmentPen.init.run (SegmentPen.drawGlyph depth gs) calls with ⟨s', r'⟩
      rw [ho, hv] at k1 k2
      rw [ho] at k3 k4
      simp only at k1 k2 k3 k4
      subst k1
      have hpre : h <+: h' := by
        apply prefix_of_get
        intro i hi
        rw [k3.2 i (by simp; omega) (by simp only [newSince, Set.mem_ofPred_eq]; omega), List.getElem?_append_left hi]
      simp only [ho]
      cases r with
      | error e => exact ⟨_, _, rfl, hpre, rfl⟩
      | ok u =>
        refine ⟨_, _, rfl, hpre, p'.contours, rfl, ?_⟩
        obtain ⟨_, h2, rs, h3, h4, _, _⟩ := k2
        have hsub : newSince h.length ∪ newSince (h ++ [Cell.refs (K := K) []]).length ⊆ newSince h.length := by
          rintro i (hi | hi)
          · exact hi
          · simp only [newSince, Set.mem_ofPred_eq, List.length_append] at hi ⊢; omega
        exact ⟨hsub h2, rs, h3, h4.imp fun a b hab => local_contour _ _ _ _ _ _ hsub (fun _ _ _ hc => hc) hab⟩

end PathLib.Heap
