import Verif.Props.Reversed
import Verif.Props.BContour
import Verif.Props.BezierReduce

/-!
# Bounds depend only on the points that are traced; parts of curves: C107
-/

set_option linter.unusedSectionVars false
set_option linter.unusedSimpArgs false

namespace PathLib
open Spec Bezier

namespace SamePoints

variable {K : Type} [Field K] [LinearOrder K] [IsStrictOrderedRing K]

theorem mem_of_pyGet {α : Type} {l : List α} {i : Int} {a : α} (h : pyGet l i = .ok a) : a ∈ l := by
  unfold pyGet at h
  simp only at h
  split_ifs at h
  all_goals
    split at h
    · next hx => cases h; exact List.mem_of_getElem? hx
    · cases h

theorem lerp_design {t : K} (h0 : 0 ≤ t) (h1 : t ≤ 1) {a b : Pt K} (ha : InDesignSpace a) (hb : InDesignSpace b) : InDesignSpace (butils.lerp t a b) := by
  obtain ⟨⟨a1, a2⟩, a3, a4⟩ := ha
  obtain ⟨⟨b1, b2⟩, b3, b4⟩ := hb
  unfold InDesignSpace butils.lerp
  refine ⟨⟨?_, ?_⟩, ?_, ?_⟩ <;> simp only <;> nlinarith

theorem hullLoop_design {t : K} (h0 : 0 ≤ t) (h1 : t ≤ 1) (n : ℕ) : ∀ ps : Segment K, ps.length = n → (∀ p ∈ ps, InDesignSpace p) → ∀ p ∈ hullLoop t ps, InDesignSpace p := by
  induction n with
  | zero =>
    intro ps h _ p hp
    have : ps = [] := List.length_eq_zero_iff.mp h
    subst this
    rw [hullLoop] at hp
    simp at hp
  | succ n ih =>
    intro ps h hd p hp
    have hs : ∀ q ∈ hullStep t ps, InDesignSpace q := by
      intro q hq
      unfold hullStep at hq
      obtain ⟨i, hi, rfl⟩ := List.getElem_of_mem hq
      rw [List.getElem_zipWith]
      exact lerp_design h0 h1 (hd _ (List.getElem_mem _)) (hd _ (List.mem_of_mem_tail (List.getElem_mem _)))
    rw [hullLoop] at hp
    split_ifs at hp
    · rcases List.mem_append.mp hp with hp | hp
      · exact hs p hp
      · exact ih _ (by rw [hullStep_length, h]; rfl) hs p hp
    · simp at hp

theorem hull_design {t : K} (h0 : 0 ≤ t) (h1 : t ≤ 1) (ps : Segment K) (hd : ∀ p ∈ ps, InDesignSpace p) : ∀ p ∈ hull ps t, InDesignSpace p := by
  intro p hp
  unfold hull at hp
  rcases List.mem_append.mp hp with hp | hp
  · exact hd p hp
  · exact hullLoop_design h0 h1 _ ps rfl hd p hp

theorem split1_design {t : ℝ} (h0 : 0 ≤ t) (h1 : t ≤ 1) (b l r : Bezier) (q : Segment ℝ) (hd : ∀ p ∈ b.controlPoints, InDesignSpace p)
    (e : split1 b t = .ok (l, r, q)) : (∀ p ∈ l.controlPoints, InDesignSpace p) ∧ ∀ p ∈ r.controlPoints, InDesignSpace p := by
  have hh := hull_design h0 h1 b.controlPoints hd
  unfold split1 at e
  obtain ⟨⟨l', r'⟩, h1, h⟩ := bind_eq_ok.mp e
  have hlr : (∀ p ∈ l'.controlPoints, InDesignSpace p) ∧ ∀ p ∈ r'.controlPoints, InDesignSpace p := by
    split_ifs at h1
    all_goals
      simp only [bind_eq_ok, pure_eq_ok, Except.ok.injEq, Prod.mk.injEq] at h1
    · obtain ⟨_, g1, _, g2, _, g3, _, hl, _, g4, _, g5, _, g6, _, hr, rfl, rfl⟩ := h1
      rw [(new_controlPoints hl).1, (new_controlPoints hr).1]
      constructor <;> intro p hp <;> simp only [List.mem_cons, List.not_mem_nil, or_false] at hp <;> rcases hp with rfl | rfl | rfl <;>
        exact hh _ (mem_of_pyGet (by assumption))
    · obtain ⟨_, g1, _, g2, _, g3, _, g7, _, hl, _, g4, _, g5, _, g6, _, g8, _, hr, rfl, rfl⟩ := h1
      rw [(new_controlPoints hl).1, (new_controlPoints hr).1]
      constructor <;> intro p hp <;> simp only [List.mem_cons, List.not_mem_nil, or_false] at hp <;> rcases hp with rfl | rfl | rfl | rfl <;>
        exact hh _ (mem_of_pyGet (by assumption))
  simp only [bind_eq_ok, pure_eq_ok, Except.ok.injEq, Prod.mk.injEq] at h
  obtain ⟨_, _, _, _, _, _, _, _, rfl, rfl, _⟩ := h
  exact hlr

/-- A rectangle that contains a set and is touched by it on all sides contains every rectangle touched by a smaller set. -/
theorem box_mono {S T : Set (Pt ℝ)} {r r' : BoundsRectangle ℝ} (hST : S ⊆ T) (h : Touched S r) (h' : ∀ p ∈ T, r'.enclosesPoint p = true) :
    r'.left ≤ r.left ∧ r'.bottom ≤ r.bottom ∧ r.right ≤ r'.right ∧ r.top ≤ r'.top := by
  obtain ⟨⟨p1, m1, e1⟩, ⟨p2, m2, e2⟩, ⟨p3, m3, e3⟩, ⟨p4, m4, e4⟩⟩ := h
  have k1 := (BoundsRectangle.enclosesPoint_iff _ _).mp (h' p1 (hST m1))
  have k2 := (BoundsRectangle.enclosesPoint_iff _ _).mp (h' p2 (hST m2))
  have k3 := (BoundsRectangle.enclosesPoint_iff _ _).mp (h' p3 (hST m3))
  have k4 := (BoundsRectangle.enclosesPoint_iff _ _).mp (h' p4 (hST m4))
  unfold InBox at k1 k2 k3 k4
  rw [← e1, ← e2, ← e3, ← e4]
  exact ⟨k1.1.1, k3.2.1, k2.1.2, k4.2.2⟩

theorem box_eq {r r' : BoundsRectangle ℝ} (h : r'.left ≤ r.left ∧ r'.bottom ≤ r.bottom ∧ r.right ≤ r'.right ∧ r.top ≤ r'.top)
    (h' : r.left ≤ r'.left ∧ r.bottom ≤ r'.bottom ∧ r'.right ≤ r.right ∧ r'.top ≤ r.top) : r = r' := by
  cases r; cases r'
  simp only at h h'
  simp only [BoundsRectangle.mk.injEq]
  exact ⟨le_antisymm h'.1 h.1, le_antisymm h'.2.1 h.2.1, le_antisymm h.2.2.1 h'.2.2.1, le_antisymm h.2.2.2 h'.2.2.2⟩

end SamePoints

open SamePoints

/-- The segments have two to four points in the design space. -/
def Spec.PlainContour (c : Contour ℝ) : Prop := ∀ s ∈ c, (2 ≤ s.length ∧ s.length ≤ 4) ∧ ∀ p ∈ s, InDesignSpace p

/-- C107: in the design space a contour of lines, quadratics and cubics that traces only points of another one has bounds within the other one's. -/
theorem C107_contour_within (c c' : Contour ℝ) (hc : PlainContour c) (hc' : PlainContour c') (bc bc' : BContour) (h : BContour.new c = .ok bc) (h' : BContour.new c' = .ok bc')
    (hs : curvePoints c ⊆ curvePoints c') :
    bc'.bounds.left ≤ bc.bounds.left ∧ bc'.bounds.bottom ≤ bc.bounds.bottom ∧ bc.bounds.right ≤ bc'.bounds.right ∧ bc.bounds.top ≤ bc'.bounds.top := by
  refine box_mono hs (C53_contour_tight c bc h fun s m => (hc s m).2) ?_
  rintro p ⟨s, m, t, h0, h1, hp⟩
  exact C53_contour c' bc' h' s m (hc' s m).1.2 t h0 h1 p hp

/-- C107: the bounds of a contour depend only on the points it traces. -/
theorem C107_contour (c c' : Contour ℝ) (hc : PlainContour c) (hc' : PlainContour c') (bc bc' : BContour) (h : BContour.new c = .ok bc) (h' : BContour.new c' = .ok bc')
    (hs : curvePoints c = curvePoints c') : bc.bounds = bc'.bounds :=
  box_eq (C107_contour_within c c' hc hc' bc bc' h h' hs.subset) (C107_contour_within c' c hc' hc bc' bc h' h hs.symm.subset)

/-- C107: the bounds of an outline depend only on the points it traces. -/
theorem C107_outline (cs cs' : List (Contour ℝ)) (hne : cs ≠ []) (hne' : cs' ≠ []) (hc : ∀ c ∈ cs, c ≠ [] ∧ PlainContour c) (hc' : ∀ c ∈ cs', c ≠ [] ∧ PlainContour c)
    (o o' : BOutline) (h : BOutline.new cs = .ok o) (h' : BOutline.new cs' = .ok o')
    (hs : { p | ∃ c ∈ cs, p ∈ curvePoints c } = { p | ∃ c ∈ cs', p ∈ curvePoints c }) : o.bounds = o'.bounds := by
  have key : ∀ (cs cs' : List (Contour ℝ)) (_ : cs ≠ []) (_ : ∀ c ∈ cs, c ≠ [] ∧ PlainContour c) (_ : ∀ c ∈ cs', c ≠ [] ∧ PlainContour c)
      (o o' : BOutline) (_ : BOutline.new cs = .ok o) (_ : BOutline.new cs' = .ok o')
      (_ : { p | ∃ c ∈ cs, p ∈ curvePoints c } ⊆ { p | ∃ c ∈ cs', p ∈ curvePoints c }),
      o'.bounds.left ≤ o.bounds.left ∧ o'.bounds.bottom ≤ o.bounds.bottom ∧ o.bounds.right ≤ o'.bounds.right ∧ o.bounds.top ≤ o'.bounds.top := by
    intro cs cs' hne hc hc' o o' h h' hs
    refine box_mono hs (C53_outline_tight cs o h hne fun c m s ms => ((hc c m).2 s ms).2) ?_
    rintro p ⟨c, m, s, ms, t, h0, h1, hp⟩
    exact C53_outline cs' o' h' c m (fun c m => ⟨(hc' c m).1, fun s ms => ((hc' c m).2 s ms).1.1⟩) s ms ((hc' c m).2 s ms).1.2 t h0 h1 p hp
  exact box_eq (key cs cs' hne hc hc' o o' h h' hs.subset) (key cs' cs hne' hc' hc o' o h' h hs.symm.subset)

/-- C107: the order of the contours does not matter for the bounds of an outline. -/
theorem C107_outline_order (cs cs' : List (Contour ℝ)) (hp : cs.Perm cs') (hne : cs ≠ []) (hc : ∀ c ∈ cs, c ≠ [] ∧ PlainContour c)
    (o o' : BOutline) (h : BOutline.new cs = .ok o) (h' : BOutline.new cs' = .ok o') : o.bounds = o'.bounds := by
  refine C107_outline cs cs' hne (fun e => hne (by rw [e] at hp; exact hp.eq_nil)) hc (fun c m => hc c (hp.mem_iff.mpr m)) o o' h h' ?_
  ext p
  simp only [Set.mem_ofPred_eq, hp.mem_iff]

namespace SamePoints

/-- A part of a curve in the design space has its control points there. -/
theorem part_design (ps qs : Segment ℝ) (hn : ps.length = 3 ∨ ps.length = 4) (hl : qs.length = ps.length) (hd : ∀ p ∈ ps, InDesignSpace p) (a e : ℝ)
    (h0 : 0 ≤ a) (h1 : a ≤ e) (h2 : e ≤ 1) (h : ∀ s, curve qs s = curve ps (a + s * (e - a))) : ∀ p ∈ qs, InDesignSpace p := by
  obtain ⟨b, hb, rfl, _, _⟩ := new_ok ps (by omega)
  obtain ⟨l, r, e1, l1, _, _, _, _, _, c1, _⟩ := split1_spec b hn e
  have d1 := (split1_design (h0.trans h1) h2 b l r _ hd e1).1
  rcases (h0.trans h1).eq_or_lt with he | he
  · have ea : a = 0 := by linarith
    have : qs = l.controlPoints := by
      refine Reversed.points_unique (by omega) (by omega) fun s => ?_
      rw [h, c1, ← he, ea]
      congr 1
      ring
    rw [this]
    exact d1
  · obtain ⟨l', r', e2, l2, l3, _, _, _, _, _, c2⟩ := split1_spec l (by omega) (a / e)
    have d2 := (split1_design (by positivity) ((div_le_one he).mpr h1) l l' r' _ d1 e2).2
    have : qs = r'.controlPoints := by
      refine Reversed.points_unique (by omega) (by omega) fun s => ?_
      rw [h, c2, c1]
      congr 1
      field_simp
    rw [this]
    exact d2

/-- The curves `qs` are parts of the curve `ps` that cover it, from its start to its end. -/
structure Parts (ps : Segment ℝ) (qs : List (Segment ℝ)) : Prop where
  part : ∀ q ∈ qs, q.length = ps.length ∧ ∃ a e, 0 ≤ a ∧ a ≤ e ∧ e ≤ 1 ∧ ∀ s, curve q s = curve ps (a + s * (e - a))
  covers : ∀ t, 0 ≤ t → t ≤ 1 → ∃ q ∈ qs, ∃ s, 0 ≤ s ∧ s ≤ 1 ∧ curve q s = curve ps t
  first : ∃ q, qs.head? = some q ∧ curve q 0 = curve ps 0
  last : ∃ q, qs.getLast? = some q ∧ curve q 1 = curve ps 1

theorem Parts.ordinary {ps : Segment ℝ} {qs : List (Segment ℝ)} (hn : ps.length = 3 ∨ ps.length = 4) (hd : ∀ p ∈ ps, InDesignSpace p) (h : Parts ps qs) : PlainContour qs := by
  intro q hq
  obtain ⟨hl, a, e, h0, h1, h2, hc⟩ := h.part q hq
  exact ⟨by omega, part_design ps q hn hl hd a e h0 h1 h2 hc⟩

theorem Parts.points {ps : Segment ℝ} {qs : List (Segment ℝ)} (hn : ps.length = 3 ∨ ps.length = 4) (h : Parts ps qs) : curvePoints qs = curvePoints [ps] := by
  have n0 : ps ≠ [] := by rintro rfl; simp at hn
  ext p
  constructor
  · rintro ⟨q, hq, s, s0, s1, hp⟩
    obtain ⟨hl, a, e, h0, h1, h2, hc⟩ := h.part q hq
    have n1 : q ≠ [] := by rintro rfl; simp at hl; omega
    refine ⟨ps, by simp, a + s * (e - a), by nlinarith, by nlinarith, ?_⟩
    rw [get_ok _ n1, hc] at hp
    rw [get_ok _ n0, hp]
  · rintro ⟨q, hq, t, t0, t1, hp⟩
    rw [List.mem_singleton] at hq
    subst hq
    obtain ⟨q', hq, s, s0, s1, hc⟩ := h.covers t t0 t1
    obtain ⟨hl, -⟩ := h.part q' hq
    have n1 : q' ≠ [] := by rintro rfl; simp at hl; omega
    refine ⟨q', hq, s, s0, s1, ?_⟩
    rw [get_ok _ n0] at hp
    rw [get_ok _ n1, hc, hp]

theorem points_append (c c' : Contour ℝ) : curvePoints (c ++ c') = curvePoints c ∪ curvePoints c' := by
  ext p
  simp only [curvePoints, List.mem_append, Set.mem_ofPred_eq, Set.mem_union]
  constructor
  · rintro ⟨s, h | h, r⟩
    · exact .inl ⟨s, h, r⟩
    · exact .inr ⟨s, h, r⟩
  · rintro (⟨s, h, r⟩ | ⟨s, h, r⟩)
    · exact ⟨s, .inl h, r⟩
    · exact ⟨s, .inr h, r⟩

theorem head?_of_curve {ps qs : Segment ℝ} (h1 : ps ≠ []) (h2 : qs ≠ []) (h : curve qs 0 = curve ps 0) : qs.head? = ps.head? := by
  rw [curve_zero _ h1, curve_zero _ h2] at h
  rw [List.head?_eq_some_head h1, List.head?_eq_some_head h2, h]

theorem getLast?_of_curve {ps qs : Segment ℝ} (h1 : ps ≠ []) (h2 : qs ≠ []) (h : curve qs 1 = curve ps 1) : qs.getLast? = ps.getLast? := by
  rw [curve_at_one _ h1, curve_at_one _ h2] at h
  rw [List.getLast?_eq_some_getLast h1, List.getLast?_eq_some_getLast h2, h]

/-- A segment of a contour replaced by parts that cover it. -/
theorem replace (pre post : Contour ℝ) (ps : Segment ℝ) (qs : List (Segment ℝ)) (hn : ps.length = 3 ∨ ps.length = 4) (hc : PlainContour (pre ++ [ps] ++ post)) (h : Parts ps qs) :
    ∃ bc bc', BContour.new (pre ++ [ps] ++ post) = .ok bc ∧ BContour.new (pre ++ qs ++ post) = .ok bc' ∧
      bc'.bounds = bc.bounds ∧ bc'.start = bc.start ∧ bc'.stop = bc.stop := by
  have n0 : ps ≠ [] := by rintro rfl; simp at hn
  have hd := (hc ps (by simp)).2
  have ho : PlainContour (pre ++ qs ++ post) := by
    intro s hs
    rcases List.mem_append.mp hs with hs | hs
    · rcases List.mem_append.mp hs with hs | hs
      · exact hc s (by simp [hs])
      · exact h.ordinary hn hd s hs
    · exact hc s (by simp [hs])
  obtain ⟨q0, e0, f0⟩ := h.first
  obtain ⟨q1, e1, f1⟩ := h.last
  have m0 : q0 ∈ qs := List.mem_of_head? e0
  have m1 : q1 ∈ qs := List.mem_of_getLast? e1
  have nn : qs ≠ [] := List.ne_nil_of_mem m0
  have ne0 : q0 ≠ [] := by rintro rfl; have := (h.part _ m0).1; simp at this; omega
  have ne1 : q1 ≠ [] := by rintro rfl; have := (h.part _ m1).1; simp at this; omega
  obtain ⟨bc, e⟩ := (C52_new (pre ++ [ps] ++ post)).mpr ⟨by simp, fun s m => (hc s m).1.1⟩
  obtain ⟨bc', e'⟩ := (C52_new (pre ++ qs ++ post)).mpr ⟨by simp [nn], fun s m => (ho s m).1.1⟩
  refine ⟨bc, bc', e, e', C107_contour _ _ ho hc _ _ e' e ?_, ?_⟩
  · rw [points_append, points_append, points_append, points_append, h.points hn]
  · have r := Reversed.contour_refines _ _ e
    have r' := Reversed.contour_refines _ _ e'
    have H : ∃ s0 s0', (pre ++ [ps] ++ post).head? = some s0 ∧ (pre ++ qs ++ post).head? = some s0' ∧ s0'.head? = s0.head? := by
      cases pre with
      | cons s pre => exact ⟨s, s, rfl, rfl, rfl⟩
      | nil =>
        refine ⟨ps, q0, rfl, ?_, head?_of_curve n0 ne0 f0⟩
        rw [List.nil_append, List.head?_append, e0]
        rfl
    have L : ∃ s1 s1', (pre ++ [ps] ++ post).getLast? = some s1 ∧ (pre ++ qs ++ post).getLast? = some s1' ∧ s1'.getLast? = s1.getLast? := by
      rcases List.eq_nil_or_concat post with rfl | ⟨post, s, rfl⟩
      · refine ⟨ps, q1, by simp, ?_, getLast?_of_curve n0 ne1 f1⟩
        rw [List.append_nil, List.getLast?_append, e1]
        rfl
      · refine ⟨s, s, ?_, ?_, rfl⟩
        · rw [List.concat_eq_append, ← List.append_assoc, List.getLast?_concat]
        · rw [List.concat_eq_append, ← List.append_assoc, List.getLast?_concat]
    obtain ⟨s0, s0', a1, a2, a3⟩ := H
    obtain ⟨s1, s1', b1, b2, b3⟩ := L
    obtain ⟨c1, c2⟩ := r.ends s0 s1 a1 b1
    obtain ⟨d1, d2⟩ := r'.ends s0' s1' a2 b2
    rw [a3, c1] at d1
    rw [b3, c2] at d2
    exact ⟨(Option.some.inj d1).symm, (Option.some.inj d2).symm⟩

theorem parts_split (b l r : Bezier) (hb : QuadOrCubic b) (t : ℝ) (h0 : 0 ≤ t) (h1 : t ≤ 1) (q : Segment ℝ) (e : split b t none = .ok (.parts l r q)) :
    Parts b.controlPoints [l.controlPoints, r.controlPoints] := by
  obtain ⟨l', r', e1, a1, a2, _, _, _, _, c1, c2⟩ := split1_spec b hb t
  unfold split at e
  simp only [e1, ok_bind, pure_eq_ok, Except.ok.injEq, SplitResult.parts.injEq] at e
  obtain ⟨rfl, rfl, -⟩ := e
  refine ⟨?_, ?_, ⟨_, rfl, by rw [c1]; simp⟩, ⟨r'.controlPoints, rfl, by rw [c2]; simp⟩⟩
  · intro q hq
    rcases List.mem_cons.mp hq with rfl | hq
    · exact ⟨a1, 0, t, le_rfl, h0, h1, fun s => by rw [c1]; congr 1; ring⟩
    · rw [List.mem_singleton] at hq
      subst hq
      exact ⟨a2, t, 1, h0, h1, le_rfl, fun s => by rw [c2]⟩
  · intro u u0 u1
    rcases le_or_gt u t with hu | hu
    · rcases h0.eq_or_lt with ht | ht
      · exact ⟨_, List.mem_cons_self, 0, le_rfl, zero_le_one, by rw [c1]; congr 1; rw [← ht] at hu ⊢; linarith⟩
      · exact ⟨_, List.mem_cons_self, u / t, by positivity, (div_le_one ht).mpr hu, by rw [c1]; congr 1; field_simp⟩
    · have : 0 < 1 - t := by linarith
      exact ⟨r'.controlPoints, by simp, (u - t) / (1 - t), div_nonneg (by linarith) this.le, (div_le_one this).mpr (by linarith),
        by rw [c2]; congr 1; field_simp; ring⟩

theorem parts_reduce (b : Bezier) (hb : QuadOrCubic b) (r : List Bezier) (h : reduce b = .ok r) (hr : r ≠ []) : Parts b.controlPoints (r.map (·.controlPoints)) := by
  have le : ∀ (l : List Bezier) (a e : ℝ), TilesFrom b.controlPoints a e l → a ≤ e ∧ (∀ p ∈ l, a ≤ p.t1 ∧ p.t1 < p.t2 ∧ p.t2 ≤ e ∧
      p.controlPoints.length = b.controlPoints.length ∧ ∀ s, curve p.controlPoints s = curve b.controlPoints (p.t1 + s * (p.t2 - p.t1))) ∧
      (∀ p, l.head? = some p → p.t1 = a) ∧ ∀ p, l.getLast? = some p → p.t2 = e := by
    intro l
    induction l with
    | nil => intro a e h; exact ⟨le_of_eq h, by simp⟩
    | cons p l ih =>
      rintro a e ⟨a1, a2, a3, a4, a5⟩
      obtain ⟨b1, b2, b3, b4⟩ := ih _ _ a5
      refine ⟨by linarith, fun q hq => ?_, ?_, ?_⟩
      · rcases List.mem_cons.mp hq with rfl | hq
        · exact ⟨a1.ge, a2, b1, a3, a4⟩
        · obtain ⟨c1, c2⟩ := b2 q hq
          exact ⟨by linarith, c2⟩
      · rintro q hq
        cases hq
        exact a1
      · intro q hq
        cases l with
        | nil => cases hq; exact a5
        | cons p' l => exact b4 q (by rwa [List.getLast?_cons_cons] at hq)
  have T := C48_tiles b hb r h hr
  obtain ⟨-, k2, k3, k4⟩ := le r 0 1 T
  have n0 : b.controlPoints ≠ [] := by intro e; unfold QuadOrCubic at hb; rw [e] at hb; simp at hb
  refine ⟨?_, ?_, ?_, ?_⟩
  · intro q hq
    obtain ⟨p, hp, rfl⟩ := List.mem_map.mp hq
    obtain ⟨a1, a2, a3, a4, a5⟩ := k2 p hp
    exact ⟨a4, p.t1, p.t2, a1, a2.le, a3, a5⟩
  · intro t t0 t1
    obtain ⟨p, hp, s, s0, s1, _, hg⟩ := C48_covers b hb r h hr t t0 t1
    have n1 : p.controlPoints ≠ [] := by
      intro e
      have := (k2 p hp).2.2.2.1
      rw [e] at this
      exact n0 (List.length_eq_zero_iff.mp this.symm)
    rw [get_ok _ n0, get_ok _ n1, Except.ok.injEq] at hg
    exact ⟨p.controlPoints, List.mem_map_of_mem hp, s, s0, s1, hg⟩
  · have hh := List.head?_eq_some_head hr
    refine ⟨(r.head hr).controlPoints, by rw [List.head?_map, hh]; rfl, ?_⟩
    rw [(k2 _ (List.head_mem hr)).2.2.2.2, k3 _ hh]
    congr 1
    ring
  · have hh := List.getLast?_eq_some_getLast hr
    refine ⟨(r.getLast hr).controlPoints, by rw [List.getLast?_map, hh]; rfl, ?_⟩
    rw [(k2 _ (List.getLast_mem hr)).2.2.2.2, k4 _ hh]
    congr 1
    ring

/-- The rectangle of a curve in the design space contains its points and is touched by them. -/
theorem rectangle_spec (ps : Segment ℝ) (h2 : 2 ≤ ps.length) (h4 : ps.length ≤ 4) (hd : ∀ p ∈ ps, InDesignSpace p) :
    ∃ r, boundsRectangle ps = .ok r ∧ BoundsRectangle.Proper r ∧ Touched (curvePoints [ps]) r ∧ ∀ p ∈ curvePoints [ps], r.enclosesPoint p = true := by
  have n0 : ps ≠ [] := by rintro rfl; simp at h2
  obtain ⟨r, e, hp, hi⟩ := boundsRectangle_ok ps h2
  obtain ⟨r', e', _, t1, t2, t3, t4⟩ := C37_tight_of_curve ps h2 fun t => curve_in_design_space ps n0 hd t
  rw [e] at e'
  cases e'
  have mem : ∀ t, 0 ≤ t → t ≤ 1 → curve ps t ∈ curvePoints [ps] := fun t h0 h1 => ⟨ps, by simp, t, h0, h1, get_ok _ n0 t⟩
  refine ⟨r, e, hp, ⟨?_, ?_, ?_, ?_⟩, ?_⟩
  · obtain ⟨t, h0, h1, h⟩ := t1; exact ⟨_, mem t h0 h1, h⟩
  · obtain ⟨t, h0, h1, h⟩ := t2; exact ⟨_, mem t h0 h1, h⟩
  · obtain ⟨t, h0, h1, h⟩ := t3; exact ⟨_, mem t h0 h1, h⟩
  · obtain ⟨t, h0, h1, h⟩ := t4; exact ⟨_, mem t h0 h1, h⟩
  · rintro p ⟨s, hs, t, h0, h1, hg⟩
    rw [List.mem_singleton] at hs
    subst hs
    rw [get_ok _ n0] at hg
    cases hg
    exact hi h4 t h0 h1

end SamePoints

/-- C107: the two parts of a curve in the design space have rectangles whose union is the rectangle of the curve. -/
theorem C107_split_bounds (b : Bezier) (hb : QuadOrCubic b) (hd : ∀ p ∈ b.controlPoints, InDesignSpace p) (t : ℝ) (h0 : 0 ≤ t) (h1 : t ≤ 1) (l r : Bezier) (q : Segment ℝ)
    (e : split b t none = .ok (.parts l r q)) :
    ∃ R R1 R2, boundsRectangle b.controlPoints = .ok R ∧ boundsRectangle l.controlPoints = .ok R1 ∧ boundsRectangle r.controlPoints = .ok R2 ∧ R1.union R2 = R := by
  have P := parts_split b l r hb t h0 h1 q e
  have O := P.ordinary hb hd
  have hp := P.points hb
  obtain ⟨R, e0, p0, t0, i0⟩ := rectangle_spec b.controlPoints (by unfold QuadOrCubic at hb; omega) (by unfold QuadOrCubic at hb; omega) hd
  obtain ⟨R1, e1, p1, t1, i1⟩ := rectangle_spec l.controlPoints (O _ (by simp)).1.1 (O _ (by simp)).1.2 (O _ (by simp)).2
  obtain ⟨R2, e2, p2, t2, i2⟩ := rectangle_spec r.controlPoints (O _ (by simp)).1.1 (O _ (by simp)).1.2 (O _ (by simp)).2
  refine ⟨R, R1, R2, e0, e1, e2, ?_⟩
  have s : curvePoints [b.controlPoints] = curvePoints [l.controlPoints] ∪ curvePoints [r.controlPoints] := by
    rw [← hp, ← points_append]; rfl
  have k1 := box_mono (s ▸ Set.subset_union_left) t1 i0
  have k2 := box_mono (s ▸ Set.subset_union_right) t2 i0
  have k3 := box_mono s.subset t0 (r' := R1.union R2) fun p hp => C10_union_points R1 R2 p (hp.imp (i1 p) (i2 p))
  refine box_eq ?_ k3 |> Eq.symm |> fun h => h.symm
  rw [BoundsRectangle.union_eq p1]
  exact ⟨le_min k1.1 k2.1, le_min k1.2.1 k2.2.1, max_le k1.2.2.1 k2.2.2.1, max_le k1.2.2.2 k2.2.2.2⟩

/-- C107: a contour in which a curve is replaced by its two parts has the same bounds, start and end. -/
theorem C107_split_contour (pre post : Contour ℝ) (b : Bezier) (hb : QuadOrCubic b) (hc : PlainContour (pre ++ [b.controlPoints] ++ post)) (t : ℝ) (h0 : 0 ≤ t) (h1 : t ≤ 1)
    (l r : Bezier) (q : Segment ℝ) (e : split b t none = .ok (.parts l r q)) :
    ∃ bc bc', BContour.new (pre ++ [b.controlPoints] ++ post) = .ok bc ∧ BContour.new (pre ++ [l.controlPoints, r.controlPoints] ++ post) = .ok bc' ∧
      bc'.bounds = bc.bounds ∧ bc'.start = bc.start ∧ bc'.stop = bc.stop :=
  replace pre post _ _ hb hc (parts_split b l r hb t h0 h1 q e)

/-- C107: a contour in which a curve is replaced by the curves of its reduction has the same bounds, start and end. -/
theorem C107_reduce_contour (pre post : Contour ℝ) (b : Bezier) (hb : QuadOrCubic b) (hc : PlainContour (pre ++ [b.controlPoints] ++ post)) (r : List Bezier)
    (h : reduce b = .ok r) (hr : r ≠ []) :
    ∃ bc bc', BContour.new (pre ++ [b.controlPoints] ++ post) = .ok bc ∧ BContour.new (pre ++ r.map (·.controlPoints) ++ post) = .ok bc' ∧
      bc'.bounds = bc.bounds ∧ bc'.start = bc.start ∧ bc'.stop = bc.stop :=
  replace pre post _ _ hb hc (parts_reduce b hb r h hr)

/-- C107: splitting the left part at `u` is splitting the curve at `t * u`: it gives the same left part, and the right part of it ends at `t`. -/
theorem C107_nested (b l r : Bezier) (hb : QuadOrCubic b) (t u : ℝ) (q : Segment ℝ) (e : split b t none = .ok (.parts l r q)) :
    ∃ l1 r1 q1 l2 r2 q2, split l u none = .ok (.parts l1 r1 q1) ∧ split b (t * u) none = .ok (.parts l2 r2 q2) ∧ l1.controlPoints = l2.controlPoints ∧
      l1.t1 = l2.t1 ∧ l1.t2 = l2.t2 ∧ r1.t1 = r2.t1 := by
  obtain ⟨l', r', e1, a1, a2, a3, a4, a5, a6, c1, c2⟩ := split1_spec b hb t
  unfold split at e
  simp only [e1, ok_bind, pure_eq_ok, Except.ok.injEq, SplitResult.parts.injEq] at e
  obtain ⟨rfl, rfl, -⟩ := e
  obtain ⟨l1, r1, e2, b1, b2, b3, b4, b5, b6, d1, d2⟩ := split1_spec l' (by unfold QuadOrCubic at hb; omega) u
  obtain ⟨l2, r2, e3, f1, f2, f3, f4, f5, f6, g1, g2⟩ := split1_spec b hb (t * u)
  refine ⟨l1, r1, hull l'.controlPoints u, l2, r2, hull b.controlPoints (t * u), by unfold split; simp only [e2, ok_bind, pure_eq_ok], by unfold split; simp only [e3, ok_bind, pure_eq_ok], ?_, ?_, ?_, ?_⟩
  · refine Reversed.points_unique (by unfold QuadOrCubic at hb; omega) (by omega) fun s => ?_
    rw [d1, c1, g1]
    congr 1
    ring
  · rw [b3, f3, a3]
  · rw [b4, f4, a4, a3]; ring
  · rw [b5, f5, a4, a3]; ring

/-- C107: the look-up table of a curve with `2 n + 1` points is the table of its first half with `n + 1` points followed by the one of its second half without the
point they share. -/
theorem C107_table (b l r : Bezier) (hb : QuadOrCubic b) (q : Segment ℝ) (e : split b (1 / 2) none = .ok (.parts l r q)) (n : ℕ) (hn : 1 ≤ n) :
    ∃ L1 L2, lutOf l.controlPoints (n + 1 : ℕ) = .ok L1 ∧ lutOf r.controlPoints (n + 1 : ℕ) = .ok L2 ∧ lutOf b.controlPoints (2 * n + 1 : ℕ) = .ok (L1 ++ L2.tail) := by
  obtain ⟨l', r', e1, a1, a2, _, _, _, _, c1, c2⟩ := split1_spec b hb (1 / 2)
  unfold split at e
  simp only [e1, ok_bind, pure_eq_ok, Except.ok.injEq, SplitResult.parts.injEq] at e
  obtain ⟨rfl, rfl, -⟩ := e
  have n0 : b.controlPoints ≠ [] := by intro e; unfold QuadOrCubic at hb; rw [e] at hb; simp at hb
  have n1 : l'.controlPoints ≠ [] := by intro e; rw [e] at a1; exact n0 (List.length_eq_zero_iff.mp a1.symm)
  have n2 : r'.controlPoints ≠ [] := by intro e; rw [e] at a2; exact n0 (List.length_eq_zero_iff.mp a2.symm)
  obtain ⟨L1, h1, m1, k1⟩ := C40_samples l'.controlPoints n1 (n + 1) (by omega)
  obtain ⟨L2, h2, m2, k2⟩ := C40_samples r'.controlPoints n2 (n + 1) (by omega)
  obtain ⟨L, h3, m3, k3⟩ := C40_samples b.controlPoints n0 (2 * n + 1) (by omega)
  refine ⟨L1, L2, h1, h2, ?_⟩
  rw [h3]
  congr 1
  have np : (0:ℝ) < n := by exact_mod_cast hn
  simp only [get_ok _ n0, get_ok _ n1, get_ok _ n2, Except.ok.injEq, Nat.add_sub_cancel] at k1 k2 k3
  refine List.ext_getElem (by simp [m1, m2, m3]; omega) fun i hi hi' => ?_
  rw [← k3]
  by_cases h : i < n + 1
  · rw [List.getElem_append_left (by omega), ← k1, c1]
    congr 1
    push_cast
    field_simp
  · rw [List.getElem_append_right (by omega), List.getElem_tail, ← k2, c2]
    congr 1
    have : ((i - L1.length + 1 : ℕ) : ℝ) = i - n := by
      rw [m1, show i - (n + 1) + 1 = i - n by omega, Nat.cast_sub (by omega)]
    rw [this]
    push_cast
    field_simp
    ring

private theorem ordinary_of_rat (c : Contour ℚ) (h : ∀ s ∈ c, (2 ≤ s.length ∧ s.length ≤ 4) ∧ ∀ p ∈ s, (-32768 ≤ p.1 ∧ p.1 ≤ 32768) ∧ -32768 ≤ p.2 ∧ p.2 ≤ 32768) :
    PlainContour (c.map fun s => s.map fun p => ((p.1 : ℝ), (p.2 : ℝ))) := by
  intro s hs
  obtain ⟨s, hs', rfl⟩ := List.mem_map.mp hs
  obtain ⟨hl, hp⟩ := h s hs'
  refine ⟨by simpa using hl, fun p hm => ?_⟩
  obtain ⟨p, hm', rfl⟩ := List.mem_map.mp hm
  obtain ⟨⟨h1, h2⟩, h3, h4⟩ := hp p hm'
  have h1' : ((-32768 : ℚ) : ℝ) ≤ p.1 := Rat.cast_le.mpr h1
  have h2' : (p.1 : ℝ) ≤ (32768 : ℚ) := Rat.cast_le.mpr h2
  have h3' : ((-32768 : ℚ) : ℝ) ≤ p.2 := Rat.cast_le.mpr h3
  have h4' : (p.2 : ℝ) ≤ (32768 : ℚ) := Rat.cast_le.mpr h4
  push_cast at h1' h2' h3' h4'
  exact ⟨⟨h1', h2'⟩, h3', h4'⟩

/-- An arch on a line: the arch cut at one third has the same bounds, start and end. -/
example : ∃ b l r q bc bc', Bezier.new [(0, 0), (0, 300), (300, 300), (300, 0)] = .ok b ∧ split b (1 / 3) none = .ok (.parts l r q) ∧
    BContour.new [[(0, 0), (0, 300), (300, 300), (300, 0)], [(300, 0), (0, 0)]] = .ok bc ∧ BContour.new [l.controlPoints, r.controlPoints, [(300, 0), (0, 0)]] = .ok bc' ∧
    bc'.bounds = bc.bounds ∧ bc'.start = bc.start ∧ bc'.stop = bc.stop := by
  obtain ⟨b, hb, e, -⟩ := new_ok [((0:ℝ), (0:ℝ)), (0, 300), (300, 300), (300, 0)] (by simp)
  have hq : QuadOrCubic b := by right; rw [e]; rfl
  obtain ⟨l, r, e1, -⟩ := split1_spec b hq (1 / 3)
  have hs : split b (1 / 3) none = .ok (.parts l r (hull b.controlPoints (1 / 3))) := by unfold split; simp only [e1, ok_bind, pure_eq_ok]
  have ho : PlainContour ([] ++ [b.controlPoints] ++ [[(300, 0), (0, 0)]]) := by
    rw [e]
    have := ordinary_of_rat [[(0, 0), (0, 300), (300, 300), (300, 0)], [(300, 0), (0, 0)]] (by decide +kernel)
    simpa using this
  obtain ⟨bc, bc', h⟩ := C107_split_contour [] [[(300, 0), (0, 0)]] b hq ho (1 / 3) (by norm_num) (by norm_num) l r _ hs
  rw [e] at h
  exact ⟨b, l, r, _, bc, bc', hb, hs, h⟩

/-- A triangle and one drawn in another order have the same bounds. -/
example (bc bc' : BContour) (h : BContour.new [[((0:ℝ), (0:ℝ)), (4, 3)], [(4, 3), (0, 9)], [(0, 9), (0, 0)]] = .ok bc)
    (h' : BContour.new [[(4, 3), (0, 9)], [(0, 9), (0, 0)], [((0:ℝ), (0:ℝ)), (4, 3)]] = .ok bc') : bc.bounds = bc'.bounds := by
  refine C107_contour _ _ ?_ ?_ _ _ h h' ?_
  · simpa using ordinary_of_rat [[(0, 0), (4, 3)], [(4, 3), (0, 9)], [(0, 9), (0, 0)]] (by decide +kernel)
  · simpa using ordinary_of_rat [[(4, 3), (0, 9)], [(0, 9), (0, 0)], [(0, 0), (4, 3)]] (by decide +kernel)
  · ext p
    simp only [curvePoints, List.mem_cons, List.not_mem_nil, or_false, Set.mem_ofPred_eq]
    constructor <;> rintro ⟨s, hs, r⟩ <;> exact ⟨s, by tauto, r⟩

end PathLib
