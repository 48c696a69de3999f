import Verif.Lemmas.Bounds

/-!
# Property theorems about `BoundsRectangle` (C08-C14)
-/

set_option linter.unusedSectionVars false
set_option linter.unusedSimpArgs false

namespace PathLib
open Spec BoundsRectangle

variable {K : Type} [Field K] [LinearOrder K]

/-! ## C08 -/

/-- C08: every point given to the constructor is enclosed. -/
theorem C08_encloses_points (ps : List (Pt K)) (p : Pt K) (h : p ∈ ps) :
    (BoundsRectangle.new ps).enclosesPoint p = true := encloses_of_mem h

/-- C08: `enclosesPoint` is membership in the closed box. -/
theorem C08_enclosesPoint_iff (b : BoundsRectangle K) (p : Pt K) :
    b.enclosesPoint p = true ↔
      (b.left ≤ p.1 ∧ p.1 ≤ b.right) ∧ (b.bottom ≤ p.2 ∧ p.2 ≤ b.top) :=
  enclosesPoint_iff b p

/-- C08: the rectangle depends only on the set of points, not on order or repetition. -/
theorem C08_order_independent (ps qs : List (Pt K)) (h : ∀ p, p ∈ ps ↔ p ∈ qs) :
    BoundsRectangle.new ps = BoundsRectangle.new qs := new_congr h

/-- C08: rectangles built from non-empty lists are `Proper`. -/
theorem C08_proper (ps : List (Pt K)) (h : ps ≠ []) : Proper (BoundsRectangle.new ps) :=
  proper_new h

example : BoundsRectangle.new [((3:ℚ), 4), (-1, 7), (3, 4)] =
    { left := -1, bottom := 4, right := 3, top := 7 } := by decide +kernel

/-! ## C09 -/

/-- C09: if on each side some point is on the inner side of the sentinel, all four sides are touched. -/
theorem C09_tight (ps : List (Pt K))
    (h1 : ∃ p ∈ ps, p.1 ≤ 32768) (h2 : ∃ p ∈ ps, -32768 ≤ p.1)
    (h3 : ∃ p ∈ ps, p.2 ≤ 32768) (h4 : ∃ p ∈ ps, -32768 ≤ p.2) :
    (∃ p ∈ ps, p.1 = (BoundsRectangle.new ps).left) ∧
    (∃ p ∈ ps, p.1 = (BoundsRectangle.new ps).right) ∧
    (∃ p ∈ ps, p.2 = (BoundsRectangle.new ps).bottom) ∧
    (∃ p ∈ ps, p.2 = (BoundsRectangle.new ps).top) := by
  have key : ∀ (f : Pt K → K) (m : K), (∀ x, x ≤ m ↔ x ≤ 32768 ∧ ∀ p ∈ ps, x ≤ f p) →
      (∃ p ∈ ps, f p ≤ 32768) → ∃ p ∈ ps, f p = m := by
    intro f m hm ⟨p0, hp0, hle⟩
    obtain ⟨p, hp, hmin⟩ : ∃ p ∈ ps, ∀ q ∈ ps, f p ≤ f q := by
      have : (ps.toFinset (α := Pt K)).Nonempty := ⟨p0, by simpa using hp0⟩
      obtain ⟨p, hp, h⟩ := Finset.exists_min_image ps.toFinset f this
      exact ⟨p, by simpa using hp, fun q hq => h q (by simpa using hq)⟩
    refine ⟨p, hp, le_antisymm ((hm _).mpr ⟨(hmin p0 hp0).trans hle, hmin⟩) ?_⟩
    exact ((hm m).mp le_rfl).2 p hp
  have key' : ∀ (f : Pt K → K) (m : K), (∀ x, m ≤ x ↔ -32768 ≤ x ∧ ∀ p ∈ ps, f p ≤ x) →
      (∃ p ∈ ps, -32768 ≤ f p) → ∃ p ∈ ps, f p = m := by
    intro f m hm ⟨p0, hp0, hle⟩
    obtain ⟨p, hp, hmin⟩ : ∃ p ∈ ps, ∀ q ∈ ps, f q ≤ f p := by
      have : (ps.toFinset (α := Pt K)).Nonempty := ⟨p0, by simpa using hp0⟩
      obtain ⟨p, hp, h⟩ := Finset.exists_max_image ps.toFinset f this
      exact ⟨p, by simpa using hp, fun q hq => h q (by simpa using hq)⟩
    refine ⟨p, hp, le_antisymm ?_ ((hm _).mpr ⟨hle.trans (hmin p0 hp0), hmin⟩)⟩
    exact ((hm m).mp le_rfl).2 p hp
  exact ⟨key Prod.fst _ (le_left_iff ps) h1, key' Prod.fst _ (right_le_iff ps) h2,
    key Prod.snd _ (le_bottom_iff ps) h3, key' Prod.snd _ (top_le_iff ps) h4⟩

/-- C09: for a non-empty list of points of the design space all four sides are touched. -/
theorem C09_tight_design_space (ps : List (Pt K)) (hne : ps ≠ [])
    (h : ∀ p ∈ ps, InDesignSpace p) :
    (∃ p ∈ ps, p.1 = (BoundsRectangle.new ps).left) ∧
    (∃ p ∈ ps, p.1 = (BoundsRectangle.new ps).right) ∧
    (∃ p ∈ ps, p.2 = (BoundsRectangle.new ps).bottom) ∧
    (∃ p ∈ ps, p.2 = (BoundsRectangle.new ps).top) := by
  obtain ⟨p, hp⟩ := List.exists_mem_of_ne_nil ps hne
  have := h p hp
  exact C09_tight ps ⟨p, hp, this.1.2⟩ ⟨p, hp, this.1.1⟩ ⟨p, hp, this.2.2⟩ ⟨p, hp, this.2.1⟩

/-- C09: in general each side is that of a point or the sentinel: `left` is the least of 32768 and the abscissas, and so on. For points
outside the design space the sentinel leaks into the result. -/
theorem C09_sides (ps : List (Pt K)) :
    (BoundsRectangle.new ps).left = (ps.map Prod.fst).foldr min 32768 ∧
    (BoundsRectangle.new ps).bottom = (ps.map Prod.snd).foldr min 32768 ∧
    (BoundsRectangle.new ps).right = (ps.map Prod.fst).foldr max (-32768) ∧
    (BoundsRectangle.new ps).top = (ps.map Prod.snd).foldr max (-32768) := by
  have lo : ∀ (l : List K) (x m : K), x ≤ l.foldr min m ↔ x ≤ m ∧ ∀ y ∈ l, x ≤ y := by
    intro l x m
    induction l with
    | nil => simp
    | cons a l ih => simp only [List.foldr_cons, le_min_iff, ih, List.forall_mem_cons]; tauto
  have hi : ∀ (l : List K) (x m : K), l.foldr max m ≤ x ↔ m ≤ x ∧ ∀ y ∈ l, y ≤ x := by
    intro l x m
    induction l with
    | nil => simp
    | cons a l ih => simp only [List.foldr_cons, max_le_iff, ih, List.forall_mem_cons]; tauto
  refine ⟨?_, ?_, ?_, ?_⟩
  · apply eq_of_forall_le_iff; intro x; rw [lo, BoundsRectangle.le_left_iff]; simp
  · apply eq_of_forall_le_iff; intro x; rw [lo, le_bottom_iff]; simp only [List.forall_mem_map]
  · apply eq_of_forall_ge_iff; intro x; rw [hi, right_le_iff]; simp
  · apply eq_of_forall_ge_iff; intro x; rw [hi, BoundsRectangle.top_le_iff]; simp only [List.forall_mem_map]

/-- C09: the sentinel leaks exactly when no point is on its side: all abscissas above 32768, say. -/
theorem C09_leaks (ps : List (Pt K)) :
    ((∀ p ∈ ps, 32768 < p.1) → (BoundsRectangle.new ps).left = 32768) ∧
    ((∀ p ∈ ps, 32768 < p.2) → (BoundsRectangle.new ps).bottom = 32768) ∧
    ((∀ p ∈ ps, p.1 < -32768) → (BoundsRectangle.new ps).right = -32768) ∧
    ((∀ p ∈ ps, p.2 < -32768) → (BoundsRectangle.new ps).top = -32768) := by
  refine ⟨fun h => ?_, fun h => ?_, fun h => ?_, fun h => ?_⟩
  · exact le_antisymm (left_le_max ps) ((BoundsRectangle.le_left_iff ps _).mpr ⟨le_rfl, fun p hp => (h p hp).le⟩)
  · exact le_antisymm (bottom_le_max ps) ((le_bottom_iff ps _).mpr ⟨le_rfl, fun p hp => (h p hp).le⟩)
  · exact le_antisymm ((right_le_iff ps _).mpr ⟨le_rfl, fun p hp => (h p hp).le⟩) (BoundsRectangle.min_le_right ps)
  · exact le_antisymm ((BoundsRectangle.top_le_iff ps _).mpr ⟨le_rfl, fun p hp => (h p hp).le⟩) (BoundsRectangle.min_le_top ps)

/-- C09: the rectangle is the least one: each rectangle that encloses all the points encloses it. -/
theorem C09_least (ps : List (Pt K)) (hne : ps ≠ []) (h : ∀ p ∈ ps, InDesignSpace p)
    (b : BoundsRectangle K) (hb : ∀ p ∈ ps, b.enclosesPoint p = true) :
    b.encloses (BoundsRectangle.new ps) = true := by
  obtain ⟨⟨p1, m1, e1⟩, ⟨p2, m2, e2⟩, ⟨p3, m3, e3⟩, ⟨p4, m4, e4⟩⟩ :=
    C09_tight_design_space ps hne h
  have b1 := (enclosesPoint_iff b p1).mp (hb p1 m1)
  have b2 := (enclosesPoint_iff b p2).mp (hb p2 m2)
  have b3 := (enclosesPoint_iff b p3).mp (hb p3 m3)
  have b4 := (enclosesPoint_iff b p4).mp (hb p4 m4)
  unfold InBox at b1 b2 b3 b4
  rw [e1] at b1; rw [e2] at b2; rw [e3] at b3; rw [e4] at b4
  simp only [BoundsRectangle.encloses, Bool.and_eq_true, enclosesPoint_iff]
  exact ⟨⟨b1.1, b3.2⟩, ⟨b2.1, b4.2⟩⟩

/-- C09: outside the design space the sentinel leaks: the rectangle of a single far away point is not
that point. -/
theorem C09_sentinel_leaks_counterexample :
    (BoundsRectangle.new [((40000 : ℚ), 0)]).left = 32768 ∧
    (BoundsRectangle.new [((40000 : ℚ), 0)]).right = 40000 := by decide +kernel

example : ∀ p ∈ [((3:ℚ), 4), (-1, 7)], InDesignSpace p := by
  unfold InDesignSpace; decide +kernel

/-! ## C10 -/

/-- C10: a union encloses both rectangles, and the result is `Proper`. -/
theorem C10_union_encloses (a b : BoundsRectangle K) (ha : Proper a) (hb : Proper b) :
    (a.union b).encloses a = true ∧ (a.union b).encloses b = true ∧ Proper (a.union b) := by
  refine ⟨?_, ?_, proper_union a b⟩
  · simp only [BoundsRectangle.encloses, Bool.and_eq_true, enclosesPoint_iff, union_eq ha, InBox]
    have := ha.lr; have := ha.bt
    simp [*]
  · simp only [BoundsRectangle.encloses, Bool.and_eq_true, enclosesPoint_iff, union_eq ha, InBox]
    have := hb.lr; have := hb.bt
    simp [*]

/-- C10: no point of either rectangle is lost, whatever the rectangles. -/
theorem C10_union_points (a b : BoundsRectangle K) (p : Pt K)
    (h : a.enclosesPoint p = true ∨ b.enclosesPoint p = true) :
    (a.union b).enclosesPoint p = true :=
  h.elim enclosesPoint_union_left enclosesPoint_union_right

/-- C10: a union is enclosed by every rectangle that encloses both. -/
theorem C10_union_least (a b c : BoundsRectangle K) (ha : Proper a)
    (h1 : c.encloses a = true) (h2 : c.encloses b = true) : c.encloses (a.union b) = true := by
  simp only [BoundsRectangle.encloses, Bool.and_eq_true, enclosesPoint_iff, union_eq ha, InBox]
    at *
  simp only [le_min_iff, min_le_iff, le_max_iff, max_le_iff]
  tauto

/-- C10: union is commutative (for all rectangles). -/
theorem C10_union_comm (a b : BoundsRectangle K) : a.union b = b.union a := union_comm a b

/-- C10: union is associative. -/
theorem C10_union_assoc (a b c : BoundsRectangle K) (ha : Proper a) (hb : Proper b) :
    (a.union b).union c = a.union (b.union c) := by
  rw [union_eq (proper_union a b), union_eq ha, union_eq ha, union_eq hb]
  simp only [min_assoc, max_assoc]

/-- C10: union is idempotent. -/
theorem C10_union_self (a : BoundsRectangle K) (ha : Proper a) : a.union a = a := by
  rw [union_eq ha]; simp

/-- C10: the empty rectangle is neutral for union. -/
theorem C10_union_empty (a : BoundsRectangle K) (ha : Proper a) :
    a.union (BoundsRectangle.new []) = a ∧ (BoundsRectangle.new []).union a = a := by
  have h : a.union (BoundsRectangle.new []) = a := by
    rw [union_eq ha]
    apply ext' <;> simp [BoundsRectangle.new, init, ha.hl, ha.hb, ha.hr, ha.ht]
  exact ⟨h, by rw [union_comm]; exact h⟩

/-- C10: but the union of two empty rectangles is not empty: it is the whole square. -/
theorem C10_union_empty_empty_counterexample [IsStrictOrderedRing K] :
    (BoundsRectangle.new ([] : List (Pt K))).union (BoundsRectangle.new []) =
      { left := -32768, bottom := -32768, right := 32768, top := 32768 } := by
  have pos : (-32768 : K) ≤ 32768 := by norm_num
  simp [BoundsRectangle.union, BoundsRectangle.new, BoundsRectangle.init, BoundsRectangle.addPoint, pos]

example : Proper (BoundsRectangle.new [((1:ℚ), 2), (5, -3)]) := proper_new (by simp)

/-! ## C11 -/

variable [IsStrictOrderedRing K]

omit [IsStrictOrderedRing K] in
/-- C11: when an intersection is returned it encloses exactly the common points, and it is `Proper`. -/
theorem C11_intersection_points (a b r : BoundsRectangle K) (ha : Proper a) (hb : Proper b)
    (h : a.intersection b = some r) :
    Proper r ∧
    ∀ p, r.enclosesPoint p = true ↔ (a.enclosesPoint p = true ∧ b.enclosesPoint p = true) := by
  unfold intersection at h
  simp only [pyMin_eq, pyMax_eq] at h
  split_ifs at h with hc
  push Not at hc
  simp only [Option.some.injEq] at h
  subst h
  refine ⟨proper_new (by simp), ?_⟩
  intro p
  have hl : max a.left b.left ≤ 32768 := max_le ha.hl hb.hl
  have hb' : max a.bottom b.bottom ≤ 32768 := max_le ha.hb hb.hb
  have hr : -32768 ≤ min a.right b.right := le_min ha.hr hb.hr
  have ht : -32768 ≤ min a.top b.top := le_min ha.ht hb.ht
  rw [new_two_of_le hc.1 hc.2 hl hb' hr ht]
  simp only [enclosesPoint_iff, InBox, max_le_iff, le_min_iff]
  tauto

omit [IsStrictOrderedRing K] in
/-- C11: `None` is returned exactly when no point is common. -/
theorem C11_intersection_none_iff (a b : BoundsRectangle K) (ha : Proper a) (hb : Proper b) :
    a.intersection b = none ↔
      ¬ ∃ p, a.enclosesPoint p = true ∧ b.enclosesPoint p = true := by
  constructor
  · rintro h ⟨p, h1, h2⟩
    unfold intersection at h
    simp only [pyMin_eq, pyMax_eq] at h
    split_ifs at h with hc
    rw [enclosesPoint_iff] at h1 h2
    obtain ⟨⟨l1, r1⟩, ⟨b1, t1⟩⟩ := h1
    obtain ⟨⟨l2, r2⟩, ⟨b2, t2⟩⟩ := h2
    rcases hc with hc | hc
    · exact absurd ((max_le l1 l2).trans (le_min r1 r2)) (not_le.mpr hc)
    · exact absurd ((max_le b1 b2).trans (le_min t1 t2)) (not_le.mpr hc)
  · intro h
    by_contra hn
    obtain ⟨r, hr⟩ := Option.ne_none_iff_exists'.mp hn
    obtain ⟨hp, hiff⟩ := C11_intersection_points a b r ha hb hr
    apply h
    refine ⟨(r.left, r.bottom), (hiff _).mp ?_⟩
    rw [enclosesPoint_iff]
    exact ⟨⟨le_rfl, hp.lr⟩, ⟨le_rfl, hp.bt⟩⟩

omit [IsStrictOrderedRing K] in
/-- C11: the operation is symmetric. -/
theorem C11_intersection_comm (a b : BoundsRectangle K) : a.intersection b = b.intersection a := by
  simp [intersection, min_comm, max_comm]

example : (BoundsRectangle.new [((0:ℚ), 0), (5, 5)]).intersection (BoundsRectangle.new [(3, 4), (9, 9)])
    = some { left := 3, bottom := 4, right := 5, top := 5 } := by decide +kernel
example : (BoundsRectangle.new [((0:ℚ), 0), (5, 5)]).intersection (BoundsRectangle.new [(6, 4), (9, 9)])
    = none := by decide +kernel

/-! ## C12 -/

omit [IsStrictOrderedRing K] in
/-- `encloses` is inclusion of point sets, for non-empty rectangles. -/
theorem C12_encloses_iff_subset (a b : BoundsRectangle K) (hb : Proper b) :
    a.encloses b = true ↔ ∀ p, b.enclosesPoint p = true → a.enclosesPoint p = true := by
  simp only [BoundsRectangle.encloses, Bool.and_eq_true]
  constructor
  · rintro ⟨h1, h2⟩ p hp
    rw [enclosesPoint_iff] at *
    obtain ⟨⟨l1, r1⟩, ⟨b1, t1⟩⟩ := h1
    obtain ⟨⟨l2, r2⟩, ⟨b2, t2⟩⟩ := h2
    obtain ⟨⟨l3, r3⟩, ⟨b3, t3⟩⟩ := hp
    exact ⟨⟨l1.trans l3, r3.trans r2⟩, ⟨b1.trans b3, t3.trans t2⟩⟩
  · intro h
    constructor
    · apply h; rw [enclosesPoint_iff]; exact ⟨⟨le_rfl, hb.lr⟩, ⟨le_rfl, hb.bt⟩⟩
    · apply h; rw [enclosesPoint_iff]; exact ⟨⟨hb.lr, le_rfl⟩, ⟨hb.bt, le_rfl⟩⟩

omit [IsStrictOrderedRing K] in
/-- C12: `relationTo` in terms of point sets. -/
theorem C12_relationTo (a b : BoundsRectangle K) (ha : Proper a) (hb : Proper b) :
    let sub (x y : BoundsRectangle K) := ∀ p, x.enclosesPoint p = true → y.enclosesPoint p = true
    let meets := ∃ p, a.enclosesPoint p = true ∧ b.enclosesPoint p = true
    (a.relationTo b = .encloses ↔ sub b a) ∧
    (a.relationTo b = .enclosed ↔ ¬ sub b a ∧ sub a b) ∧
    (a.relationTo b = .intersects ↔ ¬ sub b a ∧ ¬ sub a b ∧ meets) ∧
    (a.relationTo b = .separate ↔ ¬ meets) := by
  intro sub meets
  have e1 := C12_encloses_iff_subset a b hb
  have e2 := C12_encloses_iff_subset b a ha
  have e3 := C11_intersection_none_iff a b ha hb
  have m1 : sub b a → meets := fun h =>
    ⟨(b.left, b.bottom), h _ ((enclosesPoint_iff _ _).mpr ⟨⟨le_rfl, hb.lr⟩, ⟨le_rfl, hb.bt⟩⟩),
      (enclosesPoint_iff _ _).mpr ⟨⟨le_rfl, hb.lr⟩, ⟨le_rfl, hb.bt⟩⟩⟩
  have m2 : sub a b → meets := fun h =>
    ⟨(a.left, a.bottom), (enclosesPoint_iff _ _).mpr ⟨⟨le_rfl, ha.lr⟩, ⟨le_rfl, ha.bt⟩⟩,
      h _ ((enclosesPoint_iff _ _).mpr ⟨⟨le_rfl, ha.lr⟩, ⟨le_rfl, ha.bt⟩⟩)⟩
  have e3' : (a.intersection b).isSome = true ↔ meets := by
    rw [Option.isSome_iff_ne_none, ne_eq, e3, not_not]
  change _ ↔ sub b a at e1
  change _ ↔ sub a b at e2
  unfold relationTo
  by_cases h1 : sub b a
  · simp [e1.mpr h1, h1, m1 h1]
  · have : ¬ a.encloses b = true := fun h => h1 (e1.mp h)
    by_cases h2 : sub a b
    · simp [this, e2.mpr h2, h1, h2, m2 h2]
    · have h2' : ¬ b.encloses a = true := fun h => h2 (e2.mp h)
      by_cases h3 : meets
      · simp [this, h2', e3'.mpr h3, h1, h2, h3]
      · have h3' : ¬ (a.intersection b).isSome = true := fun h => h3 (e3'.mp h)
        simp only [this, h2', h3', h1, h2, h3]
        simp

/-! ## C13 -/

omit [IsStrictOrderedRing K] in
/-- C13: contour bounds enclose every point of every segment (also when some segments are empty). -/
theorem C13_fromContour_encloses (c : Contour K) (s : Segment K) (hs : s ∈ c) (p : Pt K)
    (hp : p ∈ s) : (fromContour c).enclosesPoint p = true := by
  unfold fromContour
  suffices ∀ (b : BoundsRectangle K),
      (b.enclosesPoint p = true ∨ s ∈ c) →
      (c.foldl (fun bounds segment => bounds.union (BoundsRectangle.new segment)) b).enclosesPoint p
        = true from this _ (.inr hs)
  clear hs
  induction c with
  | nil => intro b h; simpa using h
  | cons a c ih =>
    intro b h
    rw [List.foldl_cons]
    apply ih
    rcases h with h | h
    · exact .inl (enclosesPoint_union_left h)
    · rcases List.mem_cons.mp h with rfl | h
      · exact .inl (enclosesPoint_union_right (encloses_of_mem hp))
      · exact .inr h

omit [IsStrictOrderedRing K] in
private theorem fromContour_fold (c : Contour K) (ps : List (Pt K)) (h : ps ≠ []) :
    c.foldl (fun bounds segment => bounds.union (BoundsRectangle.new segment))
      (BoundsRectangle.new ps) = BoundsRectangle.new (ps ++ c.flatten) := by
  induction c generalizing ps with
  | nil => simp
  | cons a c ih =>
    rw [List.foldl_cons, new_union_new h, ih _ (by simp [h])]
    simp

omit [IsStrictOrderedRing K] in
/-- C13: when the first segment is not empty, the contour bounds are the bounds of all points. -/
theorem C13_fromContour_eq (s : Segment K) (c : Contour K) (hs : s ≠ []) :
    fromContour (s :: c) = BoundsRectangle.new (s :: c).flatten := by
  unfold fromContour
  rw [List.foldl_cons, (C10_union_empty _ (proper_new hs)).2, fromContour_fold c s hs]
  simp

omit [IsStrictOrderedRing K] in
/-- C13: outline bounds enclose every point. -/
theorem C13_fromContours_encloses (cs : List (Contour K)) (c : Contour K) (hc : c ∈ cs)
    (s : Segment K) (hs : s ∈ c) (p : Pt K) (hp : p ∈ s) :
    (fromContours cs).enclosesPoint p = true := by
  unfold fromContours
  suffices ∀ (b : BoundsRectangle K),
      (b.enclosesPoint p = true ∨ c ∈ cs) →
      (cs.foldl (fun bounds contour => bounds.union (fromContour contour)) b).enclosesPoint p
        = true from this _ (.inr hc)
  clear hc
  induction cs with
  | nil => intro b h; simpa using h
  | cons a cs ih =>
    intro b h
    rw [List.foldl_cons]
    apply ih
    rcases h with h | h
    · exact .inl (enclosesPoint_union_left h)
    · rcases List.mem_cons.mp h with rfl | h
      · exact .inl (enclosesPoint_union_right (C13_fromContour_encloses _ s hs p hp))
      · exact .inr h

omit [IsStrictOrderedRing K] in
/-- C13: for contours without empty segments (and a non-empty first contour) the outline bounds are
the bounds of all points of the flattened outline. -/
theorem C13_fromContours_eq (c : Contour K) (cs : List (Contour K)) (hc : c ≠ [])
    (hs : ∀ d ∈ c :: cs, ∀ s ∈ d, s ≠ []) :
    fromContours (c :: cs) = BoundsRectangle.new (PathUtilities.flatten (c :: cs)).flatten := by
  have one : ∀ d : Contour K, (∀ s ∈ d, s ≠ []) → fromContour d = BoundsRectangle.new d.flatten := by
    intro d hd
    match d with
    | [] => rfl
    | s :: d => exact C13_fromContour_eq s d (hd s (by simp))
  have fl : c.flatten ≠ [] := by
    match c, hc with
    | s :: c, _ =>
      have := hs (s :: c) (by simp) s (by simp)
      simp [this]
  have flat : ∀ ds : List (Contour K), PathUtilities.flatten ds = ds.flatten := by
    intro ds; simp [PathUtilities.flatten, List.flatMap]
  have fold : ∀ (ds : List (Contour K)) (ps : List (Pt K)), ps ≠ [] → (∀ d ∈ ds, ∀ s ∈ d, s ≠ []) →
      ds.foldl (fun bounds contour => bounds.union (fromContour contour))
        (BoundsRectangle.new ps) = BoundsRectangle.new (ps ++ ds.flatten.flatten) := by
    intro ds
    induction ds with
    | nil => intro ps _ _; simp
    | cons d ds ih =>
      intro ps hps hd
      rw [List.foldl_cons, one d (hd d (by simp)), new_union_new hps,
        ih _ (by simp [hps]) (fun d' hd' => hd d' (by simp [hd']))]
      simp
  unfold fromContours
  rw [List.foldl_cons, one c (hs c (by simp)), (C10_union_empty _ (proper_new fl)).2,
    fold cs _ fl (fun d hd => hs d (by simp [hd])), flat]
  simp

/-- The corners of the square of the sentinels. -/
def corners : List (Pt K) := [(32768, 32768), (-32768, -32768)]

/-- The points whose bounds `fromContour` computes: those of the contour and, after a leading empty segment, two corners. -/
def boundedPoints : Contour K → List (Pt K)
  | [] => []
  | [] :: c => corners ++ c.flatten
  | s :: c => (s :: c).flatten

omit [IsStrictOrderedRing K] in
private theorem empty_union_empty : (BoundsRectangle.new ([] : List (Pt K))).union (BoundsRectangle.new []) = BoundsRectangle.new corners := by
  simp [BoundsRectangle.union, BoundsRectangle.new, BoundsRectangle.init, corners]

/-- C13: what `fromContour` computes for every contour. -/
theorem C13_fromContour (c : Contour K) : fromContour c = BoundsRectangle.new (boundedPoints c) := by
  match c with
  | [] => rfl
  | [] :: c =>
    unfold fromContour
    rw [List.foldl_cons, empty_union_empty, fromContour_fold c _ (by simp [corners])]
    rfl
  | (p :: s) :: c => exact C13_fromContour_eq (p :: s) c (by simp)

/-- C13: what `fromCoutours` computes for every outline: when the first contour has no segments it adds the corners, too. -/
theorem C13_fromContours (cs : List (Contour K)) :
    fromContours cs = match cs with
      | [] => BoundsRectangle.new []
      | [] :: cs => BoundsRectangle.new (corners ++ cs.flatMap boundedPoints)
      | c :: cs => BoundsRectangle.new ((c :: cs).flatMap boundedPoints) := by
  have fold : ∀ (ds : List (Contour K)) (ps : List (Pt K)), ps ≠ [] →
      ds.foldl (fun bounds contour => bounds.union (fromContour contour)) (BoundsRectangle.new ps) =
        BoundsRectangle.new (ps ++ ds.flatMap boundedPoints) := by
    intro ds
    induction ds with
    | nil => intro ps _; simp
    | cons d ds ih =>
      intro ps h
      rw [List.foldl_cons, C13_fromContour, new_union_new h, ih _ (by simp [h])]
      simp
  match cs with
  | [] => rfl
  | [] :: cs =>
    unfold fromContours
    rw [List.foldl_cons, show fromContour ([] : Contour K) = BoundsRectangle.new [] from rfl, empty_union_empty, fold _ _ (by simp [corners])]
  | (s :: c) :: cs =>
    have h : boundedPoints (s :: c) ≠ [] := by
      match s with
      | [] => simp [boundedPoints, corners]
      | p :: s => simp [boundedPoints]
    unfold fromContours
    rw [List.foldl_cons, C13_fromContour, (C10_union_empty _ (proper_new h)).2, fold _ _ h]
    rfl

/-- C13: in the design space a leading empty segment turns the bounds into the whole square. -/
theorem C13_leading_empty_segment (c : Contour K) (h : ∀ s ∈ c, ∀ p ∈ s, InDesignSpace p) :
    fromContour ([] :: c) = { left := -32768, bottom := -32768, right := 32768, top := 32768 } := by
  have pos : (-32768 : K) ≤ 32768 := by norm_num
  rw [C13_fromContour]
  show BoundsRectangle.new (corners ++ c.flatten) = _
  have h' : ∀ p ∈ c.flatten, InDesignSpace p := by
    intro p hp
    obtain ⟨s, hs, hp⟩ := List.mem_flatten.mp hp
    exact h s hs p hp
  apply ext'
  · refine le_antisymm (left_le_of_mem (p := (-32768, -32768)) (by simp [corners])) ((BoundsRectangle.le_left_iff _ _).mpr ⟨pos, ?_⟩)
    intro p hp
    rcases List.mem_append.mp hp with hp | hp
    · simp only [corners, List.mem_cons, List.not_mem_nil, or_false] at hp
      rcases hp with rfl | rfl <;> simp [pos]
    · exact (h' p hp).1.1
  · refine le_antisymm (bottom_le_of_mem (p := (-32768, -32768)) (by simp [corners])) ((le_bottom_iff _ _).mpr ⟨pos, ?_⟩)
    intro p hp
    rcases List.mem_append.mp hp with hp | hp
    · simp only [corners, List.mem_cons, List.not_mem_nil, or_false] at hp
      rcases hp with rfl | rfl <;> simp [pos]
    · exact (h' p hp).2.1
  · refine le_antisymm ((right_le_iff _ _).mpr ⟨pos, ?_⟩) (le_right_of_mem (p := (32768, 32768)) (by simp [corners]))
    intro p hp
    rcases List.mem_append.mp hp with hp | hp
    · simp only [corners, List.mem_cons, List.not_mem_nil, or_false] at hp
      rcases hp with rfl | rfl <;> simp [pos]
    · exact (h' p hp).1.2
  · refine le_antisymm ((BoundsRectangle.top_le_iff _ _).mpr ⟨pos, ?_⟩) (le_top_of_mem (p := (32768, 32768)) (by simp [corners]))
    intro p hp
    rcases List.mem_append.mp hp with hp | hp
    · simp only [corners, List.mem_cons, List.not_mem_nil, or_false] at hp
      rcases hp with rfl | rfl <;> simp [pos]
    · exact (h' p hp).2.2

/-- C13: a leading empty segment makes the bounds the whole square instead. -/
theorem C13_leading_empty_segment_counterexample :
    fromContour [[], [((1 : ℚ), 1)]] =
      { left := -32768, bottom := -32768, right := 32768, top := 32768 } := by decide +kernel

example : fromContours [[[((0:ℚ), 0), (3, 1)], [(3, 1), (0, 0)]], [[(7, 7), (8, -8)]]] =
    { left := 0, bottom := -8, right := 8, top := 7 } := by decide +kernel

/-! ## C14 -/

/-- C14: sizes of a non-empty rectangle. -/
theorem C14_sizes (b : BoundsRectangle K) (h : Proper b) :
    0 ≤ b.width ∧ 0 ≤ b.height ∧ 0 ≤ b.area ∧
    b.width = b.right - b.left ∧ b.height = b.top - b.bottom ∧ b.area = b.width * b.height := by
  have h1 : 0 ≤ b.width := sub_nonneg.mpr h.lr
  have h2 : 0 ≤ b.height := sub_nonneg.mpr h.bt
  exact ⟨h1, h2, mul_nonneg h1 h2, rfl, rfl, rfl⟩

/-- C14: the centre is the midpoint of the rectangle and is enclosed. -/
theorem C14_center (b : BoundsRectangle K) (h : Proper b) :
    ∃ c, PathUtilities.centerPoint b = .ok c ∧ b.enclosesPoint c = true ∧
      c.1 - b.left = b.right - c.1 ∧ c.2 - b.bottom = b.top - c.2 := by
  refine ⟨((b.left + b.right) / 2, (b.bottom + b.top) / 2), rfl, ?_, ?_, ?_⟩
  · rw [enclosesPoint_iff]
    have := h.lr; have := h.bt
    refine ⟨⟨?_, ?_⟩, ⟨?_, ?_⟩⟩ <;> simp only <;> linarith
  · simp only; ring
  · simp only; ring

/-- C14: `yFromBottom` and `xFromLeft` interpolate the sides and stay inside for fractions. -/
theorem C14_fromBottom_fromLeft (b : BoundsRectangle K) (h : Proper b) :
    b.yFromBottom 0 = b.bottom ∧ b.yFromBottom 1 = b.top ∧
    b.xFromLeft 0 = b.left ∧ b.xFromLeft 1 = b.right ∧
    (∀ r s, 0 ≤ r → r ≤ s → s ≤ 1 →
      b.bottom ≤ b.yFromBottom r ∧ b.yFromBottom r ≤ b.yFromBottom s ∧ b.yFromBottom s ≤ b.top ∧
      b.left ≤ b.xFromLeft r ∧ b.xFromLeft r ≤ b.xFromLeft s ∧ b.xFromLeft s ≤ b.right) ∧
    (∀ r s w, b.yFromBottom (r + w * (s - r)) =
        b.yFromBottom r + w * (b.yFromBottom s - b.yFromBottom r) ∧
      b.xFromLeft (r + w * (s - r)) = b.xFromLeft r + w * (b.xFromLeft s - b.xFromLeft r)) := by
  have h1 : 0 ≤ b.width := sub_nonneg.mpr h.lr
  have h2 : 0 ≤ b.height := sub_nonneg.mpr h.bt
  have ew : b.right = b.left + b.width := by unfold BoundsRectangle.width; ring
  have eh : b.top = b.bottom + b.height := by unfold BoundsRectangle.height; ring
  unfold yFromBottom xFromLeft
  refine ⟨by ring, by rw [eh]; ring, by ring, by rw [ew]; ring, ?_, ?_⟩
  · intro r s hr hrs hs
    refine ⟨?_, ?_, ?_, ?_, ?_, ?_⟩
    · nlinarith
    · nlinarith
    · rw [eh]; nlinarith
    · nlinarith
    · nlinarith
    · rw [ew]; nlinarith
  · intro r s w; constructor <;> ring

omit [IsStrictOrderedRing K] in
/-- C14: the contour of a rectangle is a closed chain of four axis-parallel sides through its corners and
its bounds are the rectangle itself. -/
theorem C14_contour (b : BoundsRectangle K) (h : Proper b) :
    fromContour b.contour = b ∧
    ∃ p0 p1 p2 p3 : Pt K, b.contour = [[p0, p1], [p1, p2], [p2, p3], [p3, p0]] ∧
      p0 = (b.left, b.bottom) ∧ p2 = (b.right, b.top) ∧
      p0.1 = p1.1 ∧ p1.2 = p2.2 ∧ p2.1 = p3.1 ∧ p3.2 = p0.2 := by
  refine ⟨?_, _, _, _, _, rfl, rfl, rfl, rfl, rfl, rfl, rfl⟩
  rw [BoundsRectangle.contour, C13_fromContour_eq _ _ (by simp)]
  have := new_two_of_le h.lr h.bt h.hl h.hb h.hr h.ht
  refine Eq.trans ?_ this
  apply ext'
  · apply eq_of_forall_le_iff; intro x; simp only [BoundsRectangle.le_left_iff]; simp; tauto
  · apply eq_of_forall_le_iff; intro x; simp only [le_bottom_iff]; simp; tauto
  · apply eq_of_forall_ge_iff; intro x; simp only [right_le_iff]; simp; tauto
  · apply eq_of_forall_ge_iff; intro x; simp only [BoundsRectangle.top_le_iff]; simp; tauto

omit [IsStrictOrderedRing K] in
/-- C14: `crossesX`/`crossesY` are the coordinate-wise parts of `enclosesPoint`; `points` lists the sides. -/
theorem C14_crosses (b : BoundsRectangle K) (p : Pt K) :
    (b.enclosesPoint p = true ↔ b.crossesX p.1 = true ∧ b.crossesY p.2 = true) ∧
    b.points = (b.left, b.bottom, b.right, b.top) := by
  simp [enclosesPoint, crossesX, crossesY, BoundsRectangle.points]

omit [IsStrictOrderedRing K] in
/-- C14: the diagonal goes from corner to opposite corner: it lies in the rectangle, its bounds are the rectangle and its
extents are width and height. -/
theorem C14_diagonal (b : BoundsRectangle K) (h : Proper b) :
    ∃ p q, b.diagonal = [p, q] ∧ b.enclosesPoint p = true ∧ b.enclosesPoint q = true ∧ BoundsRectangle.new b.diagonal = b ∧
      q.1 - p.1 = b.width ∧ q.2 - p.2 = b.height := by
  refine ⟨_, _, rfl, ?_, ?_, ?_, rfl, rfl⟩
  · exact (enclosesPoint_iff _ _).mpr ⟨⟨le_rfl, h.lr⟩, le_rfl, h.bt⟩
  · exact (enclosesPoint_iff _ _).mpr ⟨⟨h.lr, le_rfl⟩, h.bt, le_rfl⟩
  · exact new_two_of_le h.lr h.bt h.hl h.hb h.hr h.ht

end PathLib
