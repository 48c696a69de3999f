import Verif.Props.BContour
import Verif.Props.Transform

set_option linter.unusedSectionVars false
set_option linter.unusedSimpArgs false

/-!
# The bounds of a transformed outline: C78
-/

namespace PathLib
open Spec Transform BoundsRectangle Bezier

/-- All points of all curves of some contours. -/
private def points (cs : List (Contour ℝ)) : Set (Pt ℝ) := { p | ∃ c ∈ cs, p ∈ curvePoints c }

/-- An outline that can be built, with curves of order one to three in the design space. -/
def Spec.Outline (cs : List (Contour ℝ)) : Prop :=
  cs ≠ [] ∧ ∀ c ∈ cs, c ≠ [] ∧ ∀ s ∈ c, 2 ≤ s.length ∧ s.length ≤ 4 ∧ ∀ p ∈ s, InDesignSpace p

private theorem outline_bounds (cs : List (Contour ℝ)) (hcs : Outline cs) : ∃ o, BOutline.new cs = .ok o ∧
    (∀ p ∈ points cs, o.bounds.enclosesPoint p = true) ∧ Touched (points cs) o.bounds := by
  obtain ⟨o, ho, -⟩ := C52_outline cs (fun c hc => ⟨(hcs.2 c hc).1, fun s hs => ((hcs.2 c hc).2 s hs).1⟩)
  refine ⟨o, ho, ?_, C53_outline_tight cs o ho hcs.1 fun c hc s hs => ((hcs.2 c hc).2 s hs).2.2⟩
  rintro p ⟨c, hc, s, hs, t, h0, h1, hp⟩
  exact C53_outline cs o ho c hc (fun c hc => ⟨(hcs.2 c hc).1, fun s hs => ((hcs.2 c hc).2 s hs).1⟩) s hs
    ((hcs.2 c hc).2 s hs).2.1 t h0 h1 p hp

private theorem apply_map (T : Transform ℝ) (f : Pt ℝ → Pt ℝ) (hT : ∀ p, T.applyToPoint p = .ok (f p)) (cs : List (Contour ℝ)) :
    T.applyToContours cs = .ok (cs.map (List.map (List.map f))) := by
  have h1 : ∀ s, T.applyToSegment s = .ok (s.map f) := fun s => mapM_ok _ _ _ fun p _ => hT p
  have h2 : ∀ c, T.applyToContour c = .ok (c.map (List.map f)) := fun c => mapM_ok _ _ _ fun s _ => h1 s
  exact mapM_ok _ _ _ fun c _ => h2 c

private theorem points_map (a b c d m n : ℝ) (cs : List (Contour ℝ)) (hcs : Outline cs) :
    points (cs.map (List.map (List.map (affineMap a b c d m n)))) = affineMap a b c d m n '' points cs := by
  ext q
  constructor
  · rintro ⟨c', hc, s', hs, t, h0, h1, hq⟩
    obtain ⟨k, hk, rfl⟩ := List.mem_map.mp hc
    obtain ⟨s, hs', rfl⟩ := List.mem_map.mp hs
    have hne : s ≠ [] := by rintro rfl; simpa using ((hcs.2 k hk).2 _ hs').1
    rw [get_ok _ (by simpa using hne), curve_affine _ _ _ _ _ _ s hne] at hq
    cases hq
    exact ⟨curve s t, ⟨k, hk, s, hs', t, h0, h1, get_ok s hne t⟩, rfl⟩
  · rintro ⟨p, ⟨k, hk, s, hs, t, h0, h1, hp⟩, rfl⟩
    have hne : s ≠ [] := by rintro rfl; simpa using ((hcs.2 k hk).2 _ hs).1
    rw [get_ok _ hne] at hp
    cases hp
    refine ⟨_, List.mem_map_of_mem hk, _, List.mem_map_of_mem hs, t, h0, h1, ?_⟩
    rw [get_ok _ (by simpa using hne), curve_affine _ _ _ _ _ _ s hne]

/-- The ends of an interval under the map `x ↦ u * x + v`. -/
private theorem ends {X : Type} (S : Set X) (F : X → ℝ) (lo hi lo' hi' u v : ℝ) (h : ∀ x ∈ S, lo ≤ F x ∧ F x ≤ hi)
    (hlo : ∃ x ∈ S, F x = lo) (hhi : ∃ x ∈ S, F x = hi) (h' : ∀ x ∈ S, lo' ≤ u * F x + v ∧ u * F x + v ≤ hi')
    (hlo' : ∃ x ∈ S, u * F x + v = lo') (hhi' : ∃ x ∈ S, u * F x + v = hi') :
    lo' = min (u * lo + v) (u * hi + v) ∧ hi' = max (u * lo + v) (u * hi + v) := by
  obtain ⟨x, hx, rfl⟩ := hlo
  obtain ⟨y, hy, rfl⟩ := hhi
  obtain ⟨x', hx', rfl⟩ := hlo'
  obtain ⟨y', hy', rfl⟩ := hhi'
  have a1 := h x' hx'; have a2 := h y' hy'; have a3 := h x hx
  have b1 := h' x hx; have b2 := h' y hy
  rcases le_total 0 u with hu | hu
  · rw [min_eq_left (by nlinarith), max_eq_right (by nlinarith)]
    exact ⟨le_antisymm b1.1 (by nlinarith), le_antisymm (by nlinarith) b2.2⟩
  · rw [min_eq_right (by nlinarith), max_eq_left (by nlinarith)]
    exact ⟨le_antisymm b2.1 (by nlinarith), le_antisymm (by nlinarith) b1.2⟩

/-- C78: moving, stretching and mirroring an outline along the axes moves, stretches and mirrors its bounds. -/
theorem C78_axes (T : Transform ℝ) (u v m n : ℝ) (hT : ∀ p, T.applyToPoint p = .ok (u * p.1 + m, v * p.2 + n))
    (cs cs' : List (Contour ℝ)) (h : T.applyToContours cs = .ok cs') (hcs : Outline cs) (hcs' : Outline cs') :
    ∃ o o', BOutline.new cs = .ok o ∧ BOutline.new cs' = .ok o' ∧
      o'.bounds.left = min (u * o.bounds.left + m) (u * o.bounds.right + m) ∧
      o'.bounds.right = max (u * o.bounds.left + m) (u * o.bounds.right + m) ∧
      o'.bounds.bottom = min (v * o.bounds.bottom + n) (v * o.bounds.top + n) ∧
      o'.bounds.top = max (v * o.bounds.bottom + n) (v * o.bounds.top + n) := by
  have hf : ∀ p, T.applyToPoint p = .ok (affineMap u 0 0 v m n p) := by
    intro p
    rw [hT, affineMap]
    simp
  rw [apply_map T _ hf] at h
  cases h
  obtain ⟨o, ho, hin, t1, t2, t3, t4⟩ := outline_bounds cs hcs
  obtain ⟨o', ho', hin', t1', t2', t3', t4'⟩ := outline_bounds _ hcs'
  rw [points_map u 0 0 v m n cs hcs] at hin' t1' t2' t3' t4'
  simp only [Set.forall_mem_image, Set.exists_mem_image, enclosesPoint_iff, affineMap, zero_mul, add_zero, zero_add] at hin hin' t1' t2' t3' t4'
  obtain ⟨e1, e2⟩ := ends (points cs) Prod.fst o.bounds.left o.bounds.right o'.bounds.left o'.bounds.right u m
    (fun p hp => (hin p hp).1) t1 t2 (fun p hp => (hin' hp).1) t1' t2'
  obtain ⟨e3, e4⟩ := ends (points cs) Prod.snd o.bounds.bottom o.bounds.top o'.bounds.bottom o'.bounds.top v n
    (fun p hp => (hin p hp).2) t3 t4 (fun p hp => (hin' hp).2) t3' t4'
  exact ⟨o, o', ho, ho', e1, e2, e3, e4⟩

/-- C78: the same when the axes are exchanged, as by a quarter turn. -/
theorem C78_exchange (T : Transform ℝ) (u v m n : ℝ) (hT : ∀ p, T.applyToPoint p = .ok (u * p.2 + m, v * p.1 + n))
    (cs cs' : List (Contour ℝ)) (h : T.applyToContours cs = .ok cs') (hcs : Outline cs) (hcs' : Outline cs') :
    ∃ o o', BOutline.new cs = .ok o ∧ BOutline.new cs' = .ok o' ∧
      o'.bounds.left = min (u * o.bounds.bottom + m) (u * o.bounds.top + m) ∧
      o'.bounds.right = max (u * o.bounds.bottom + m) (u * o.bounds.top + m) ∧
      o'.bounds.bottom = min (v * o.bounds.left + n) (v * o.bounds.right + n) ∧
      o'.bounds.top = max (v * o.bounds.left + n) (v * o.bounds.right + n) := by
  have hf : ∀ p, T.applyToPoint p = .ok (affineMap 0 v u 0 m n p) := by
    intro p
    rw [hT, affineMap]
    simp
  rw [apply_map T _ hf] at h
  cases h
  obtain ⟨o, ho, hin, t1, t2, t3, t4⟩ := outline_bounds cs hcs
  obtain ⟨o', ho', hin', t1', t2', t3', t4'⟩ := outline_bounds _ hcs'
  rw [points_map 0 v u 0 m n cs hcs] at hin' t1' t2' t3' t4'
  simp only [Set.forall_mem_image, Set.exists_mem_image, enclosesPoint_iff, affineMap, zero_mul, add_zero, zero_add] at hin hin' t1' t2' t3' t4'
  obtain ⟨e1, e2⟩ := ends (points cs) Prod.snd o.bounds.bottom o.bounds.top o'.bounds.left o'.bounds.right u m
    (fun p hp => (hin p hp).2) t3 t4 (fun p hp => (hin' hp).1) t1' t2'
  obtain ⟨e3, e4⟩ := ends (points cs) Prod.fst o.bounds.left o.bounds.right o'.bounds.bottom o'.bounds.top v n
    (fun p hp => (hin p hp).1) t1 t2 (fun p hp => (hin' hp).2) t3' t4'
  exact ⟨o, o', ho, ho', e1, e2, e3, e4⟩

/-- A linear function on an interval is largest at an end. -/
private theorem le_ends (a x lo hi : ℝ) (h0 : lo ≤ x) (h1 : x ≤ hi) : a * x ≤ a * lo ∨ a * x ≤ a * hi := by
  rcases le_total 0 a with h | h
  · exact .inr (by nlinarith)
  · exact .inl (by nlinarith)

/-- C78: the bounds of an outline transformed by any affine transform lie within the bounds of the transformed corners of its
bounds. -/
theorem C78_affine (T : Transform ℝ) (a b c d m n : ℝ)
    (hT : ∀ p, T.applyToPoint p = .ok (a * p.1 + c * p.2 + m, b * p.1 + d * p.2 + n))
    (cs cs' : List (Contour ℝ)) (h : T.applyToContours cs = .ok cs') (hcs : Outline cs) (hcs' : Outline cs') :
    ∃ o o' corners, BOutline.new cs = .ok o ∧ BOutline.new cs' = .ok o' ∧ T.applyToContour o.bounds.contour = .ok corners ∧
      (BoundsRectangle.fromContour corners).encloses o'.bounds = true := by
  have hf : ∀ p, T.applyToPoint p = .ok (affineMap a b c d m n p) := hT
  rw [apply_map T _ hf] at h
  cases h
  obtain ⟨o, ho, hin, -⟩ := outline_bounds cs hcs
  obtain ⟨o', ho', hin', t1, t2, t3, t4⟩ := outline_bounds _ hcs'
  rw [points_map a b c d m n cs hcs] at hin' t1 t2 t3 t4
  have hc : T.applyToContour o.bounds.contour = .ok (o.bounds.contour.map (List.map (affineMap a b c d m n))) :=
    mapM_ok _ _ _ fun s _ => mapM_ok _ _ _ fun p _ => hf p
  refine ⟨o, o', _, ho, ho', hc, ?_⟩
  have corner : ∀ x y, (x = o.bounds.left ∨ x = o.bounds.right) → (y = o.bounds.bottom ∨ y = o.bounds.top) →
      (fromContour (o.bounds.contour.map (List.map (affineMap a b c d m n)))).enclosesPoint (affineMap a b c d m n (x, y)) = true := by
    intro x y hx hy
    obtain ⟨s, hs, hm⟩ : ∃ s ∈ o.bounds.contour, (x, y) ∈ s := by
      unfold BoundsRectangle.contour
      rcases hx with rfl | rfl <;> rcases hy with rfl | rfl <;> simp
    exact C13_fromContour_encloses _ _ (List.mem_map_of_mem hs) _ (List.mem_map_of_mem hm)
  generalize fromContour (o.bounds.contour.map (List.map (affineMap a b c d m n))) = R at corner ⊢
  have inside : ∀ p ∈ affineMap a b c d m n '' points cs, R.enclosesPoint p = true := by
    rintro _ ⟨p, hp, rfl⟩
    have hb := hin p hp
    rw [enclosesPoint_iff] at hb
    obtain ⟨⟨l, r⟩, bt, tp⟩ := hb
    have low : ∀ (u v w z : ℝ), (∀ x y, (x = o.bounds.left ∨ x = o.bounds.right) → (y = o.bounds.bottom ∨ y = o.bounds.top) →
        u * x + v * y + w ≤ z) → u * p.1 + v * p.2 + w ≤ z := by
      intro u v w z hz
      rcases le_ends u _ _ _ l r with h1 | h1 <;> rcases le_ends v _ _ _ bt tp with h2 | h2
      · exact le_trans (by linarith) (hz _ _ (.inl rfl) (.inl rfl))
      · exact le_trans (by linarith) (hz _ _ (.inl rfl) (.inr rfl))
      · exact le_trans (by linarith) (hz _ _ (.inr rfl) (.inl rfl))
      · exact le_trans (by linarith) (hz _ _ (.inr rfl) (.inr rfl))
    simp only [enclosesPoint_iff, InBox, affineMap] at corner ⊢
    refine ⟨⟨?_, ?_⟩, ?_, ?_⟩
    · have := low (-a) (-c) (-m) (-R.left) fun x y hx hy => by have := (corner x y hx hy).1.1; linarith
      linarith
    · exact low a c m _ fun x y hx hy => (corner x y hx hy).1.2
    · have := low (-b) (-d) (-n) (-R.bottom) fun x y hx hy => by have := (corner x y hx hy).2.1; linarith
      linarith
    · exact low b d n _ fun x y hx hy => (corner x y hx hy).2.2
  obtain ⟨p1, m1, e1⟩ := t1
  obtain ⟨p2, m2, e2⟩ := t2
  obtain ⟨p3, m3, e3⟩ := t3
  obtain ⟨p4, m4, e4⟩ := t4
  have i1 := (enclosesPoint_iff _ _).mp (inside p1 m1)
  have i2 := (enclosesPoint_iff _ _).mp (inside p2 m2)
  have i3 := (enclosesPoint_iff _ _).mp (inside p3 m3)
  have i4 := (enclosesPoint_iff _ _).mp (inside p4 m4)
  simp only [encloses, Bool.and_eq_true, enclosesPoint_iff, InBox]
  rw [← e1, ← e2, ← e3, ← e4]
  exact ⟨⟨i1.1, i3.2⟩, i2.1, i4.2⟩

/-- An arch of a line and a cubic. -/
private def arch : List (Contour ℝ) := [[[(0, 0), (10, 0)], [(10, 0), (10, 8), (0, 8), (0, 0)]]]

/-- The hypotheses of C78 can be met: the arch mirrored, stretched and moved. -/
example : ∃ (T : Transform ℝ) (cs' : List (Contour ℝ)), T.applyToContours arch = .ok cs' ∧
    (∀ p, T.applyToPoint p = .ok (-2 * p.1 + 100, 3 * p.2 + 5)) ∧ Outline arch ∧ Outline cs' := by
  refine ⟨⟨affineMat (-2) 0 0 3 100 5⟩, _, (C06_affine (-2) 0 0 3 100 5).2.2 arch, ?_, ?_, ?_⟩
  · intro p
    refine (applyToPoint_affine ..).trans ?_
    simp
  · refine ⟨by simp [arch], ?_⟩
    simp only [arch, List.forall_mem_cons, List.not_mem_nil, IsEmpty.forall_iff, implies_true, and_true, InDesignSpace]
    norm_num
    exact List.cons_ne_nil _ _
  · refine ⟨by simp [arch], ?_⟩
    simp only [arch, List.map_cons, List.map_nil, List.forall_mem_cons, List.not_mem_nil, IsEmpty.forall_iff, implies_true, and_true,
      InDesignSpace, affineMap]
    norm_num
    exact List.cons_ne_nil _ _

/-- Scalings are transforms of the kind considered in C78. -/
example (u v : ℝ) : ∃ T, Transform.scale u v = .ok T ∧ ∀ p, T.applyToPoint p = .ok (u * p.1 + 0, v * p.2 + 0) := by
  refine ⟨_, rfl, fun p => ?_⟩
  rw [scaleMatrix, applyToPoint_affine]
  simp

end PathLib
