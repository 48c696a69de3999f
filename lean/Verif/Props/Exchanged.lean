import Verif.Props.BezierSelf
import Verif.Props.BezierUtilities
import Verif.Props.Grown

set_option linter.unusedSectionVars false
set_option linter.unusedSimpArgs false

/-!
# Exchanging the two curves exchanges the parameters of their intersections: C114
-/

namespace PathLib
open Spec Bezier

/-- The second outcome is the first with the two parameters exchanged, in some order; or both are the same exception. -/
def Spec.ExchangedOutcome (x y : Py (List (Pt ℝ))) : Prop :=
  (∃ e, x = .error e ∧ y = .error e) ∨ ∃ l l', x = .ok l ∧ y = .ok l' ∧ l'.Perm (l.map Prod.swap)

/-- C114: `overlaps` does not depend on the order of the curves. -/
theorem C114_overlaps (a b : Bezier) (ha : QuadOrCubic a) (hb : QuadOrCubic b) : ∃ o, overlaps a b = .ok o ∧ overlaps b a = .ok o := by
  obtain ⟨ra, h1, p1, -⟩ := boundsRectangle_ok a.controlPoints (by rcases ha with h | h <;> omega)
  obtain ⟨rb, h2, p2, -⟩ := boundsRectangle_ok b.controlPoints (by rcases hb with h | h <;> omega)
  refine ⟨(ra.intersection rb).isSome, by unfold overlaps; rw [h1, ok_bind, h2, ok_bind]; rfl, ?_⟩
  unfold overlaps
  rw [h1, h2, ok_bind, ok_bind]
  simp only [pure_eq_ok, Except.ok.injEq]
  unfold BoundsRectangle.intersection
  simp only [pyMin_eq, pyMax_eq, max_comm rb.left, max_comm rb.bottom, min_comm rb.right, min_comm rb.top]

namespace Exchanged

/-- The list of an outcome, empty for an exception. -/
def val (x : Py (List (Pt ℝ))) : List (Pt ℝ) :=
  match x with
  | .ok l => l
  | .error _ => []

/-- A list, or a `RecursionError`. -/
def Plain (x : Py (List (Pt ℝ))) : Prop := (∃ l, x = .ok l) ∨ x = .error .recursionError

theorem mapM_plain {α : Type} (f : α → Py (List (Pt ℝ))) (l : List α) (h : ∀ a ∈ l, Plain (f a)) :
    ((∀ a ∈ l, ∃ r, f a = .ok r) ∧ l.mapM f = .ok (l.map fun a => val (f a))) ∨
    ((∃ a ∈ l, f a = .error .recursionError) ∧ l.mapM f = .error .recursionError) := by
  induction l with
  | nil => left; exact ⟨by simp, rfl⟩
  | cons a l ih =>
    rw [List.mapM_cons]
    rcases h a (by simp) with ⟨r, e⟩ | e
    · rcases ih fun b hb => h b (by simp [hb]) with ⟨h1, h2⟩ | ⟨⟨b, hb, h1⟩, h2⟩
      · left
        refine ⟨?_, ?_⟩
        · intro b hb
          rcases List.mem_cons.mp hb with rfl | hb
          · exact ⟨r, e⟩
          · exact h1 b hb
        · rw [e, ok_bind, h2, ok_bind]
          simp [val, e]
      · right
        exact ⟨⟨b, by simp [hb], h1⟩, by rw [e, ok_bind, h2]; rfl⟩
    · right
      exact ⟨⟨a, by simp, e⟩, by rw [e]; rfl⟩

/-- The outcomes for pairs of curves, and for the exchanged pairs in another order. -/
theorem mapM_exchanged (f : Bezier × Bezier → Py (List (Pt ℝ))) (l l' : List (Bezier × Bezier)) (hl : l'.Perm (l.map Prod.swap))
    (hp : ∀ p ∈ l, Plain (f p)) (hx : ∀ p ∈ l, ExchangedOutcome (f p) (f p.swap)) :
    (∃ r r', l.mapM f = .ok r ∧ l'.mapM f = .ok r' ∧ r'.flatten.Perm (r.flatten.map Prod.swap)) ∨
    (l.mapM f = .error .recursionError ∧ l'.mapM f = .error .recursionError) := by
  have hm : ∀ q, q ∈ l' ↔ q.swap ∈ l := by
    intro q
    rw [hl.mem_iff, List.mem_map]
    constructor
    · rintro ⟨p, hp, rfl⟩; simpa using hp
    · intro h; exact ⟨q.swap, h, by simp⟩
  have hp' : ∀ q ∈ l', Plain (f q) := by
    intro q hq
    have hq' := (hm q).mp hq
    rcases hx _ hq' with ⟨e, h1, h2⟩ | ⟨_, r, _, h2, _⟩
    · rw [Prod.swap_swap] at h2
      rcases hp _ hq' with ⟨r, h3⟩ | h3
      · rw [h3] at h1; cases h1
      · rw [h3] at h1; cases h1; exact Or.inr h2
    · rw [Prod.swap_swap] at h2; exact Or.inl ⟨r, h2⟩
  rcases mapM_plain f l hp with ⟨h1, h2⟩ | ⟨⟨p, hpl, h1⟩, h2⟩
  · rcases mapM_plain f l' hp' with ⟨h3, h4⟩ | ⟨⟨q, hq, h3⟩, _⟩
    · left
      refine ⟨_, _, h2, h4, ?_⟩
      rw [← List.flatMap_def, ← List.flatMap_def, List.map_flatMap]
      refine (hl.flatMap_right _).trans ?_
      rw [List.flatMap_map]
      refine List.Perm.flatMap_left _ fun p hpl => ?_
      rcases hx p hpl with ⟨e, a1, _⟩ | ⟨r, r', a1, a2, a3⟩
      · obtain ⟨r, a2⟩ := h1 p hpl
        rw [a2] at a1; cases a1
      · simp only [val, a1, a2]
        exact a3
    · exfalso
      have hq' := (hm q).mp hq
      obtain ⟨r, a1⟩ := h1 _ hq'
      rcases hx _ hq' with ⟨e, a2, _⟩ | ⟨_, _, _, a2, _⟩
      · rw [a1] at a2; cases a2
      · rw [Prod.swap_swap, h3] at a2; cases a2
  · right
    refine ⟨h2, ?_⟩
    rcases mapM_plain f l' hp' with ⟨h3, _⟩ | ⟨_, h4⟩
    · exfalso
      obtain ⟨r, a1⟩ := h3 p.swap ((hm _).mpr (by simpa using hpl))
      rcases hx _ hpl with ⟨e, _, a2⟩ | ⟨_, _, a2, _⟩
      · rw [a1] at a2; cases a2
      · rw [h1] at a2; cases a2
    · exact h4

/-- The value of `overlaps`. -/
noncomputable def holds (p : Bezier × Bezier) : Bool :=
  match overlaps p.1 p.2 with
  | .ok o => o
  | .error _ => false

theorem product_swap (l l' : List Bezier) : (l'.flatMap fun b => l.map fun a => (b, a)).Perm (l.flatMap fun a => l'.map fun b => (b, a)) := by
  induction l with
  | nil => simp
  | cons a l ih =>
    simp only [List.map_cons, List.flatMap_cons]
    exact (List.map_append_flatMap_perm l' (fun b => (b, a)) fun b => l.map fun a => (b, a)).symm.trans (ih.append_left _)

theorem filter_swap (g : Bezier × Bezier → Bool) (l l' : List (Bezier × Bezier)) (hl : l'.Perm (l.map Prod.swap)) :
    (l'.filter fun q => g q.swap).Perm ((l.filter g).map Prod.swap) := by
  refine (hl.filter _).trans ?_
  rw [List.filter_map]
  simp only [Function.comp_def, Prod.swap_swap]
  exact List.Perm.refl _

theorem filter_exchanged (l l' : List (Bezier × Bezier)) (hl : l'.Perm (l.map Prod.swap)) (hq : ∀ p ∈ l, QuadOrCubic p.1 ∧ QuadOrCubic p.2) :
    ∃ r r', l.filterM (fun p => overlaps p.1 p.2) = .ok r ∧ l'.filterM (fun p => overlaps p.1 p.2) = .ok r' ∧ r'.Perm (r.map Prod.swap) ∧ ∀ p ∈ r, p ∈ l := by
  have h1 : ∀ p ∈ l, overlaps p.1 p.2 = .ok (holds p) ∧ overlaps p.2 p.1 = .ok (holds p) := by
    intro p hp
    obtain ⟨o, e1, e2⟩ := C114_overlaps p.1 p.2 (hq p hp).1 (hq p hp).2
    unfold holds
    rw [e1, e2]
    exact ⟨rfl, rfl⟩
  have h2 : ∀ q ∈ l', overlaps q.1 q.2 = .ok (holds q.swap) := by
    intro q hq'
    rw [hl.mem_iff, List.mem_map] at hq'
    obtain ⟨p, hp, rfl⟩ := hq'
    rw [Prod.swap_swap]
    exact (h1 p hp).2
  have e1 : l.filterM (fun p => overlaps p.1 p.2) = .ok (l.filter holds) := filterM_ok _ _ _ fun p hp => (h1 p hp).1
  have e2 : l'.filterM (fun p => overlaps p.1 p.2) = .ok (l'.filter fun q => holds q.swap) := filterM_ok _ _ _ h2
  exact ⟨l.filter holds, l'.filter fun q => holds q.swap, e1, e2, filter_swap holds l l' hl, fun p hp => List.mem_of_mem_filter hp⟩

theorem removeDuplicates_perm (l l' : List (Pt ℝ)) (h : l'.Perm (l.map Prod.swap)) :
    (butils.removeDuplicates l').Perm ((butils.removeDuplicates l).map Prod.swap) := by
  refine (List.perm_ext_iff_of_nodup (C26_nodup _) ((C26_nodup l).map Prod.swap_injective)).mpr fun q => ?_
  simp only [C26_mem, List.mem_map, h.mem_iff]

theorem plain_and_exchanged (depth : Nat) : ∀ (c1 c2 : Bezier) (_ : QuadOrCubic c1) (_ : QuadOrCubic c2) (θ : ℝ),
    Plain (pairiteration depth c1 c2 θ) ∧ ExchangedOutcome (pairiteration depth c1 c2 θ) (pairiteration depth c2 c1 θ) := by
  induction depth with
  | zero => intro c1 c2 _ _ θ; exact ⟨Or.inr rfl, Or.inl ⟨_, rfl, rfl⟩⟩
  | succ depth ih =>
    intro c1 c2 h1 h2 θ
    obtain ⟨b1, e1, _⟩ := boundsRectangle_ok c1.controlPoints (by rcases h1 with h | h <;> omega)
    obtain ⟨b2, e2, _⟩ := boundsRectangle_ok c2.controlPoints (by rcases h2 with h | h <;> omega)
    obtain ⟨l1, r1, s1, q1, q2, -⟩ := split1_spec c1 h1 (1 / 2)
    obtain ⟨l2, r2, s2, q3, q4, -⟩ := split1_spec c2 h2 (1 / 2)
    replace q1 : QuadOrCubic l1 := by unfold QuadOrCubic; rwa [q1]
    replace q2 : QuadOrCubic r1 := by unfold QuadOrCubic; rwa [q2]
    replace q3 : QuadOrCubic l2 := by unfold QuadOrCubic; rwa [q3]
    replace q4 : QuadOrCubic r2 := by unfold QuadOrCubic; rwa [q4]
    rw [pairiteration, pairiteration]
    simp only [e1, e2, s1, s2, ok_bind]
    by_cases hs : b1.height + b1.width < θ ∧ b2.height + b2.width < θ
    · rw [if_pos hs, if_pos hs.symm]
      exact ⟨Or.inl ⟨_, rfl⟩, Or.inr ⟨_, _, rfl, rfl, List.Perm.refl _⟩⟩
    · rw [if_neg hs, if_neg fun h => hs h.symm]
      have hq : ∀ p ∈ [(l1, l2), (l1, r2), (r1, r2), (r1, l2)], QuadOrCubic p.1 ∧ QuadOrCubic p.2 := by
        intro p hp
        simp only [List.mem_cons, List.not_mem_nil, or_false] at hp
        rcases hp with rfl | rfl | rfl | rfl
        exacts [⟨q1, q3⟩, ⟨q1, q4⟩, ⟨q2, q4⟩, ⟨q2, q3⟩]
      have hl : [(l2, l1), (l2, r1), (r2, r1), (r2, l1)].Perm ([(l1, l2), (l1, r2), (r1, r2), (r1, l2)].map Prod.swap) := by
        simp only [List.map_cons, List.map_nil, Prod.swap_prod_mk]
        refine List.Perm.cons _ ?_
        exact List.reverse_perm [(r2, l1), (r2, r1), (l2, r1)]
      obtain ⟨r, r', f1, f2, f3, f4⟩ := filter_exchanged _ _ hl hq
      rw [f1, f2, ok_bind, ok_bind]
      rcases mapM_exchanged (fun pair => pairiteration depth pair.1 pair.2 θ) r r' f3 (fun p hp => (ih _ _ (hq p (f4 p hp)).1 (hq p (f4 p hp)).2 θ).1)
          (fun p hp => (ih _ _ (hq p (f4 p hp)).1 (hq p (f4 p hp)).2 θ).2) with ⟨a, a', g1, g2, g3⟩ | ⟨g1, g2⟩
      · rw [g1, g2, ok_bind, ok_bind]
        exact ⟨Or.inl ⟨_, rfl⟩, Or.inr ⟨_, _, rfl, rfl, removeDuplicates_perm _ _ g3⟩⟩
      · rw [g1, g2]
        exact ⟨Or.inr rfl, Or.inl ⟨_, rfl, rfl⟩⟩

end Exchanged

/-- C114: `pairiteration` of the exchanged curves gives the exchanged pairs of parameters, in another order; it exceeds the recursion limit in the same
cases. -/
theorem C114_pairiteration (depth : Nat) (c1 c2 : Bezier) (h1 : QuadOrCubic c1) (h2 : QuadOrCubic c2) (θ : ℝ) :
    ExchangedOutcome (pairiteration depth c1 c2 θ) (pairiteration depth c2 c1 θ) :=
  (Exchanged.plain_and_exchanged depth c1 c2 h1 h2 θ).2

/-- C114: the same for lists of curves. -/
theorem C114_curveIntersects (depth : Nat) (cs1 cs2 : List Bezier) (h1 : ∀ c ∈ cs1, QuadOrCubic c) (h2 : ∀ c ∈ cs2, QuadOrCubic c) (θ : ℝ) :
    ExchangedOutcome (curveIntersects depth cs1 cs2 θ) (curveIntersects depth cs2 cs1 θ) := by
  unfold curveIntersects
  have hq : ∀ p ∈ cs1.flatMap fun l => cs2.map fun r => (l, r), QuadOrCubic p.1 ∧ QuadOrCubic p.2 := by
    intro p hp
    obtain ⟨a, ha, hp⟩ := List.mem_flatMap.mp hp
    obtain ⟨b, hb, rfl⟩ := List.mem_map.mp hp
    exact ⟨h1 a ha, h2 b hb⟩
  have hl : (cs2.flatMap fun l => cs1.map fun r => (l, r)).Perm ((cs1.flatMap fun l => cs2.map fun r => (l, r)).map Prod.swap) := by
    rw [List.map_flatMap]
    simp only [List.map_map, Function.comp_def, Prod.swap_prod_mk]
    exact Exchanged.product_swap cs1 cs2
  obtain ⟨r, r', f1, f2, f3, f4⟩ := Exchanged.filter_exchanged _ _ hl hq
  rw [f1, f2, ok_bind, ok_bind]
  rcases Exchanged.mapM_exchanged (fun pair => pairiteration depth pair.1 pair.2 θ) r r' f3
      (fun p hp => (Exchanged.plain_and_exchanged depth _ _ (hq p (f4 p hp)).1 (hq p (f4 p hp)).2 θ).1)
      (fun p hp => (Exchanged.plain_and_exchanged depth _ _ (hq p (f4 p hp)).1 (hq p (f4 p hp)).2 θ).2) with ⟨a, a', g1, g2, g3⟩ | ⟨g1, g2⟩
  · rw [g1, g2, ok_bind, ok_bind]
    exact Or.inr ⟨_, _, rfl, rfl, g3⟩
  · rw [g1, g2]
    exact Or.inl ⟨_, rfl, rfl⟩

/-- C114: the intersections of `c` with `b` are those of `b` with `c`, with the parameters exchanged, in another order. -/
theorem C114_intersects (depth : Nat) (b c : Bezier) (hb : QuadOrCubic b) (hc : QuadOrCubic c) (θ : ℝ) (l : List (Pt ℝ))
    (h : intersects depth b (some c) θ = .ok l) : ∃ l', intersects depth c (some b) θ = .ok l' ∧ l'.Perm (l.map Prod.swap) := by
  unfold intersects at h ⊢
  simp only at h ⊢
  obtain ⟨r1, e1, h⟩ := bind_eq_ok.mp h
  obtain ⟨r2, e2, h⟩ := bind_eq_ok.mp h
  rw [e1, e2, ok_bind, ok_bind]
  have hq : ∀ b r, QuadOrCubic b → Bezier.reduce b = .ok r → ∀ p ∈ r, QuadOrCubic p := by
    intro b r h hr p hp
    have le : ∀ (l : List Bezier) (a e : ℝ), TilesFrom b.controlPoints a e l → ∀ p ∈ l, p.controlPoints.length = b.controlPoints.length := by
      intro l
      induction l with
      | nil => intro a e h; simp
      | cons p l ih =>
        rintro a e ⟨a1, a2, a3, a4, a5⟩ q hq
        rcases List.mem_cons.mp hq with rfl | hq
        · exact a3
        · exact ih _ _ a5 q hq
    unfold QuadOrCubic
    rw [le r 0 1 (C48_tiles b h r hr (List.ne_nil_of_mem hp)) p hp]
    exact h
  rcases C114_curveIntersects depth r1 r2 (hq b r1 hb e1) (hq c r2 hc e2) θ with ⟨e, a1, -⟩ | ⟨x, x', a1, a2, a3⟩
  · rw [h] at a1; cases a1
  · rw [h] at a1; cases a1
    exact ⟨x', a2, a3⟩

/-! ## A case -/

private theorem arch_parts_simple {α β : ℝ} (a0 : 0 ≤ α) (ab : α < β) (b1 : β ≤ 1) :
    √(((β - α) * (1 + α)) ^ 2 + ((β - α) * (1 - α)) ^ 2) * √(((β - α) * (1 + β)) ^ 2 + ((β - α) * (1 - β)) ^ 2) <
      2 * ((β - α) * (1 + α) * ((β - α) * (1 + β)) + (β - α) * (1 - α) * ((β - α) * (1 - β))) := by
  have hd : 0 < β - α := by linarith
  have hb0 : 0 ≤ β := by linarith
  have hab : 0 ≤ α * β := by positivity
  rw [← Real.sqrt_mul (by positivity)]
  have e : (((β - α) * (1 + α)) ^ 2 + ((β - α) * (1 - α)) ^ 2) * (((β - α) * (1 + β)) ^ 2 + ((β - α) * (1 - β)) ^ 2)
      = (β - α) ^ 4 * (4 * (1 + α ^ 2) * (1 + β ^ 2)) := by ring
  have e2 : 2 * ((β - α) * (1 + α) * ((β - α) * (1 + β)) + (β - α) * (1 - α) * ((β - α) * (1 - β)))
      = (β - α) ^ 2 * (4 * (1 + α * β)) := by ring
  rw [e, e2, Real.sqrt_lt' (by positivity)]
  have a1 : α ^ 2 ≤ α * β := by nlinarith
  have b1 : β ^ 2 ≤ 1 := by nlinarith
  have h4 : 0 < (β - α) ^ 4 := by positivity
  have key : 4 * (1 + α ^ 2) * (1 + β ^ 2) < (4 * (1 + α * β)) ^ 2 := by
    have : α ^ 2 * β ^ 2 = (α * β) ^ 2 := by ring
    have := sq_nonneg (α * β)
    linarith [show 4 * (1 + α ^ 2) * (1 + β ^ 2) = 4 + 4 * α ^ 2 + 4 * β ^ 2 + 4 * (α * β) ^ 2 by ring,
      show (4 * (1 + α * β)) ^ 2 = 16 + 32 * (α * β) + 16 * (α * β) ^ 2 by ring]
  calc _ < (β - α) ^ 4 * (4 * (1 + α * β)) ^ 2 := mul_lt_mul_of_pos_left key h4
    _ = _ := by ring

/-- The arch (0,0), (1,1), (3,1) never stops and all its parts are simple, so it has a reduction. -/
private theorem arch_reduce (b : Bezier) (hb : b.controlPoints = [(0, 0), (1, 1), (3, 1)]) : ∃ r, reduce b = .ok r ∧ r ≠ [] := by
  apply C48_success b (by unfold QuadOrCubic; rw [hb]; simp)
  · intro t t0 t1 ht
    have h1 := (hasDerivAt_curve_step b.controlPoints (by rw [hb]; simp) t).1.unique ht.1
    rw [hb] at h1
    simp [dcStep, curve_two] at h1
    linarith
  · rintro α β a0 ab b1 hl ⟨qs, hlen, hc, hs⟩
    rw [hb] at hlen hc
    match qs, hlen with
    | [p, q, r], _ =>
      have h0 := hc 0
      have h1 := hc 1
      have h2 := hc (1 / 2)
      simp only [curve_three, Prod.mk.injEq] at h0 h1 h2
      obtain ⟨px, py⟩ := h0
      obtain ⟨rx, ry⟩ := h1
      obtain ⟨qx, qy⟩ := h2
      have u1 : q.1 - p.1 = (β - α) * (1 + α) := by linarith
      have u2 : q.2 - p.2 = (β - α) * (1 - α) := by linarith
      have v1 : r.1 - q.1 = (β - α) * (1 + β) := by linarith
      have v2 : r.2 - q.2 = (β - α) * (1 - β) := by linarith
      have hd : 0 < β - α := by linarith
      rw [C71_simple _ (.inl rfl), if_neg (by simp [SShaped]), if_neg] at hs
      · simp only [legs, vec, u1, u2, v1, v2, dot, norm2, Except.ok.injEq, decide_eq_false_iff_not] at hs
        exact hs (arch_parts_simple a0 ab b1)
      · simp only [legs, vec, u1, u2, v1, v2, Prod.mk.injEq, not_or, not_and]
        constructor
        · intro hh; nlinarith
        · intro hh; nlinarith

/-- Two arches of different size, with the default threshold: the search ends for both orders, with exchanged parameters. -/
example (b : Bezier) (hb : b.controlPoints = [(0, 0), (1, 1), (3, 1)]) :
    ∃ l l', intersects 24 b (some (grown 2 b)) (1 / 2) = .ok l ∧ intersects 24 (grown 2 b) (some b) (1 / 2) = .ok l' ∧ l'.Perm (l.map Prod.swap) := by
  obtain ⟨r, hr, -⟩ := arch_reduce b hb
  have hq : QuadOrCubic b := by unfold QuadOrCubic; rw [hb]; simp
  have hg : (grown 2 b).controlPoints = [(0, 0), (2, 2), (6, 2)] := by norm_num [grown, grownBy, growBy, hb]
  have hq' : QuadOrCubic (grown 2 b) := by unfold QuadOrCubic; rw [hg]; simp
  have hr' : reduce (grown 2 b) = .ok (r.map (grown 2)) := by rw [C106_reduce 2 (by norm_num) b, hr]; rfl
  obtain ⟨l, hl⟩ := C47_intersects 23 24 b (grown 2 b) hq hq' (by rw [hb]; simp [InDesignSpace]; norm_num)
    (by rw [hg]; simp [InDesignSpace]; norm_num) (1 / 2) (by norm_num) (by norm_num) r _ hr hr'
  obtain ⟨l', hl', hp⟩ := C114_intersects 24 b (grown 2 b) hq hq' (1 / 2) l hl
  exact ⟨l, l', hl, hl', hp⟩

end PathLib
