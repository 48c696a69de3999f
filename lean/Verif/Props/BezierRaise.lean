import Verif.Props.BezierShape
import Verif.Lemmas.BernsteinUnique

set_option linter.unusedSectionVars false

/-!
# When `raiseOrder` keeps the curve: C42
-/

namespace PathLib
open Spec Bezier

variable {K : Type} [Field K] [LinearOrder K] [IsStrictOrderedRing K]

/-- C42: the curve returned by `raiseOrder` traces the same points exactly when the curve is a single point. -/
theorem C42_same_iff (ps : Segment K) (h : ps ≠ []) :
    ∃ rs, raiseOrderPoints ps = .ok rs ∧ rs.length = ps.length + 2 ∧
      ((∀ t, Bezier.get rs t = Bezier.get ps t) ↔ ∀ p ∈ ps, p = ps.head h) := by
  obtain ⟨qs, hq, hlen, hcurve⟩ := C42_without_first ps h
  refine ⟨_, hq, by simp [hlen], ?_⟩
  have hl : 0 < ps.length := List.length_pos_iff.mpr h
  have hqne : qs ≠ [] := by rintro rfl; simp at hlen
  have hc1 : ∀ t, curve qs t = curve ps t := fun t => by
    have := hcurve t
    rw [get_ok _ hqne, get_ok _ h] at this
    exact Except.ok.inj this
  have hconst : ∀ (l : Segment K) (hl : l ≠ []) (p : Pt K), (∀ x ∈ l, x = p) → ∀ t, curve l t = p := by
    intro l hl p hp t
    have : ∀ f : Pt K → K, bernList (l.map f) t = f p := by
      intro f
      unfold bernList
      rw [← bernSum_const ((l.map f).length - 1) (f p) t]
      apply bernSum_congr
      intro i hi
      have hi' : i < l.length := by have := List.length_pos_iff.mpr hl; simp at hi; omega
      simp [List.getD_eq_getElem?_getD, List.getElem?_eq_getElem hi', hp _ (List.getElem_mem hi')]
    exact Prod.ext (this _) (this _)
  constructor
  · intro hsame
    -- elevate once more and compare the control points
    obtain ⟨qs', hq', hlen', hcurve'⟩ := C42_without_first qs hqne
    have hq'ne : qs' ≠ [] := by rintro rfl; simp at hlen'
    have hc2 : ∀ t, curve (ps.head h :: qs) t = curve qs' t := fun t => by
      have e1 := hsame t
      have e2 := hcurve' t
      rw [get_ok _ (by simp), get_ok _ h] at e1
      rw [get_ok _ hq'ne, get_ok _ hqne] at e2
      rw [Except.ok.inj e1, Except.ok.inj e2, hc1]
    have heq := curve_unique _ _ (by simp [hlen']) hc2
    have hform := (raise_points qs hqne).symm.trans hq'
    have htail := (List.cons.inj (Except.ok.inj hform)).2
    have hm : (qs.length : K) ≠ 0 := by exact_mod_cast (List.length_pos_iff.mpr hqne).ne'
    have hstep : ∀ j (hj : j + 1 < qs.length), qs[j + 1] = qs[j] := by
      intro j hj
      have e := htail.trans heq.symm
      have e1 := congrArg (fun l => l[j + 1]?) e
      simp only [List.getElem?_cons_succ, List.append_eq] at e1
      rw [List.getElem?_append_left (by simpa using hj), List.getElem?_map, List.getElem?_range hj,
        List.getElem?_eq_getElem (show j < qs.length by omega), Option.map_some] at e1
      have e2 := Option.some.inj e1
      have hmod : (j + 1 + qs.length - 1) % qs.length = j := by
        rw [show j + 1 + qs.length - 1 = j + qs.length by omega, Nat.add_mod_right]
        exact Nat.mod_eq_of_lt (by omega)
      rw [hmod] at e2
      have g1 : qs.getD (j + 1) (0, 0) = qs[j + 1] := by simp [List.getD_eq_getElem?_getD, hj]
      have g2 : qs.getD j (0, 0) = qs[j] := by simp [List.getD_eq_getElem?_getD, show j < qs.length by omega]
      rw [g1, g2] at e2
      have hpos : (0 : K) < (qs.length : K) - (j + 1 : ℕ) := by
        rw [sub_pos]; exact_mod_cast hj
      have solve : ∀ a b : K, ((qs.length : K) - (j + 1 : ℕ)) / qs.length * a + ((j + 1 : ℕ) : K) / qs.length * b = b → a = b := by
        intro a b hab
        have : ((qs.length : K) - (j + 1 : ℕ)) * (a - b) = 0 := by
          field_simp at hab
          linear_combination hab
        exact sub_eq_zero.mp ((mul_eq_zero.mp this).resolve_left hpos.ne')
      exact Prod.ext (solve _ _ (congrArg Prod.fst e2)) (solve _ _ (congrArg Prod.snd e2))
    have hall : ∀ j (hj : j < qs.length), qs[j] = qs[0]'(by omega) := by
      intro j
      induction j with
      | zero => intro _; rfl
      | succ j ih => intro hj; rw [hstep j hj, ih (by omega)]
    have hqc : ∀ x ∈ qs, x = qs[0]'(by omega) := by
      intro x hx
      obtain ⟨j, hj, rfl⟩ := List.mem_iff_getElem.mp hx
      exact hall j hj
    have hrep : ps = List.replicate ps.length (qs[0]'(by omega)) := by
      apply curve_unique _ _ (by simp)
      intro t
      rw [← hc1, hconst qs hqne _ hqc, hconst _ (by simp; exact h) _ (fun x hx => List.eq_of_mem_replicate hx)]
    intro p hp
    have hmem : ∀ x ∈ ps, x = qs[0]'(by omega) := by
      intro x hx
      rw [hrep] at hx
      exact List.eq_of_mem_replicate hx
    rw [hmem p hp, hmem _ (List.head_mem h)]
  · intro hall t
    rw [get_ok _ (by simp), get_ok _ h]
    have hqc : ∀ x ∈ qs, x = ps.head h := by
      have : qs = List.replicate qs.length (ps.head h) := by
        apply curve_unique _ _ (by simp)
        intro t
        rw [hc1, hconst ps h _ hall, hconst _ (by simp; exact hqne) _ (fun x hx => List.eq_of_mem_replicate hx)]
      intro x hx
      rw [this] at hx
      exact List.eq_of_mem_replicate hx
    rw [hconst ps h _ hall, hconst _ (by simp) (ps.head h)]
    intro x hx
    rcases List.mem_cons.mp hx with rfl | hx
    · rfl
    · exact hqc x hx

/-- C42: so for no line, quadratic or cubic curve with two different control points does `raiseOrder` keep the curve. -/
theorem C42_never (ps : Segment K) (h : ps ≠ []) (p q : Pt K) (hp : p ∈ ps) (hq : q ∈ ps) (hpq : p ≠ q) :
    ∃ rs t, raiseOrderPoints ps = .ok rs ∧ Bezier.get rs t ≠ Bezier.get ps t := by
  obtain ⟨rs, h1, -, h3⟩ := C42_same_iff ps h
  by_contra hne
  push Not at hne
  have := h3.mp fun t => hne rs t h1
  exact hpq ((this p hp).trans (this q hq).symm)

example : ∃ rs t, raiseOrderPoints [((0 : ℚ), 0), (1, 2), (3, 0)] = .ok rs ∧
    Bezier.get rs t ≠ Bezier.get [((0 : ℚ), 0), (1, 2), (3, 0)] t :=
  C42_never _ (by simp) (0, 0) (1, 2) (by simp) (by simp) (by decide)

end PathLib
