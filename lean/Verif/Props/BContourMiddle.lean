import Verif.Props.BContourClosest

set_option linter.unusedSectionVars false

/-!
# Closest points with 202 to 401 steps: C55

Up to 201 steps the search finds a point (`C55_found`), from 402 steps on it finds none (`C55_many_steps_counterexample`).
-/

namespace PathLib
open Spec Bezier BContour

private theorem refine_inside {p : Pt ℝ} {ps : Segment ℝ} (hps : ps ≠ [])
    (hnear : ∀ t, 0 ≤ t → t ≤ 1 → distance (curve ps t) p < maxSafe) (lut : List (Pt ℝ)) (hn : 2 ≤ lut.length)
    (h401 : lut.length ≤ 401) (k : Nat) (h0 : 1 ≤ k) (h1 : k + 1 < lut.length) :
    ∃ q d, refineBinary p ps lut k = .ok (q, d) ∧ d < maxSafe := by
  unfold refineBinary
  rw [tt_ok _ hn, ok_bind]
  obtain ⟨r, e, _, h⟩ := loop_ok (p := p) hps hnear 25
    { i := k, lut := lut, tt := (List.range lut.length).map fun (t : Nat) => (t : ℝ) / ((lut.length : ℝ) - 1),
      q := (0, 0), closest := maxSafe } (by simp) (tt_range _ _ (tt_ok _ hn)) (by simp; omega) (.inl rfl)
  rw [e]
  refine ⟨r.q, r.closest, rfl, ?_⟩
  simp only at h
  have hR : (0 : ℝ) < (lut.length : ℝ) - 1 := by
    have : (2 : ℝ) ≤ lut.length := by exact_mod_cast hn
    linarith
  have hR2 : (lut.length : ℝ) - 1 ≤ 400 := by
    have : (lut.length : ℝ) ≤ 401 := by exact_mod_cast h401
    linarith
  refine (h (by norm_num) (((k - 1 : Nat) : ℝ) / ((lut.length : ℝ) - 1)) (((k + 1 : Nat) : ℝ) / ((lut.length : ℝ) - 1)) ?_ ?_ ?_).1
  · rw [if_neg (by omega), show (k : Int) - 1 = ((k - 1 : Nat) : Int) by omega]
    exact tt_get lut.length (k - 1) (by omega)
  · rw [if_neg (by omega), show (k : Int) + 1 = ((k + 1 : Nat) : Int) by omega]
    exact tt_get lut.length (k + 1) (by omega)
  · rw [← sub_div, div_div, div_le_div_iff₀ (by norm_num) (by positivity)]
    push_cast [Nat.cast_sub h0]
    nlinarith

private theorem refine_end {p : Pt ℝ} {ps : Segment ℝ} (lut : List (Pt ℝ)) (hn : 202 ≤ lut.length) (k : Nat)
    (hk : k = 0 ∨ k + 1 = lut.length) : refineBinary p ps lut k = .ok ((0, 0), maxSafe) := by
  have hR : (201 : ℝ) ≤ (lut.length : ℝ) - 1 := by
    have : (202 : ℝ) ≤ lut.length := by exact_mod_cast hn
    linarith
  have hpos : (0 : ℝ) < (lut.length : ℝ) - 1 := by linarith
  unfold refineBinary
  rw [tt_ok _ (by omega), ok_bind]
  have key : ∀ i1 i2 : Nat, i2 ≤ i1 + 1 →
      ((i2 : ℝ) / ((lut.length : ℝ) - 1) - (i1 : ℝ) / ((lut.length : ℝ) - 1)) / 5 < 1 / 1000 := by
    intro i1 i2 h
    rw [← sub_div, div_div, div_lt_div_iff₀ (by positivity) (by norm_num)]
    have : (i2 : ℝ) ≤ i1 + 1 := by exact_mod_cast h
    nlinarith
  have hloop : ∀ (i1 i2 : Nat), i2 ≤ i1 + 1 →
      pyGet ((List.range lut.length).map fun (t : Nat) => (t : ℝ) / ((lut.length : ℝ) - 1))
        (if (k : Int) = 0 then 0 else (k : Int) - 1) = .ok ((i1 : ℝ) / ((lut.length : ℝ) - 1)) →
      pyGet ((List.range lut.length).map fun (t : Nat) => (t : ℝ) / ((lut.length : ℝ) - 1))
        (if (k : Int) = lut.length - 1 then (k : Int) else (k : Int) + 1) = .ok ((i2 : ℝ) / ((lut.length : ℝ) - 1)) →
      refineLoop p ps 25
        { i := k, lut := lut, tt := (List.range lut.length).map fun (t : Nat) => (t : ℝ) / ((lut.length : ℝ) - 1),
          q := (0, 0), closest := maxSafe } = .ok
        { i := k, lut := lut, tt := (List.range lut.length).map fun (t : Nat) => (t : ℝ) / ((lut.length : ℝ) - 1),
          q := (0, 0), closest := maxSafe } := by
    intro i1 i2 h12 e1 e2
    rw [refineLoop]
    simp only
    rw [e1, ok_bind, e2, ok_bind, if_pos (key i1 i2 h12)]
    rfl
  rcases hk with rfl | hk
  · rw [hloop 0 1 (by omega) (by rw [if_pos (by rfl)]; exact tt_get lut.length 0 (by omega))
      (by rw [if_neg (by push_cast; omega)]; exact tt_get lut.length 1 (by omega))]
    rfl
  · rw [hloop (k - 1) k (by omega)
      (by rw [if_neg (by omega), show (k : Int) - 1 = ((k - 1 : Nat) : Int) by omega]; exact tt_get lut.length (k - 1) (by omega))
      (by rw [if_pos (by omega)]; exact tt_get lut.length k (by omega))]
    rfl

/-- Which index of its curve the search starts from, for the index `k` of the table. -/
private theorem pick_index (bs : List Bezier) (hbs : bs ≠ []) (n : Nat) (hn : 2 ≤ n) (k : Nat)
    (hk : k < bs.length * (n - 1) + 1) :
    ∃ b b2, pick bs n k = .ok (b, b2, ((if k < n then k else (k - n) % (n - 1) : Nat) : Int)) := by
  obtain ⟨b, b2, i, h, -, -, m, hm, -, hi⟩ := pick_ok bs hbs n hn k hk
  refine ⟨b, b2, ?_⟩
  rw [h]
  have : i = ((if k < n then k else (k - n) % (n - 1) : Nat) : Int) := by
    by_cases hkn : k < n
    · rw [if_pos hkn]
      rcases hi with ⟨-, hi⟩ | ⟨h1, h2, h3⟩
      · exact hi
      · exfalso
        have e : ((n - 1 : Nat) : Int) ≤ m * ((n - 1 : Nat) : Int) := by
          have : (1 : Int) ≤ m := by omega
          nlinarith [show (0 : Int) ≤ ((n - 1 : Nat) : Int) by omega]
        unfold pick at h
        simp only [show (k : Int) < n by omega, if_true] at h
        obtain ⟨c, hc, h⟩ := bind_eq_ok.mp h
        split_ifs at h
        · obtain ⟨c', hc', h⟩ := bind_eq_ok.mp h
          cases h
          omega
        · cases h
          omega
    · rw [if_neg hkn]
      have hs : (n : Int) - 1 = ((n - 1 : Nat) : Int) := by omega
      have hi : (k : Int) - n = ((k - n : Nat) : Int) := by omega
      have hm : Int.fmod ((k : Int) - n) ((n : Int) - 1) = (((k - n) % (n - 1) : Nat) : Int) := by
        rw [hs, hi, Int.fmod_eq_emod_of_nonneg _ (by omega)]
        norm_cast
      unfold pick at h
      simp only [show ¬ (k : Int) < n by omega, if_false] at h
      rw [if_neg (by omega)] at h
      obtain ⟨c, hc, h⟩ := bind_eq_ok.mp h
      obtain ⟨c', hc', h⟩ := bind_eq_ok.mp h
      cases h
      exact hm
  rw [this]

/-- C55: on a new contour with all its points within `MAX_SAFE_INTEGER` of `p`, and from 202 up to 401 steps, the search finds
nothing exactly when the first closest entry of the lookup table is the first or the last of the first curve, or the second of a
later curve. -/
theorem C55_middle_steps (c : Contour ℝ) (bc : BContour) (h : BContour.new c = .ok bc) (p : Pt ℝ)
    (hnear : ∀ s ∈ c, ∀ t, 0 ≤ t → t ≤ 1 → ∀ q, Bezier.get s t = .ok q → distance q p < 9007199254740991)
    (n : Nat) (hn : 202 ≤ n) (h401 : n ≤ 401) :
    ∃ tbl k, (getLUT n bc).1 = .ok tbl ∧ IsLut c n tbl ∧ findClosest p tbl = (k : Nat) ∧ ∃ d q,
      (findClosestPoint p n bc).1 = .ok (d, q) ∧
      if k = 0 ∨ k = n - 1 ∨ (n ≤ k ∧ (n - 1) ∣ (k - n)) then d = 9007199254740991 ∧ q = (0, 0)
      else d = distance q p ∧ ∃ s ∈ c, ∃ t, 0 ≤ t ∧ t ≤ 1 ∧ Bezier.get s t = .ok q := by
  obtain ⟨hc, h2⟩ := (C52_new c).mp ⟨bc, h⟩
  have hpts : bc.beziers.map (·.controlPoints) = c := (C52_history c bc h []).1
  have hne : ∀ s ∈ c, s ≠ [] := by intro s hs e; have := h2 s hs; rw [e] at this; simp at this
  have hnear' : ∀ s ∈ c, ∀ t, 0 ≤ t → t ≤ 1 → distance (curve s t) p < maxSafe :=
    fun s hs t h0 h1 => hnear s hs t h0 h1 _ (get_ok s (hne s hs) t)
  have hmem : ∀ b ∈ bc.beziers, b.controlPoints ∈ c := fun b hb => by rw [← hpts]; exact List.mem_map_of_mem hb
  obtain ⟨tbl, e, hl⟩ := new_lut c bc h n (by omega)
  obtain ⟨k, hk, ek, _⟩ := C55_findClosest p tbl (sample_near hc h2 hl hnear')
  have hlen : bc.beziers.length = c.length := by rw [← hpts]; simp
  rw [hl.1, ← hlen] at hk
  have hbne : bc.beziers ≠ [] := by intro e; rw [e] at hpts; exact hc hpts.symm
  obtain ⟨b, b2, hp⟩ := pick_index bc.beziers hbne n (by omega) k hk
  obtain ⟨m1, m2⟩ := pick_mem hp
  refine ⟨tbl, k, by rw [e], hl, ek, ?_⟩
  -- the second curve never contributes
  have second : ∀ b ∈ bc.beziers, ∃ l, lutOf b.controlPoints n = .ok l ∧
      refineBinary p b.controlPoints l 0 = .ok ((0, 0), maxSafe) := by
    intro b hb
    obtain ⟨l, el, hll, _⟩ := C40_samples b.controlPoints (hne _ (hmem b hb)) n (by omega)
    exact ⟨l, el, refine_end l (by omega) 0 (.inl rfl)⟩
  obtain ⟨l, el, hll, _⟩ := C40_samples b.controlPoints (hne _ (hmem b m1)) n (by omega)
  have main : ∀ q d, refineBinary p b.controlPoints l ((if k < n then k else (k - n) % (n - 1) : Nat) : Int) = .ok (q, d) →
      d ≤ maxSafe → (findClosestPoint p n bc).1 = .ok (d, q) := by
    intro q d hr hd
    unfold findClosestPoint
    rw [e]
    simp only
    rw [ek, hp, ok_bind]
    simp only
    unfold closestOn
    rw [el, ok_bind, hr, ok_bind]
    cases b2 with
    | none => rfl
    | some b2 =>
      obtain ⟨l', e1', e2'⟩ := second b2 (m2 b2 rfl)
      simp only
      rw [e1', ok_bind, e2', ok_bind]
      simp only [not_lt.mpr hd, if_false]
      rfl
  have hiff : (k = 0 ∨ k = n - 1 ∨ (n ≤ k ∧ (n - 1) ∣ (k - n))) ↔
      ((if k < n then k else (k - n) % (n - 1)) = 0 ∨ (if k < n then k else (k - n) % (n - 1)) + 1 = n) := by
    have hmlt := Nat.mod_lt (k - n) (show 0 < n - 1 by omega)
    by_cases hkn : k < n
    · simp only [hkn, if_true]; omega
    · simp only [hkn, if_false]
      rw [Nat.dvd_iff_mod_eq_zero]
      omega
  by_cases hend : k = 0 ∨ k = n - 1 ∨ (n ≤ k ∧ (n - 1) ∣ (k - n))
  · refine ⟨_, _, main _ _ (refine_end l (by omega) _ ?_) le_rfl, ?_⟩
    · rw [hll]; exact hiff.mp hend
    · rw [if_pos hend]; exact ⟨rfl, rfl⟩
  · have hnot := mt hiff.mpr hend
    have hb : (if k < n then k else (k - n) % (n - 1)) < n := by
      split_ifs with hkn
      · exact hkn
      · have := Nat.mod_lt (k - n) (show 0 < n - 1 by omega); omega
    obtain ⟨q, d, hr, hd⟩ := refine_inside (hne _ (hmem b m1)) (hnear' _ (hmem b m1)) l (by omega) (by omega)
      (if k < n then k else (k - n) % (n - 1)) (by omega) (by omega)
    refine ⟨d, q, main q d hr hd.le, ?_⟩
    rw [if_neg hend]
    rcases C55_result p n bc d q (main q d hr hd.le) with ⟨h, _⟩ | ⟨b, hb, t, h0, h1, hq, hd', _⟩
    · rw [h] at hd; exact absurd hd (lt_irrefl _)
    · exact ⟨hd', b.controlPoints, hmem b hb, t, h0.le, h1.le, hq⟩

/-- A line, the point at its start and 202 steps: nothing is found. -/
example (bc : BContour) (h : BContour.new [[((0:ℝ), 0), (1, 0)]] = .ok bc) :
    (findClosestPoint (0, 0) (202 : Nat) bc).1 = .ok (9007199254740991, (0, 0)) := by
  obtain ⟨tbl, k, -, hl, hk, d, q, h1, h2⟩ := C55_middle_steps _ bc h (0, 0) (by
    intro s hs t h0 h1 q hq
    simp at hs
    subst hs
    rw [get_ok _ (by simp), curve_two] at hq
    cases hq
    simp only [distance]
    calc _ ≤ Real.sqrt 1 := Real.sqrt_le_sqrt (by nlinarith)
      _ < _ := by norm_num) 202 (by norm_num) (by norm_num)
  obtain ⟨p, hp, h0⟩ := hl.2 0 (by simp) 0 (by omega) (.inl rfl)
  norm_num [Bezier.get, order] at hp
  subst hp
  have h00 : tbl[0]? = some (0, 0) := h0
  have hlen : 0 < tbl.length := by
    by_contra hh
    rw [List.getElem?_eq_none (by omega)] at h00
    cases h00
  rw [List.getElem?_eq_getElem hlen] at h00
  obtain ⟨i, hi, e, -, hmin⟩ := C55_findClosest (0, 0) tbl ⟨_, List.getElem_mem hlen, by rw [Option.some.inj h00]; norm_num [distance]⟩
  have hi0 : i = 0 := by
    by_contra hh
    have := hmin 0 hlen (by omega)
    rw [Option.some.inj h00] at this
    simp only [distance] at this
    norm_num at this
    exact absurd this (not_lt.mpr (Real.sqrt_nonneg _))
  have hk0 : k = 0 := by rw [e] at hk; omega
  rw [if_pos (.inl hk0)] at h2
  rw [h1, h2.1, h2.2]

end PathLib
