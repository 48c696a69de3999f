import Verif.Props.Double
import Verif.Props.RoundedColor
import Verif.Props.RoundedLength

/-!
# Colours and lengths in double precision: C124
-/

namespace PathLib

open Spec

namespace DoubleColor

variable {c : ℝ} {e k : ℕ}

theorem fmod_safe {x : ℝ} {m j : ℕ} (hm : 0 < m) (hj : m ≤ 2 ^ j) (h : Multiple e x) :
    Safe e j (Rounded.Color.fmod x m) (Rounded.Color.fmod x m) := by
  have hm' : (0:ℝ) < m := by exact_mod_cast hm
  have hx : x = x / m * m := by field_simp
  refine ⟨rfl, ?_, ?_⟩
  · unfold Rounded.Color.fmod
    rw [sub_eq_add_neg]
    refine h.add (Multiple.neg ?_)
    generalize (if 0 ≤ x / (m : ℝ) then ⌊x / (m : ℝ)⌋ else ⌈x / (m : ℝ)⌉ : ℤ) = n
    have : Multiple 0 ((m : ℝ) * (n : ℝ)) := ⟨m * n, by simp⟩
    exact this.mono (Nat.zero_le _)
  · have hb : |Rounded.Color.fmod x m| ≤ m := by
      unfold Rounded.Color.fmod
      split_ifs with h0
      · have a := Int.floor_le (x / (m : ℝ))
        have b := Int.lt_floor_add_one (x / (m : ℝ))
        rw [abs_le]
        constructor <;> nlinarith
      · have a := Int.le_ceil (x / (m : ℝ))
        have b := Int.ceil_lt_add_one (x / (m : ℝ))
        rw [abs_le]
        constructor <;> nlinarith
    exact hb.trans (by exact_mod_cast hj)

theorem pyMod_safe {x x' : ℝ} {m j : ℕ} (hm : 0 < m) (hj : m ≤ 2 ^ j) (h : Safe e k x x') (he : e ≤ 1074) (hj' : j + 1 ≤ 1023) :
    Safe e (j + 1) (Rounded.Color.pyMod (double c) x m) (Rounded.Color.pyMod (binary 52).toRounding x' m) := by
  obtain ⟨rfl, hmul, _⟩ := h
  have hf := fmod_safe hm hj hmul
  unfold Rounded.Color.pyMod
  simp only
  split_ifs
  · have hi : Safe e j (m : ℝ) m := by
      have : Safe 0 j (((m : ℤ) : ℝ)) ((m : ℤ) : ℝ) := Safe.int _ (by
        rw [Int.cast_natCast, abs_of_nonneg (Nat.cast_nonneg m)]; exact_mod_cast hj)
      rw [Int.cast_natCast] at this
      exact this.mono (Nat.zero_le _) le_rfl
    exact hf.add hi he (by omega)
  · exact hf.mono le_rfl (by omega)

private theorem nat_int (m : ℕ) {j : ℕ} (h : m ≤ 2 ^ j) : Safe 0 j (m : ℝ) m := by
  have : Safe 0 j (((m : ℤ) : ℝ)) ((m : ℤ) : ℝ) := Safe.int _ (by
    rw [Int.cast_natCast, abs_of_nonneg (Nat.cast_nonneg m)]; exact_mod_cast h)
  rwa [Int.cast_natCast] at this

private theorem s1 : Safe 0 0 (1:ℝ) 1 := by simpa using nat_int 1 (j := 0) (by norm_num)
private theorem s2 : Safe 0 1 (2:ℝ) 2 := by simpa using nat_int 2 (j := 1) (by norm_num)
private theorem s3 : Safe 0 2 (3:ℝ) 3 := by simpa using nat_int 3 (j := 2) (by norm_num)
private theorem s6 : Safe 0 3 (6:ℝ) 6 := by simpa using nat_int 6 (j := 3) (by norm_num)

theorem hlsV_safe {m1 m2 x m1' m2' x' : ℝ} (h1 : Safe 100 10 m1 m1') (h2 : Safe 100 10 m2 m2') (hx : Safe e k x x') (he : 100 ≤ e) (he' : e ≤ 600) :
    Safe 1074 100 (Rounded.Color.hlsV (double c) m1 m2 x) (Rounded.Color.hlsV (binary 52).toRounding m1' m2' x') := by
  have hp := pyMod_safe (c := c) (m := 1) (j := 0) (by norm_num) (by norm_num) hx (by omega) (by omega)
  simp only [Nat.cast_one] at hp
  have d6 := s1.div (c := c) s6 (by norm_num) (by norm_num)
  have d3 := s2.div (c := c) s3 (by norm_num) (by norm_num)
  have dm := h2.sub (c := c) h1 (by omega) (by omega)
  unfold Rounded.Color.hlsV
  simp only
  obtain ⟨ep, _, _⟩ := id hp
  obtain ⟨e6, _, _⟩ := id d6
  obtain ⟨e3, _, _⟩ := id d3
  have t1 := (h1.mono (show 100 ≤ 100 + e + 0 by omega) (show 10 ≤ 10 + 1 + (0 + 1) + 3 by omega)).add (c := c)
    ((dm.mul (c := c) hp (by omega) (by omega)).mul (c := c) s6 (by omega) (by omega)) (by omega) (by omega)
  have sd := (d3.mono (show _ ≤ e by omega) (show _ ≤ 1 by omega)).sub (c := c) (hp.mono le_rfl (show _ ≤ 1 by omega)) (by omega) (by omega)
  have t2 := (h1.mono (show 100 ≤ 100 + e + 0 by omega) (show 10 ≤ 10 + 1 + (1 + 1) + 3 by omega)).add (c := c)
    ((dm.mul (c := c) sd (by omega) (by omega)).mul (c := c) s6 (by omega) (by omega)) (by omega) (by omega)
  have k1 : Rounded.Color.pyMod (binary 52).toRounding x' 1 < (binary 52).div 1 6 ↔ Rounded.Color.pyMod (double c) x 1 < (double c).div 1 6 := by rw [ep, e6]
  have k2 : Rounded.Color.pyMod (binary 52).toRounding x' 1 < 1 / 2 ↔ Rounded.Color.pyMod (double c) x 1 < 1 / 2 := by rw [ep]
  have k3 : Rounded.Color.pyMod (binary 52).toRounding x' 1 < (binary 52).div 2 3 ↔ Rounded.Color.pyMod (double c) x 1 < (double c).div 2 3 := by rw [ep, e3]
  by_cases c1 : Rounded.Color.pyMod (double c) x 1 < (double c).div 1 6
  · rw [if_pos c1, if_pos (k1.mpr c1)]
    exact t1.mono (by omega) (by omega)
  rw [if_neg c1, if_neg (fun h => c1 (k1.mp h))]
  by_cases c2 : Rounded.Color.pyMod (double c) x 1 < 1 / 2
  · rw [if_pos c2, if_pos (k2.mpr c2)]
    exact h2.mono (by omega) (by omega)
  rw [if_neg c2, if_neg (fun h => c2 (k2.mp h))]
  by_cases c3 : Rounded.Color.pyMod (double c) x 1 < (double c).div 2 3
  · rw [if_pos c3, if_pos (k3.mpr c3)]
    exact t2.mono (by omega) (by omega)
  rw [if_neg c3, if_neg (fun h => c3 (k3.mp h))]
  exact h1.mono (by omega) (by omega)

theorem hslColor_eq {h h' : ℝ} (hh : Safe 100 10 h h') : Rounded.Color.hslColor (double c) h = Rounded.Color.hslColor (binary 52).toRounding h' := by
  have s50 : Safe 0 6 (50:ℝ) 50 := by simpa using nat_int 50 (j := 6) (by norm_num)
  have s100 : Safe 0 7 (100:ℝ) 100 := by simpa using nat_int 100 (j := 7) (by norm_num)
  have s255 : Safe 0 8 (255:ℝ) 255 := by simpa using nat_int 255 (j := 8) (by norm_num)
  have s360 : Safe 0 9 (360:ℝ) 360 := by simpa using nat_int 360 (j := 9) (by norm_num)
  have ph : (binary 52).rnd (1 / 2 : ℝ) = 1 / 2 := by
    have := roundBits_power (-1)
    rw [zpow_neg_one, ← one_div] at this
    exact this
  have d : (double c).div 50 100 = 1 / 2 ∧ (binary 52).div 50 100 = 1 / 2 := by
    have hf : (binary 52).div 50 100 = 1 / 2 := by
      unfold Rounding.div
      rw [show (50:ℝ) / 100 = 1 / 2 by norm_num]; exact ph
    exact ⟨by rw [(s50.div (c := c) s100 (by norm_num) (by norm_num)).eq, hf], hf⟩
  have sh : Safe 1 0 (1 / 2 : ℝ) (1 / 2) := ⟨rfl, ⟨1, by norm_num⟩, by rw [abs_of_pos (by norm_num)]; norm_num⟩
  have hq := hh.div (c := c) s360 (by norm_num) (by norm_num)
  have d3 := s1.div (c := c) s3 (by norm_num) (by norm_num)
  have m2 := sh.mul (c := c) ((s1.mono (show 0 ≤ 1 by omega) le_rfl).add (c := c) sh (by norm_num) (by norm_num)) (by norm_num) (by norm_num)
  have m1 := ((s2.mul (c := c) sh (by norm_num) (by norm_num)).mono (show _ ≤ 1 + 1 by norm_num) (show _ ≤ 0 + (0 + 1) by norm_num)).sub (c := c) m2
    (by norm_num) (by norm_num)
  have m1' := m1.mono (show _ ≤ 100 by norm_num) (show _ ≤ 10 by norm_num)
  have m2' := m2.mono (show _ ≤ 100 by norm_num) (show _ ≤ 10 by norm_num)
  have hq' := hq.mono (show _ ≤ 200 by norm_num) (show _ ≤ 20 by norm_num)
  have d3' := d3.mono (show _ ≤ 200 by norm_num) (show _ ≤ 20 by norm_num)
  have a := hlsV_safe (c := c) m1' m2' (hq'.add (c := c) d3' (by norm_num) (by norm_num)) (by norm_num) (by norm_num)
  have b := hlsV_safe (c := c) m1' m2' hq' (by norm_num) (by norm_num)
  have g := hlsV_safe (c := c) m1' m2' (hq'.sub (c := c) d3' (by norm_num) (by norm_num)) (by norm_num) (by norm_num)
  have a' := (a.mul (c := c) s255 (by norm_num) (by norm_num)).eq
  have b' := (b.mul (c := c) s255 (by norm_num) (by norm_num)).eq
  have g' := (g.mul (c := c) s255 (by norm_num) (by norm_num)).eq
  unfold Rounded.Color.hslColor Rounded.Color.hlsToRgb
  have hn : ¬ (1 / 2 : ℝ) = 0 := by norm_num
  simp only [d.1, d.2, if_neg hn, le_refl, if_true]
  rw [a', b', g']

end DoubleColor

section
variable {c : ℝ}

open DoubleColor

/-- C124: `randomHSLColor` neither underflows nor overflows, be the current hue an integer or a moderate float. -/
theorem C124_color (n : ℤ) (h : ℝ) (hm : Moderate h) :
    Rounded.Color.randomHSLColorInt (double c) n = Rounded.Color.randomHSLColorInt float n ∧
    Rounded.Color.randomHSLColor (double c) h = Rounded.Color.randomHSLColor float h := by
  constructor
  · unfold Rounded.Color.randomHSLColorInt
    simp only
    have hs : Safe 100 10 (((n + 73) % 360 : ℤ) : ℝ) (((n + 73) % 360 : ℤ) : ℝ) := by
      refine (Safe.int (k := 9) _ ?_).mono (by norm_num) (by norm_num)
      have h1 : |(n + 73) % 360| ≤ 2 ^ 9 := by rw [abs_le]; omega
      exact_mod_cast h1
    rw [hslColor_eq (c := c) hs]
  · unfold Rounded.Color.randomHSLColor
    simp only
    have s73 : Safe 100 100 (73:ℝ) 73 := (by simpa using Safe.int (k := 7) 73 (by norm_num) : Safe 0 7 (73:ℝ) 73).mono (by norm_num) (by norm_num)
    have hs := pyMod_safe (c := c) (m := 360) (j := 9) (by norm_num) (by norm_num) ((safe_moderate hm).add (c := c) s73 (by norm_num) (by norm_num))
      (by norm_num) (by norm_num)
    simp only [Nat.cast_ofNat] at hs
    rw [hslColor_eq (c := c) hs, hs.eq]

/-- C124: the part of `length` that is computed in floats neither underflows nor overflows; the rest is decimal. -/
theorem C124_length (D E : Rounding) (ps : Segment ℝ) (h4 : ps.length ≤ 4) (hm : ∀ p ∈ ps, ModeratePt p) :
    Rounded.length (double c) D E ps = Rounded.length float D E ps := by
  have hs : SafeSeg 100 100 ps ps := by
    clear h4
    induction ps with
    | nil => exact .nil
    | cons p ps ih => exact .cons ⟨safe_moderate (hm p (by simp)).1, safe_moderate (hm p (by simp)).2⟩ (ih fun q hq => hm q (by simp [hq]))
  have hd : Rounded.firstDerivative (double c) ps = Rounded.firstDerivative float ps := by
    unfold Rounded.firstDerivative
    rw [(dcStep_safe (c := c) hs h4 (by norm_num) (by norm_num)).eq]
  unfold Rounded.length
  rw [hd]

/-- 12.5 degrees. -/
example : Moderate (25 / 2) := by
  refine ⟨?_, .inr ⟨?_, ?_⟩⟩
  · have := roundBits_repr 53 (by norm_num) 25 (-1) (by norm_num)
    rw [show ((25 : ℤ) : ℝ) * 2 ^ (-1 : ℤ) = 25 / 2 by norm_num] at this
    exact this
  · rw [abs_of_pos (by norm_num)]; norm_num
  · rw [abs_of_pos (by norm_num)]; norm_num

end
end PathLib
