import Verif.Model.Color
import Verif.Spec.Css
import Mathlib.Data.Int.ModEq
import Mathlib.Tactic.IntervalCases
import Mathlib.Data.Rat.Floor

set_option linter.unusedSectionVars false
set_option linter.unusedSimpArgs false

/-!
# Property theorems about PathLib/Color.py (C63, C64)
-/

namespace PathLib
open Spec Color

/-! ## C63 -/

/-- The three bytes of a hexadecimal RGB value. -/
def Spec.rgb (n : Nat) : Color := ⟨n / 65536, n / 256 % 256, n % 256⟩

theorem keywords_eq_css : Color.keywords = cssColors.map fun e => (e.1, ((rgb e.2).red, (rgb e.2).green, (rgb e.2).blue)) := by
  decide +kernel

private theorem lookup_iff (l : List (String × (Int × Int × Int))) (hn : (l.map Prod.fst).Nodup) (k : String)
    (v : Int × Int × Int) : l.lookup k = some v ↔ (k, v) ∈ l := by
  induction l with
  | nil => simp
  | cons e l ih =>
    obtain ⟨k', v'⟩ := e
    simp only [List.map_cons, List.nodup_cons] at hn
    rw [List.lookup_cons]
    by_cases hk : k = k'
    · subst hk
      simp only [BEq.rfl, Option.some.injEq, List.mem_cons, Prod.mk.injEq, true_and]
      constructor
      · rintro rfl; exact .inl rfl
      · rintro (h | h)
        · exact h.symm
        · exact absurd (List.mem_map.mpr ⟨_, h, rfl⟩) hn.1
    · have : (k == k') = false := by simp [hk]
      simp only [this, List.mem_cons, Prod.mk.injEq, hk, false_and, false_or]
      exact ih hn.2

private theorem nodup_css : (cssColors.map Prod.fst).Nodup := by decide +kernel

private theorem lookup_css (k : String) (v : Int × Int × Int) :
    Color.keywords.lookup k = some v ↔ ∃ n, (k, n) ∈ cssColors ∧ v = ((rgb n).red, (rgb n).green, (rgb n).blue) := by
  rw [keywords_eq_css, lookup_iff]
  · simp only [List.mem_map, Prod.mk.injEq, Prod.exists]
    constructor
    · rintro ⟨k', n, h, rfl, rfl⟩; exact ⟨n, h, rfl⟩
    · rintro ⟨n, h, rfl⟩; exact ⟨k, n, h, rfl, rfl⟩
  · rw [List.map_map]; exact nodup_css

private theorem lookup_css_none (k : String) :
    Color.keywords.lookup k = none ↔ ∀ n, (k, n) ∉ cssColors := by
  constructor
  · intro h n hn
    have := (lookup_css k _).mpr ⟨n, hn, rfl⟩
    rw [h] at this; cases this
  · intro h
    cases hv : Color.keywords.lookup k with
    | none => rfl
    | some v =>
      obtain ⟨n, hn, _⟩ := (lookup_css k v).mp hv
      exact absurd hn (h n)

/-- C63: `fromName` returns a colour exactly when the name is alphabetic and its lower-case form is a CSS keyword, and then it is
the CSS value of that keyword. -/
theorem C63_found_iff (py : PyStr) (name : String) (c : Color) :
    fromName py name = .ok (some c) ↔
      py.isalpha name = true ∧ ∃ n, (py.lower name, n) ∈ cssColors ∧ c = rgb n := by
  unfold fromName forKeyword
  cases ha : py.isalpha name with
  | false => simp
  | true =>
    simp only [Bool.not_true, Bool.false_eq_true, if_false, true_and]
    cases hv : Color.keywords.lookup (py.lower name) with
    | none =>
      have := (lookup_css_none _).mp hv
      simp [this]
    | some v =>
      obtain ⟨n, hn, rfl⟩ := (lookup_css _ v).mp hv
      simp only [pure_eq_ok, Except.ok.injEq, Option.some.injEq]
      constructor
      · rintro rfl; exact ⟨n, hn, rfl⟩
      · rintro ⟨n', hn', rfl⟩
        have h' := (lookup_css _ _).mpr ⟨n', hn', rfl⟩
        rw [hv, Option.some.injEq, Prod.mk.injEq, Prod.mk.injEq] at h'
        rw [h'.1, h'.2.1, h'.2.2]

/-- C63: the result is `None` exactly for names that are not alphabetic. -/
theorem C63_none_iff (py : PyStr) (name : String) : fromName py name = .ok none ↔ py.isalpha name = false := by
  unfold fromName forKeyword
  cases ha : py.isalpha name with
  | false => simp
  | true =>
    simp only [Bool.not_true, Bool.false_eq_true, if_false]
    cases hv : Color.keywords.lookup (py.lower name) <;> simp

/-- C63: `ValueError` is raised exactly for alphabetic names that are no keyword, and nothing else is raised. -/
theorem C63_error_iff (py : PyStr) (name : String) (e : PyErr) : fromName py name = .error e ↔
    e = .valueError ∧ py.isalpha name = true ∧ ∀ n, (py.lower name, n) ∉ cssColors := by
  rw [← lookup_css_none]
  unfold fromName forKeyword
  cases ha : py.isalpha name with
  | false => simp
  | true =>
    simp only [Bool.not_true, Bool.false_eq_true, if_false, true_and]
    cases hv : Color.keywords.lookup (py.lower name) <;> simp [eq_comm]

/-- C63: names with the same lower-case form that are both alphabetic or both not give the same result. -/
theorem C63_case_insensitive (py : PyStr) (a b : String) (h1 : py.lower a = py.lower b)
    (h2 : py.isalpha a = py.isalpha b) : fromName py a = fromName py b := by
  unfold fromName forKeyword; rw [h1, h2]

private theorem css_small : ∀ e ∈ cssColors, e.2 < 16777216 := by decide +kernel

/-- C63: the components are bytes. -/
theorem C63_range (py : PyStr) (name : String) (c : Color) (h : fromName py name = .ok (some c)) :
    (0 ≤ c.red ∧ c.red ≤ 255) ∧ (0 ≤ c.green ∧ c.green ≤ 255) ∧ (0 ≤ c.blue ∧ c.blue ≤ 255) := by
  obtain ⟨_, n, hn, rfl⟩ := (C63_found_iff py name c).mp h
  have := css_small _ hn
  simp only [rgb] at this ⊢
  omega

/-- `isalpha` and `lower` behave on ASCII strings as Python documents. -/
def Spec.AsciiRules (py : PyStr) : Prop :=
  ∀ s : String, (∀ c ∈ s.toList, c.toNat < 128) →
    py.isalpha s = (!s.toList.isEmpty && s.toList.all Char.isAlpha) ∧
    py.lower s = String.ofList (s.toList.map Char.toLower)

private theorem alpha_of_lower (c : Char) (h : c.toLower.isAlpha = true) : c.isAlpha = true := by
  by_cases hu : c.isUpper = true
  · simp [Char.isAlpha, hu]
  · have : c.toLower = c := by
      unfold Char.toLower
      unfold Char.isUpper at hu
      simp only [Bool.and_eq_true, decide_eq_true_eq] at hu
      simp only [dite_eq_right_iff]
      intro h1
      exact absurd ⟨h1.1, h1.2⟩ hu
    rw [this] at h; exact h

private theorem css_alpha : ∀ e ∈ cssColors, e.1.toList.all Char.isAlpha = true ∧ e.1.toList ≠ [] := by decide +kernel

/-- C63: every CSS keyword is found, however its letters are capitalised. -/
theorem C63_keyword (py : PyStr) (hpy : AsciiRules py) (k : String) (n : Nat) (hk : (k, n) ∈ cssColors) (s : String)
    (ha : ∀ c ∈ s.toList, c.toNat < 128) (hs : s.toList.map Char.toLower = k.toList) :
    fromName py s = .ok (some (rgb n)) := by
  obtain ⟨h1, h2⟩ := hpy s ha
  obtain ⟨h3, h4⟩ := css_alpha _ hk
  rw [C63_found_iff]
  refine ⟨?_, n, ?_, rfl⟩
  · rw [h1, Bool.and_eq_true]
    constructor
    · simp only [Bool.not_eq_true', List.isEmpty_eq_false_iff]
      intro e; rw [e] at hs; exact h4 hs.symm
    · rw [List.all_eq_true] at h3 ⊢
      intro c hc
      apply alpha_of_lower
      apply h3
      rw [← hs]
      exact List.mem_map_of_mem hc
  · rw [h2, hs, String.ofList_toList]; exact hk

private theorem grays : ∀ e ∈ cssColors,
    (("gray").toList <:+ e.1.toList → (String.ofList (e.1.toList.take (e.1.toList.length - 4) ++ "grey".toList), e.2) ∈ cssColors) ∧
    (("grey").toList <:+ e.1.toList → (String.ofList (e.1.toList.take (e.1.toList.length - 4) ++ "gray".toList), e.2) ∈ cssColors) := by
  decide +kernel

/-- C63: every keyword may be spelled with "gray" or with "grey". -/
theorem C63_gray_grey (a : String) (n : Nat) : (a ++ "gray", n) ∈ cssColors ↔ (a ++ "grey", n) ∈ cssColors := by
  constructor
  · intro h
    have := (grays _ h).1 ⟨a.toList, by simp⟩
    simpa [String.toList_append, String.ofList_append] using this
  · intro h
    have := (grays _ h).2 ⟨a.toList, by simp⟩
    simpa [String.toList_append, String.ofList_append] using this

/-- Cases of C63. -/
example : ("Gold".toList.map Char.toLower = "gold".toList) ∧ ("gold", 0xffd700) ∈ cssColors ∧
    rgb 0xffd700 = ⟨255, 215, 0⟩ ∧ ("slategray", 0x708090) ∈ cssColors := by decide +kernel

/-- Rules for ASCII strings exist. -/
example : AsciiRules ⟨fun s => !s.toList.isEmpty && s.toList.all Char.isAlpha,
    fun s => String.ofList (s.toList.map Char.toLower)⟩ := fun _ _ => ⟨rfl, rfl⟩

/-! ## C64 -/

section hue
variable {K : Type} [Field K] [LinearOrder K] [IsStrictOrderedRing K] [FloorRing K]

theorem pyMod_range (x m : K) (hm : 0 < m) : 0 ≤ pyMod x m ∧ pyMod x m < m := by
  unfold pyMod
  have h1 := Int.floor_le (x / m)
  have h2 := Int.lt_floor_add_one (x / m)
  rw [le_div_iff₀ hm] at h1
  rw [div_lt_iff₀ hm] at h2
  constructor <;> linarith

theorem pyMod_int (a : Int) : pyMod (a : K) 360 = ((a % 360 : Int) : K) := by
  have h : ⌊(a : K) / 360⌋ = a / 360 := by
    rw [Int.floor_eq_iff]
    have h1 : (a / 360) * 360 ≤ a := Int.ediv_mul_le a (by norm_num)
    have h2 : a < (a / 360 + 1) * 360 := by omega
    have h1' : ((a / 360 : Int) : K) * 360 ≤ a := by exact_mod_cast h1
    have h2' : (a : K) < ((a / 360 : Int) + 1) * 360 := by exact_mod_cast h2
    constructor
    · rw [le_div_iff₀ (by norm_num)]; exact h1'
    · rw [div_lt_iff₀ (by norm_num)]; exact h2'
  unfold pyMod
  rw [h, Int.emod_def]
  push_cast; ring

theorem pyMod_add (x : K) (k : Int) : pyMod (x + 360 * k) 360 = pyMod x 360 := by
  unfold pyMod
  rw [show (x + 360 * (k : K)) / 360 = x / 360 + k by field_simp, Int.floor_add_intCast]
  push_cast; ring

private theorem hue_eq (h : K) : (randomHSLColor h).1 = pyMod (h + 73) 360 := rfl

/-- C64: after at least one call the hue is in `[0, 360)`, whatever number it was set to. -/
theorem C64_hue_range (h : K) (n : Nat) : 0 ≤ hueAfter h (n + 1) ∧ hueAfter h (n + 1) < 360 := by
  rw [hueAfter, hue_eq]; exact pyMod_range _ _ (by norm_num)

/-- The hue after `n + 1` calls in closed form. -/
private theorem hueAfter_eq (h : K) (n : Nat) : hueAfter h (n + 1) = pyMod (h + 73 * (n + 1 : Nat)) 360 := by
  induction n with
  | zero => rw [hueAfter, hue_eq, hueAfter]; simp
  | succ n ih =>
    rw [hueAfter, hue_eq, ih]
    have : pyMod (h + 73 * (n + 1 : Nat)) 360 + 73 =
        (h + 73 * (n + 1 + 1 : Nat)) + 360 * ((-⌊(h + 73 * (n + 1 : Nat)) / 360⌋ : Int) : K) := by
      unfold pyMod; push_cast; ring
    rw [this, pyMod_add]

/-- C64: the hues repeat after 360 calls, whatever number the hue was set to. -/
theorem C64_period (h : K) (n : Nat) : hueAfter h (n + 1 + 360) = hueAfter h (n + 1) := by
  rw [show n + 1 + 360 = n + 360 + 1 by omega, hueAfter_eq, hueAfter_eq]
  have : h + 73 * ((n + 360 + 1 : Nat) : K) = h + 73 * ((n + 1 : Nat) : K) + 360 * ((73 : Int) : K) := by
    push_cast; ring
  rw [this, pyMod_add]

private theorem hueAfter_int (h : Int) (n : Nat) : hueAfter (h : K) (n + 1) = (((h + 73 * (n + 1)) % 360 : Int) : K) := by
  rw [hueAfter_eq, ← pyMod_int]; push_cast; rfl

/-- C64: from an integer hue, two calls use the same hue only if their numbers differ by a multiple of 360. -/
theorem C64_distinct (h : Int) (i j : Nat) : hueAfter (h : K) (i + 1) = hueAfter (h : K) (j + 1) ↔ i % 360 = j % 360 := by
  rw [hueAfter_int, hueAfter_int, Int.cast_inj]
  omega

/-- C64: from an integer hue, each of the 360 integer hues is used within every 360 successive calls. -/
theorem C64_all_hues (h : Int) (k : Nat) (hk : k < 360) (start : Nat) :
    ∃ n, start ≤ n ∧ n < start + 360 ∧ hueAfter (h : K) (n + 1) = (k : K) := by
  let r : Int := (217 * (k - h) - 1 - start) % 360
  have hr0 : 0 ≤ r := Int.emod_nonneg _ (by norm_num)
  have hr1 : r < 360 := Int.emod_lt_of_pos _ (by norm_num)
  refine ⟨start + r.toNat, by omega, by omega, ?_⟩
  rw [hueAfter_int]
  have : (h + 73 * (((start + r.toNat : Nat) : Int) + 1)) % 360 = k := by
    have e : ((start + r.toNat : Nat) : Int) = start + r := by omega
    rw [e]
    simp only [r]
    omega
  rw [this]; simp

/-- `n` is the nearest integer to `x`; if there are two, the even one. -/
def Spec.RoundsTo (x : K) (n : Int) : Prop := |(n : K) - x| ≤ 1 / 2 ∧ (|(n : K) - x| = 1 / 2 → Even n)

private theorem pyRound_spec (x : K) : |((pyRound x : Int) : K) - x| ≤ 1 / 2 := by
  unfold pyRound
  have h1 := Int.floor_le x
  have h2 := Int.lt_floor_add_one x
  simp only
  rw [abs_le]
  split_ifs <;> push_cast <;> constructor <;> linarith

private theorem pyRound_rounds (x : K) : Spec.RoundsTo x (pyRound x) := by
  refine ⟨pyRound_spec x, ?_⟩
  unfold pyRound
  have h1 := Int.floor_le x
  have h2 := Int.lt_floor_add_one x
  simp only
  split_ifs with a b c
  · intro h; rw [abs_of_nonpos (by linarith)] at h; exact absurd h (by linarith)
  · intro h; push_cast at h; rw [abs_of_nonneg (by linarith)] at h; exact absurd h (by linarith)
  · intro _; exact Int.even_iff.mpr c
  · intro _
    rw [Int.even_iff]
    omega

private theorem pyRound_between (x : K) (h1 : 63.75 ≤ x) (h2 : x ≤ 191.25) : 64 ≤ pyRound x ∧ pyRound x ≤ 191 := by
  have := abs_le.mp (pyRound_spec x)
  norm_num at h1 h2
  constructor
  · have : (63 : K) < pyRound x := by linarith [this.1]
    have : (63 : Int) < pyRound x := by exact_mod_cast this
    omega
  · have : (pyRound x : K) < 192 := by linarith [this.2]
    have : pyRound x < (192 : Int) := by exact_mod_cast this
    omega

private theorem hlsV_range (hue : K) : 1 / 4 ≤ hlsV (1 / 4 : K) (3 / 4) hue ∧ hlsV (1 / 4 : K) (3 / 4) hue ≤ 3 / 4 := by
  obtain ⟨h0, h1⟩ := pyMod_range hue 1 one_pos
  unfold hlsV
  simp only
  split_ifs <;> constructor <;> linarith

private theorem color_eq (h : K) : (randomHSLColor h).2 =
    ⟨pyRound (hlsV (1 / 4) (3 / 4) (pyMod (h + 73) 360 / 360 + 1 / 3) * 255),
     pyRound (hlsV (1 / 4) (3 / 4) (pyMod (h + 73) 360 / 360) * 255),
     pyRound (hlsV (1 / 4) (3 / 4) (pyMod (h + 73) 360 / 360 - 1 / 3) * 255)⟩ := by
  unfold randomHSLColor hlsToRgb
  simp only
  rw [if_neg (by norm_num), if_pos (by norm_num)]
  norm_num

/-- C64: all components are between 64 and 191. -/
theorem C64_components (h : K) : let c := (randomHSLColor h).2
    (64 ≤ c.red ∧ c.red ≤ 191) ∧ (64 ≤ c.green ∧ c.green ≤ 191) ∧ (64 ≤ c.blue ∧ c.blue ≤ 191) := by
  rw [color_eq]
  have key : ∀ x : K, 64 ≤ pyRound (hlsV (1 / 4) (3 / 4) x * 255) ∧ pyRound (hlsV (1 / 4) (3 / 4) x * 255) ≤ 191 := by
    intro x
    obtain ⟨h1, h2⟩ := hlsV_range x
    apply pyRound_between <;> norm_num <;> linarith
  exact ⟨key _, key _, key _⟩

private theorem pyMod_one_of (x : K) (k : Int) (h0 : (k : K) ≤ x) (h1 : x < k + 1) : pyMod x 1 = x - k := by
  unfold pyMod
  rw [div_one, Int.floor_eq_iff.mpr ⟨h0, h1⟩, one_mul]

private theorem pyRound_low : pyRound ((1 / 4 : K) * 255) = 64 := by
  have := pyRound_between ((1 / 4 : K) * 255) (by norm_num) (by norm_num)
  have h2 := abs_le.mp (pyRound_spec ((1 / 4 : K) * 255))
  have : (pyRound ((1 / 4 : K) * 255) : K) < 65 := by linarith [h2.2]
  have : pyRound ((1 / 4 : K) * 255) < (65 : Int) := by exact_mod_cast this
  omega

private theorem pyRound_high : pyRound ((3 / 4 : K) * 255) = 191 := by
  have := pyRound_between ((3 / 4 : K) * 255) (by norm_num) (by norm_num)
  have h2 := abs_le.mp (pyRound_spec ((3 / 4 : K) * 255))
  have : (190 : K) < pyRound ((3 / 4 : K) * 255) := by linarith [h2.1]
  have : (190 : Int) < pyRound ((3 / 4 : K) * 255) := by exact_mod_cast this
  omega

private theorem hlsV_of (x : K) (k : Int) (y : K) (hy : x = y + k) (h0 : 0 ≤ y) (h1 : y < 1) :
    (1 / 6 ≤ y → y < 1 / 2 → hlsV (1 / 4 : K) (3 / 4) x = 3 / 4) ∧ (2 / 3 ≤ y → hlsV (1 / 4 : K) (3 / 4) x = 1 / 4) := by
  have e : pyMod x 1 = y := by
    rw [pyMod_one_of x k (by linarith) (by linarith), hy]; ring
  unfold hlsV
  simp only [e]
  constructor
  · intro h2 h3; rw [if_neg (by linarith), if_pos h3]
  · intro h2; rw [if_neg (by linarith), if_neg (by linarith), if_neg (by linarith)]

/-- C64: each colour has a component 191 and a component 64: saturation and lightness are always the same. -/
theorem C64_saturated (h : K) : let c := (randomHSLColor h).2
    (c.red = 191 ∨ c.green = 191 ∨ c.blue = 191) ∧ (c.red = 64 ∨ c.green = 64 ∨ c.blue = 64) := by
  rw [color_eq]
  simp only
  obtain ⟨h0, h1⟩ := pyMod_range (h + 73) (360 : K) (by norm_num)
  set x : K := pyMod (h + 73) 360 / 360 with hx
  have x0 : 0 ≤ x := by rw [hx]; positivity
  have x1 : x < 1 := by rw [hx, div_lt_one (by norm_num)]; exact h1
  constructor
  · rcases lt_or_ge x (1 / 6) with c | c
    · left; rw [(hlsV_of (x + 1 / 3) 0 (x + 1 / 3) (by simp) (by linarith) (by linarith)).1 (by linarith) (by linarith)]
      exact pyRound_high
    · rcases lt_or_ge x (1 / 2) with c' | c'
      · right; left
        rw [(hlsV_of x 0 x (by simp) x0 x1).1 c c']; exact pyRound_high
      · rcases lt_or_ge x (5 / 6) with c2 | c2
        · right; right
          rw [(hlsV_of (x - 1 / 3) 0 (x - 1 / 3) (by simp) (by linarith) (by linarith)).1 (by linarith) (by linarith)]
          exact pyRound_high
        · left
          rw [(hlsV_of (x + 1 / 3) 1 (x - 2 / 3) (by push_cast; ring) (by linarith) (by linarith)).1 (by linarith) (by linarith)]
          exact pyRound_high
  · rcases lt_or_ge x (1 / 3) with c | c
    · right; right
      rw [(hlsV_of (x - 1 / 3) (-1) (x + 2 / 3) (by push_cast; ring) (by linarith) (by linarith)).2 (by linarith)]
      exact pyRound_low
    · rcases lt_or_ge x (2 / 3) with c' | c'
      · left
        rw [(hlsV_of (x + 1 / 3) 0 (x + 1 / 3) (by simp) (by linarith) (by linarith)).2 (by linarith)]
        exact pyRound_low
      · right; left
        rw [(hlsV_of x 0 x (by simp) x0 x1).2 c']; exact pyRound_low

/-- C64: `randomRGBColor` uses the three random numbers in the order red, green, blue. -/
theorem C64_rgb (red green blue : Int) :
    (randomRGBColor red green blue).red = red ∧ (randomRGBColor red green blue).green = green ∧ (randomRGBColor red green blue).blue = blue :=
  ⟨rfl, rfl, rfl⟩

/-- C64: a hue set explicitly counts up to multiples of 360. -/
theorem C64_restart (h : K) (k : Int) (n : Nat) :
    randomHSLColor (hueAfter (setCurrentHue (h + 360 * k)) n) = (hueAfter (setCurrentHue h) (n + 1),
      (randomHSLColor (hueAfter (setCurrentHue h) n)).2) := by
  have key : ∀ x : K, randomHSLColor (x + 360 * k) = randomHSLColor x := by
    intro x
    have : pyMod (x + 360 * k + 73) 360 = pyMod (x + 73) 360 := by
      rw [show x + 360 * (k : K) + 73 = x + 73 + 360 * k by ring, pyMod_add]
    unfold randomHSLColor
    rw [this]
  unfold setCurrentHue
  rw [show hueAfter h (n + 1) = (randomHSLColor (hueAfter h n)).1 from rfl]
  cases n with
  | zero => exact key h
  | succ n =>
    rw [hueAfter_eq, hueAfter_eq, show h + 360 * (k : K) + 73 * (n + 1 : Nat) = h + 73 * (n + 1 : Nat) + 360 * k by ring, pyMod_add]

/-- The amount of a primary colour at `centre` degrees in the colour of hue `hue`: full within 60 degrees on the colour circle,
none beyond 120 degrees, and linear in between. -/
def Spec.amount (centre hue : K) : K := max 0 (min 1 (2 - min |hue - centre| (360 - |hue - centre|) / 60))

private theorem hlsV_amount (x z : K) (k : Int) (hx : x = z + k) (h0 : 0 ≤ z) (h1 : z < 1) :
    hlsV (1 / 4 : K) (3 / 4) x = 1 / 4 + 1 / 2 * Spec.amount 120 (360 * z) := by
  have e : pyMod x 1 = z := by
    rw [pyMod_one_of x k (by linarith) (by linarith), hx]; ring
  unfold hlsV Spec.amount
  simp only [e]
  rcases le_total 0 (360 * z - 120) with a | a
  · rw [abs_of_nonneg a]
    rcases le_total (360 * z - 120) (360 - (360 * z - 120)) with b | b
    · rw [min_eq_left b, if_neg (by linarith)]
      by_cases c : z < 1 / 2
      · rw [if_pos c, min_eq_left (by linarith), max_eq_right (by norm_num)]; norm_num
      · rw [if_neg c, min_eq_right (by linarith)]
        by_cases d : z < 2 / 3
        · rw [if_pos d, max_eq_right (by linarith)]; ring
        · rw [if_neg d, max_eq_left (by linarith)]; norm_num
    · rw [min_eq_right b, if_neg (by linarith), if_neg (by linarith), if_neg (by linarith), min_eq_right (by linarith),
        max_eq_left (by linarith)]
      norm_num
  · rw [abs_of_nonpos a, min_eq_left (by linarith : -(360 * z - 120) ≤ 360 - -(360 * z - 120))]
    by_cases c : z < 1 / 6
    · rw [if_pos c, min_eq_right (by linarith), max_eq_right (by linarith)]; ring
    · rw [if_neg c, if_pos (by linarith), min_eq_left (by linarith), max_eq_right (by norm_num)]; norm_num

private theorem amount_turn (c c' hue hue' : K) (h0 : 0 ≤ hue) (h1 : hue < 360) (h0' : 0 ≤ hue') (h1' : hue' < 360)
    (hc : 0 ≤ c) (hc1 : c < 360) (hc' : 0 ≤ c') (hc1' : c' < 360)
    (h : hue - c = hue' - c' ∨ hue - c = hue' - c' + 360 ∨ hue - c = hue' - c' - 360) :
    Spec.amount c hue = Spec.amount c' hue' := by
  unfold Spec.amount
  rcases h with h | h | h
  · rw [h]
  · rw [h, abs_of_nonneg (by linarith : 0 ≤ hue' - c' + 360), abs_of_nonpos (by linarith : hue' - c' ≤ 0),
      min_comm (-(hue' - c')), show 360 - -(hue' - c') = hue' - c' + 360 by ring, show 360 - (hue' - c' + 360) = -(hue' - c') by ring]
  · rw [h, abs_of_nonpos (by linarith : hue' - c' - 360 ≤ 0), abs_of_nonneg (by linarith : 0 ≤ hue' - c'),
      min_comm (hue' - c'), show 360 - -(hue' - c' - 360) = hue' - c' by ring, show -(hue' - c' - 360) = 360 - (hue' - c') by ring]

/-- C64: the colour has the hue: each component is a quarter of 255 plus half of 255 times the amount of its primary colour, rounded to
the nearest integer and in the middle to the even one. -/
theorem C64_color (h : K) : let (hue, c) := randomHSLColor h
    Spec.RoundsTo (255 * (1 / 4 + 1 / 2 * Spec.amount 0 hue)) c.red ∧
    Spec.RoundsTo (255 * (1 / 4 + 1 / 2 * Spec.amount 120 hue)) c.green ∧
    Spec.RoundsTo (255 * (1 / 4 + 1 / 2 * Spec.amount 240 hue)) c.blue := by
  show Spec.RoundsTo (255 * (1 / 4 + 1 / 2 * Spec.amount 0 (randomHSLColor h).1)) (randomHSLColor h).2.red ∧
    Spec.RoundsTo (255 * (1 / 4 + 1 / 2 * Spec.amount 120 (randomHSLColor h).1)) (randomHSLColor h).2.green ∧
    Spec.RoundsTo (255 * (1 / 4 + 1 / 2 * Spec.amount 240 (randomHSLColor h).1)) (randomHSLColor h).2.blue
  rw [color_eq, hue_eq]
  obtain ⟨h0, h1⟩ := pyMod_range (h + 73) 360 (by norm_num)
  generalize pyMod (h + 73) 360 = hue at h0 h1
  have key : ∀ (x z c : K) (k : Int), x = z + k → 0 ≤ z → z < 1 → Spec.amount 120 (360 * z) = Spec.amount c hue →
      Spec.RoundsTo (255 * (1 / 4 + 1 / 2 * Spec.amount c hue)) (pyRound (hlsV (1 / 4) (3 / 4) x * 255)) := by
    intro x z c k hx hz0 hz1 he
    have := pyRound_rounds (hlsV (1 / 4) (3 / 4) x * 255)
    rw [← he, mul_comm 255, ← hlsV_amount x z k hx hz0 hz1]
    exact this
  refine ⟨?_, ?_, ?_⟩
  · rcases lt_or_ge hue 240 with a | a
    · exact key _ (hue / 360 + 1 / 3) 0 0 (by simp) (by positivity) (by linarith)
        (amount_turn _ _ _ _ (by linarith) (by linarith) h0 h1 (by norm_num) (by norm_num) (by norm_num) (by norm_num) (.inl (by ring)))
    · exact key _ (hue / 360 - 2 / 3) 0 1 (by push_cast; ring) (by linarith) (by linarith)
        (amount_turn _ _ _ _ (by linarith) (by linarith) h0 h1 (by norm_num) (by norm_num) (by norm_num) (by norm_num) (.inr (.inr (by ring))))
  · exact key _ (hue / 360) 120 0 (by simp) (by positivity) (by linarith) (by rw [mul_div_cancel₀ _ (by norm_num)])
  · rcases lt_or_ge hue 120 with a | a
    · exact key _ (hue / 360 + 2 / 3) 240 (-1) (by push_cast; ring) (by positivity) (by linarith)
        (amount_turn _ _ _ _ (by linarith) (by linarith) h0 h1 (by norm_num) (by norm_num) (by norm_num) (by norm_num) (.inr (.inl (by ring))))
    · exact key _ (hue / 360 - 1 / 3) 240 0 (by simp) (by linarith) (by linarith)
        (amount_turn _ _ _ _ (by linarith) (by linarith) h0 h1 (by norm_num) (by norm_num) (by norm_num) (by norm_num) (.inl (by ring)))

example : Spec.amount 120 (90 : ℚ) = 1 ∧ Spec.amount 0 (90 : ℚ) = 1 / 2 ∧ Spec.amount 0 (330 : ℚ) = 1 ∧
    Spec.amount 240 (90 : ℚ) = 0 := by
  decide +kernel

/-- A case of C64 in the middle of two integers: 76.5 becomes 76, and 93.5 becomes 94. -/
example : 255 * (1 / 4 + 1 / 2 * Spec.amount 120 (6 : ℚ)) = 76.5 ∧ (randomHSLColor (293 : ℚ)).2.green = 76 ∧
    255 * (1 / 4 + 1 / 2 * Spec.amount 120 (14 : ℚ)) = 93.5 ∧ (randomHSLColor (301 : ℚ)).2.green = 94 := by
  decide +kernel

end hue

/-- The hue of a colour with components 64 and 191. -/
private def hueOf (c : Color) : Int :=
  let f := fun (x : Int) => (16 * x - 1003) / 34
  (if c.blue = 64 then (if c.red = 191 then f c.green else 120 - f c.red)
  else if c.red = 64 then (if c.green = 191 then 120 + f c.blue else 240 - f c.green)
  else if c.blue = 191 then 240 + f c.red else 360 - f c.blue) % 360

private theorem hueOf_color : ∀ k < 360, hueOf (randomHSLColor ((k : Nat) - 73 : ℚ)).2 = k := by
  decide +kernel

/-- C64: the 360 colours of the integer hues are all different. -/
theorem C64_distinct_colors (i j : Nat) (hi : i < 360) (hj : j < 360)
    (h : (randomHSLColor ((i : ℚ) - 73)).2 = (randomHSLColor ((j : ℚ) - 73)).2) : i = j := by
  have h1 := hueOf_color i hi
  have h2 := hueOf_color j hj
  rw [h, h2] at h1
  exact_mod_cast h1.symm

/-- A case of C64: the colours of the first calls. -/
example : randomHSLColor (0 : ℚ) = (73, ⟨164, 191, 64⟩) ∧ randomHSLColor (73 : ℚ) = (146, ⟨64, 191, 119⟩) := by
  decide +kernel

end PathLib
