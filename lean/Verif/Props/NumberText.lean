import Verif.Model.NumberText
import Verif.Props.Glyph
import Verif.Props.SvgText
import Verif.Lemmas.Float
import Mathlib.Tactic.IntervalCases

/-!
# How numbers are printed: C122
-/

set_option linter.unusedSectionVars false
set_option linter.unusedSimpArgs false

namespace PathLib
open Spec Spec.Decimal Spec.Svg NumberText

namespace NumberText

theorem digitChar_isDigit (d : Fin 10) : (digitChar d).isDigit = true := by revert d; decide
theorem digitChar_val (d : Fin 10) : (digitChar d).toNat - 48 = d := by revert d; decide

theorem ofNat_digit {n : ℕ} (h : n < 10) : Char.ofNat (48 + n) = digitChar ⟨n, h⟩ := rfl

/-- Only digits. -/
def AllDigits (cs : List Char) : Prop := ∀ c ∈ cs, c.isDigit = true

theorem allDigits_map (ds : List (Fin 10)) : AllDigits (ds.map digitChar) := by
  intro c hc
  obtain ⟨d, -, rfl⟩ := List.mem_map.mp hc
  exact digitChar_isDigit d

theorem allDigits_replicate (n : ℕ) : AllDigits (List.replicate n '0') := by
  intro c hc
  rw [List.eq_of_mem_replicate hc]; rfl

theorem AllDigits.append {a b : List Char} (ha : AllDigits a) (hb : AllDigits b) : AllDigits (a ++ b) := by
  intro c hc
  rcases List.mem_append.mp hc with h | h
  · exact ha c h
  · exact hb c h

theorem take_digits (a : List Char) (ha : AllDigits a) (c : Char) (r : List Char) (hc : c.isDigit = false) :
    (a ++ c :: r).takeWhile Char.isDigit = a ∧ (a ++ c :: r).dropWhile Char.isDigit = c :: r := by
  induction a with
  | nil => simp [hc]
  | cons x a ih =>
    have hx := ha x (by simp)
    obtain ⟨h1, h2⟩ := ih fun c hc => ha c (by simp [hc])
    simp [hx, h1, h2]

theorem take_all (a : List Char) (ha : AllDigits a) : a.takeWhile Char.isDigit = a ∧ a.dropWhile Char.isDigit = [] := by
  induction a with
  | nil => simp
  | cons x a ih =>
    have hx := ha x (by simp)
    obtain ⟨h1, h2⟩ := ih fun c hc => ha c (by simp [hc])
    simp [hx, h1, h2]

theorem foldl_shift (cs : List Char) (a : ℕ) :
    cs.foldl (fun a c => 10 * a + (c.toNat - 48)) a = a * 10 ^ cs.length + charsNumber cs := by
  unfold charsNumber
  induction cs generalizing a with
  | nil => simp
  | cons c cs ih =>
    simp only [List.foldl_cons]
    rw [ih, ih (10 * 0 + _)]
    simp only [List.length_cons, pow_succ]
    ring

theorem number_append (a b : List Char) : charsNumber (a ++ b) = charsNumber a * 10 ^ b.length + charsNumber b := by
  rw [← foldl_shift b (charsNumber a)]
  unfold charsNumber
  rw [List.foldl_append]

theorem number_zeros (n : ℕ) : charsNumber (List.replicate n '0') = 0 := by
  induction n with
  | zero => rfl
  | succ n ih => rw [List.replicate_succ', number_append, ih]; rfl

theorem number_map (ds : List (Fin 10)) : charsNumber (ds.map digitChar) = number ds := by
  unfold charsNumber number
  rw [List.foldl_map]
  simp only [digitChar_val]

theorem readDigits_ok (cs : List Char) (h : AllDigits cs) (hne : cs ≠ []) : readDigits cs = some ((charsNumber cs : ℕ) : ℤ) := by
  unfold readDigits
  rw [if_pos ⟨hne, by simpa [AllDigits] using h⟩]

theorem natText_digits (n : ℕ) : AllDigits (natText n) ∧ natText n ≠ [] ∧ charsNumber (natText n) = n := by
  unfold natText
  split_ifs with h
  · subst h; exact ⟨by intro c hc; simp at hc; subst hc; rfl, by simp, rfl⟩
  · have hlt : ∀ d ∈ Nat.digits 10 n, d < 10 := fun d hd => Nat.digits_lt_base (by norm_num) hd
    refine ⟨?_, by simpa [Nat.digits_eq_nil_iff_eq_zero] using h, ?_⟩
    · intro c hc
      obtain ⟨d, hd, rfl⟩ := List.mem_map.mp hc
      rw [ofNat_digit (hlt d (by simpa using hd))]
      exact digitChar_isDigit _
    · have key : ∀ l : List ℕ, (∀ d ∈ l, d < 10) → charsNumber (l.reverse.map fun d => Char.ofNat (48 + d)) = Nat.ofDigits 10 l := by
        intro l hl
        induction l with
        | nil => rfl
        | cons d l ih =>
          rw [List.reverse_cons, List.map_append, number_append, ih fun d hd => hl d (by simp [hd]), Nat.ofDigits_cons]
          have : charsNumber ([d].map fun d => Char.ofNat (48 + d)) = d := by
            simp only [List.map_cons, List.map_nil]
            rw [ofNat_digit (hl d (by simp))]
            unfold charsNumber
            simp only [List.foldl_cons, List.foldl_nil, digitChar_val]
            simp
          rw [this]
          simp; ring
      rw [key _ hlt, Nat.ofDigits_digits]

/-- Reading digits, a point and digits. -/
theorem read_fixed (i f : List Char) (hi : AllDigits i) (hf : AllDigits f) (hne : i ++ f ≠ []) :
    readUnsigned (i ++ '.' :: f) = some ((charsNumber (i ++ f) : ℚ) * 10 ^ (-(f.length : ℤ))) := by
  unfold readUnsigned
  obtain ⟨h1, h2⟩ := take_digits i hi '.' f (by decide)
  obtain ⟨h3, h4⟩ := take_all f hf
  simp only [h1, h2, readFraction, h3, h4, if_neg hne, readExponent, Option.map_some, zero_sub]

theorem read_exponent (i f e : List Char) (hi : AllDigits i) (hf : AllDigits f) (he : AllDigits e) (hi0 : i ≠ []) (he0 : e ≠ []) (neg : Bool) :
    readUnsigned (i ++ ((if f = [] then [] else '.' :: f) ++ 'e' :: (if neg then '-' else '+') :: e)) =
      some ((charsNumber (i ++ f) : ℚ) * 10 ^ ((if neg then -(charsNumber e : ℤ) else (charsNumber e : ℤ)) - f.length)) := by
  unfold readUnsigned
  have hne : i ++ f ≠ [] := by simp [hi0]
  have hx : readExponent ('e' :: (if neg then '-' else '+') :: e) = some (if neg then -(charsNumber e : ℤ) else (charsNumber e : ℤ)) := by
    cases neg
    · simp [readExponent, readDigits_ok e he he0]
    · simp [readExponent, readDigits_ok e he he0]
  by_cases hf0 : f = []
  · subst hf0
    rw [if_pos rfl, List.nil_append]
    obtain ⟨h1, h2⟩ := take_digits i hi 'e' ((if neg then '-' else '+') :: e) (by decide)
    have hr : readFraction ('e' :: (if neg then '-' else '+') :: e) = ([], 'e' :: (if neg then '-' else '+') :: e) := rfl
    simp only [h1, h2, hr, if_neg hne, hx, Option.map_some]
  · rw [if_neg hf0, List.cons_append]
    obtain ⟨h1, h2⟩ := take_digits i hi '.' (f ++ 'e' :: (if neg then '-' else '+') :: e) (by decide)
    obtain ⟨h3, h4⟩ := take_digits f hf 'e' ((if neg then '-' else '+') :: e) (by decide)
    simp only [h1, h2, readFraction, h3, h4, if_neg hne, hx, Option.map_some]

theorem fixed_value (ds : List (Fin 10)) (hd : ds ≠ []) (p : ℤ) :
    readUnsigned (fixedText ds p) = some ((number ds : ℚ) * 10 ^ (p - ds.length)) := by
  unfold fixedText
  have hA := allDigits_map ds
  simp only
  split_ifs with h1 h2
  · have := read_fixed ['0'] (List.replicate (-p).toNat '0' ++ ds.map digitChar) (by intro c hc; simp at hc; subst hc; rfl)
      ((allDigits_replicate _).append hA) (by simp)
    rw [List.cons_append, List.nil_append] at this
    rw [this, number_append, number_append, number_zeros, number_map]
    simp only [List.length_append, List.length_replicate, List.length_map, show charsNumber ['0'] = 0 from rfl]
    congr 1
    have e : (((-p).toNat : ℕ) : ℤ) = -p := Int.toNat_of_nonneg (by omega)
    push_cast
    rw [e]
    simp only [zero_mul, zero_add]
    congr 2; ring
  · have := read_fixed ((ds.map digitChar).take p.toNat) ((ds.map digitChar).drop p.toNat)
      (fun c hc => hA c (List.mem_of_mem_take hc)) (fun c hc => hA c (List.mem_of_mem_drop hc)) (by simpa using hd)
    rw [this, List.take_append_drop, number_map]
    simp only [List.length_drop, List.length_map] at h2 ⊢
    congr 3
    omega
  · have := read_fixed (ds.map digitChar ++ List.replicate (p.toNat - (ds.map digitChar).length) '0') ['0']
      (hA.append (allDigits_replicate _)) (by intro c hc; simp at hc; subst hc; rfl) (by simp)
    rw [List.append_assoc] at this
    rw [this, number_append, number_append, number_zeros, number_map]
    simp only [List.length_replicate, List.length_map, show charsNumber ['0'] = 0 from rfl, List.length_cons, List.length_nil] at h2 ⊢
    congr 1
    push_cast
    obtain ⟨n, hn⟩ : ∃ n : ℕ, p = ds.length + n := ⟨(p - ds.length).toNat, by omega⟩
    have e : p.toNat - ds.length = n := by omega
    rw [e, hn]
    simp

theorem exponent_value (ds : List (Fin 10)) (hd : ds ≠ []) (p : ℤ) :
    readUnsigned (exponentText ds p) = some ((number ds : ℚ) * 10 ^ (p - ds.length)) := by
  unfold exponentText
  obtain ⟨x, ds, rfl⟩ := List.exists_cons_of_ne_nil hd
  have hA := allDigits_map ds
  obtain ⟨n1, n2, n3⟩ := natText_digits (p - 1).natAbs
  simp only [List.map_cons, List.take_succ_cons, List.take_zero, List.drop_succ_cons, List.drop_zero]
  have := read_exponent [digitChar x] (ds.map digitChar) (List.replicate (2 - (natText (p - 1).natAbs).length) '0' ++ natText (p - 1).natAbs)
    (by intro c hc; simp at hc; subst hc; exact digitChar_isDigit x) hA ((allDigits_replicate _).append n1) (by simp) (by simp [n2])
    (decide (p - 1 < 0))
  have e1 : (if (digitChar x :: ds.map digitChar).length ≤ 1 then ([] : List Char) else '.' :: ds.map digitChar) =
      if ds.map digitChar = [] then [] else '.' :: ds.map digitChar := by
    cases ds <;> simp
  simp only [decide_eq_true_eq] at this
  have e2 : charsNumber ([digitChar x] ++ ds.map digitChar) = number (x :: ds) := by rw [← number_map]; rfl
  rw [e1, this, number_append _ (natText _), number_zeros, n3, e2]
  congr 3
  simp only [List.length_map, List.length_cons, zero_mul, zero_add]
  split_ifs <;> omega

theorem abs_value (d : Decimal) : d.value = if d.neg then -((number d.digits : ℚ) * 10 ^ (d.point - d.digits.length))
    else (number d.digits : ℚ) * 10 ^ (d.point - d.digits.length) := by
  unfold Decimal.value
  cases d.neg <;> simp

/-- The characters that occur in the text of a number. -/
def Ordinary (c : Char) : Prop := c.isDigit = true ∨ c = '.' ∨ c = 'e' ∨ c = '+' ∨ c = '-'

theorem ordinary_plain {c : Char} (h : Ordinary c) :
    isCommand c = false ∧ isSeparator c = false ∧ c ≠ '\'' ∧ c ≠ '<' ∧ c ≠ '&' := by
  rcases h with h | rfl | rfl | rfl | rfl
  · have : c ∈ ['0', '1', '2', '3', '4', '5', '6', '7', '8', '9'] := by
      have h1 : 48 ≤ c.toNat ∧ c.toNat ≤ 57 := by
        simp only [Char.isDigit, Bool.and_eq_true, decide_eq_true_eq] at h
        exact ⟨h.1, h.2⟩
      have h2 : c = Char.ofNat c.toNat := (Char.ofNat_toNat c).symm
      obtain ⟨a, b⟩ := h1
      interval_cases hn : c.toNat <;> rw [h2] <;> decide
    simp only [List.mem_cons, List.not_mem_nil, or_false] at this
    rcases this with rfl | rfl | rfl | rfl | rfl | rfl | rfl | rfl | rfl | rfl <;> decide
  all_goals decide

theorem body_ordinary (ds : List (Fin 10)) (p : ℤ) : (∀ c ∈ fixedText ds p, Ordinary c) ∧ (∀ c ∈ exponentText ds p, Ordinary c) := by
  have hA := allDigits_map ds
  have hR := allDigits_replicate
  constructor
  · unfold fixedText
    intro c hc
    simp only at hc
    split_ifs at hc with h1 h2
    · simp only [List.mem_cons, List.mem_append] at hc
      rcases hc with rfl | rfl | h | h
      · exact .inl rfl
      · exact .inr (.inl rfl)
      · exact .inl (hR _ c h)
      · exact .inl (hA c h)
    · simp only [List.mem_cons, List.mem_append] at hc
      rcases hc with h | rfl | h
      · exact .inl (hA c (List.mem_of_mem_take h))
      · exact .inr (.inl rfl)
      · exact .inl (hA c (List.mem_of_mem_drop h))
    · simp only [List.mem_cons, List.mem_append, List.not_mem_nil, or_false] at hc
      rcases hc with h | h | rfl | rfl
      · exact .inl (hA c h)
      · exact .inl (hR _ c h)
      · exact .inr (.inl rfl)
      · exact .inl rfl
  · unfold exponentText
    intro c hc
    simp only [List.mem_append, List.mem_cons] at hc
    rcases hc with h | h | rfl | h | h | h
    · exact .inl (hA c (List.mem_of_mem_take h))
    · split_ifs at h
      · simp at h
      · rcases List.mem_cons.mp h with rfl | h
        · exact .inr (.inl rfl)
        · exact .inl (hA c (List.mem_of_mem_drop h))
    · exact .inr (.inr (.inl rfl))
    · split_ifs at h <;> subst h
      · exact .inr (.inr (.inr (.inr rfl)))
      · exact .inr (.inr (.inr (.inl rfl)))
    · exact .inl (hR _ c h)
    · exact .inl ((natText_digits _).1 c h)

theorem readNumber_of_digit (w : List Char) (c : Char) (hc : c.isDigit = true) (h : w.head? = some c) : readNumber w = readUnsigned w := by
  cases w with
  | nil => simp at h
  | cons x w =>
    obtain rfl : x = c := by simpa using h
    unfold readNumber
    split
    · rename_i heq
      cases heq
      exact absurd hc (by decide)
    · rfl

theorem body_head (ds : List (Fin 10)) (hd : ds ≠ []) (p : ℤ) :
    (∃ c, c.isDigit = true ∧ (fixedText ds p).head? = some c) ∧ ∃ c, c.isDigit = true ∧ (exponentText ds p).head? = some c := by
  obtain ⟨x, ds, rfl⟩ := List.exists_cons_of_ne_nil hd
  constructor
  · unfold fixedText
    simp only
    split_ifs with h1 h2
    · exact ⟨'0', rfl, rfl⟩
    · refine ⟨digitChar x, digitChar_isDigit x, ?_⟩
      obtain ⟨n, hn⟩ : ∃ n, p.toNat = n + 1 := ⟨p.toNat - 1, by omega⟩
      rw [hn]; rfl
    · exact ⟨digitChar x, digitChar_isDigit x, rfl⟩
  · exact ⟨digitChar x, digitChar_isDigit x, rfl⟩

theorem reprText_ordinary (d : Decimal) : ∀ c ∈ reprText d, Ordinary c := by
  obtain ⟨o1, o2⟩ := body_ordinary d.digits d.point
  intro c hc
  unfold reprText at hc
  simp only at hc
  split_ifs at hc
  · rcases List.mem_cons.mp hc with rfl | hc
    · exact .inr (.inr (.inr (.inr rfl)))
    · exact o2 c hc
  · rcases List.mem_cons.mp hc with rfl | hc
    · exact .inr (.inr (.inr (.inr rfl)))
    · exact o1 c hc
  · exact o2 c hc
  · exact o1 c hc

theorem reprText_plain (d : Decimal) : Xml.Plain (reprText d) := fun c hc => (ordinary_plain (reprText_ordinary d c hc)).2.2

end NumberText

/-- C122: the text of a floating point number, with or without exponent, is read by the rules for numbers in path data as exactly the decimal
that Python chose; it has no characters with a meaning in path data or XML. -/
theorem C122_text (d : Decimal) (h : d.digits ≠ []) :
    readNumber (reprText d) = some d.value ∧ reprText d ≠ [] ∧
    (∀ c ∈ reprText d, isCommand c = false ∧ isSeparator c = false) ∧ Xml.Plain (reprText d) := by
  obtain ⟨⟨c1, k1, k2⟩, c2, k3, k4⟩ := body_head d.digits h d.point
  have hb : ∃ body, reprText d = (if d.neg then '-' :: body else body) ∧
      readUnsigned body = some ((number d.digits : ℚ) * 10 ^ (d.point - d.digits.length)) ∧
      ∃ c, c.isDigit = true ∧ body.head? = some c := by
    unfold reprText
    by_cases hp : d.point ≤ -4 ∨ 16 < d.point
    · exact ⟨_, by simp only [if_pos hp], exponent_value _ h _, c2, k3, k4⟩
    · exact ⟨_, by simp only [if_neg hp], fixed_value _ h _, c1, k1, k2⟩
  obtain ⟨body, e, hv, c, hc, hh⟩ := hb
  refine ⟨?_, ?_, fun c hc => ?_, reprText_plain d⟩
  · rw [e, abs_value]
    split_ifs
    · simp only [readNumber, hv, Option.map_some]
    · rw [readNumber_of_digit body c hc hh, hv]
  · rw [e]
    have : body ≠ [] := by rintro rfl; simp at hh
    split_ifs
    · simp
    · exact this
  · exact ⟨(ordinary_plain (reprText_ordinary d c hc)).1, (ordinary_plain (reprText_ordinary d c hc)).2.1⟩

/-- C122: so are integers. -/
theorem C122_int (n : ℤ) :
    readNumber (intText n) = some (n : ℚ) ∧ intText n ≠ [] ∧
    (∀ c ∈ intText n, isCommand c = false ∧ isSeparator c = false) ∧ Xml.Plain (intText n) := by
  obtain ⟨h1, h2, h3⟩ := natText_digits n.natAbs
  have hv : readUnsigned (natText n.natAbs) = some ((n.natAbs : ℕ) : ℚ) := by
    unfold readUnsigned
    obtain ⟨t1, t2⟩ := take_all _ h1
    simp [t1, t2, readFraction, readExponent, h2, h3]
  obtain ⟨c0, w, hw⟩ := List.exists_cons_of_ne_nil h2
  have hall : ∀ c ∈ intText n, Ordinary c := by
    intro c hc
    unfold intText at hc
    split_ifs at hc
    · rcases List.mem_cons.mp hc with rfl | hc
      · exact .inr (.inr (.inr (.inr rfl)))
      · exact .inl (h1 c hc)
    · exact .inl (h1 c hc)
  refine ⟨?_, ?_, fun c hc => ⟨(ordinary_plain (hall c hc)).1, (ordinary_plain (hall c hc)).2.1⟩,
    fun c hc => (ordinary_plain (hall c hc)).2.2⟩
  · unfold intText
    split_ifs with hn
    · simp only [readNumber, hv, Option.map_some, Option.some.injEq]
      rw [Nat.cast_natAbs, abs_of_neg hn]; push_cast; ring
    · rw [readNumber_of_digit _ c0 (h1 c0 (by simp [hw])) (by rw [hw]; rfl), hv]
      rw [Nat.cast_natAbs, abs_of_nonneg (not_lt.mp hn)]
  · unfold intText
    split_ifs
    · simp
    · exact h2

/-- The grammar of numbers in path data: digits before the point, a point only with digits after it, an exponent only with digits. -/
def Spec.NumberGrammar (cs : List Char) : Prop :=
  ∃ sign int frac exp, cs = sign ++ (int ++ (frac ++ exp)) ∧ (sign = [] ∨ sign = ['-']) ∧ int ≠ [] ∧ (∀ c ∈ int, c.isDigit = true) ∧
    (frac = [] ∨ ∃ ds, frac = '.' :: ds ∧ ds ≠ [] ∧ ∀ c ∈ ds, c.isDigit = true) ∧
    (exp = [] ∨ ∃ e ds, exp = 'e' :: e :: ds ∧ (e = '+' ∨ e = '-') ∧ 2 ≤ ds.length ∧ ∀ c ∈ ds, c.isDigit = true)

private theorem fixed_grammar (ds : List (Fin 10)) (h : ds ≠ []) (p : ℤ) : ∃ int frac, fixedText ds p = int ++ '.' :: frac ∧ int ≠ [] ∧
    frac ≠ [] ∧ AllDigits int ∧ AllDigits frac := by
  have hd := allDigits_map ds
  have hne : ds.map digitChar ≠ [] := by simpa using h
  have ht : ∀ n, AllDigits ((ds.map digitChar).take n) := fun n c hc => hd c (List.mem_of_mem_take hc)
  have hr : ∀ n, AllDigits ((ds.map digitChar).drop n) := fun n c hc => hd c (List.mem_of_mem_drop hc)
  unfold fixedText
  simp only
  split_ifs with h1 h2
  · exact ⟨['0'], _, rfl, by simp, by simp [hne], by intro c hc; simp at hc; subst hc; rfl, (allDigits_replicate _).append hd⟩
  · refine ⟨_, _, rfl, ?_, ?_, ht _, hr _⟩
    · intro e
      rcases List.take_eq_nil_iff.mp e with e | e
      · omega
      · exact hne e
    · intro e
      rw [List.drop_eq_nil_iff] at e
      omega
  · refine ⟨ds.map digitChar ++ List.replicate (p.toNat - (ds.map digitChar).length) '0', ['0'], by simp, by simp [hne], by simp,
      hd.append (allDigits_replicate _), by intro c hc; simp at hc; subst hc; rfl⟩

private theorem exponent_grammar (ds : List (Fin 10)) (h : ds ≠ []) (p : ℤ) : ∃ int frac e es, exponentText ds p = int ++ (frac ++ 'e' :: e :: es) ∧
    int ≠ [] ∧ AllDigits int ∧ (frac = [] ∨ ∃ ds, frac = '.' :: ds ∧ ds ≠ [] ∧ AllDigits ds) ∧ (e = '+' ∨ e = '-') ∧ 2 ≤ es.length ∧ AllDigits es := by
  have hd := allDigits_map ds
  have hne : ds.map digitChar ≠ [] := by simpa using h
  obtain ⟨n1, n2, -⟩ := natText_digits (p - 1).natAbs
  refine ⟨_, _, _, _, rfl, ?_, fun c hc => hd c (List.mem_of_mem_take hc), ?_, ?_, ?_, (allDigits_replicate _).append n1⟩
  · intro e
    rcases List.take_eq_nil_iff.mp e with e | e
    · omega
    · exact hne e
  · split_ifs with h1
    · exact .inl rfl
    · refine .inr ⟨_, rfl, ?_, fun c hc => hd c (List.mem_of_mem_drop hc)⟩
      intro e
      rw [List.drop_eq_nil_iff] at e
      omega
  · split_ifs
    · exact .inr rfl
    · exact .inl rfl
  · rw [List.length_append, List.length_replicate]; omega

/-- C122: what is printed follows the grammar, for floats and for integers; a float has a point or an exponent, so that Python reads it
as a float again. -/
theorem C122_grammar (d : Decimal) (h : d.digits ≠ []) (n : ℤ) :
    NumberGrammar (reprText d) ∧ ('.' ∈ reprText d ∨ 'e' ∈ reprText d) ∧ NumberGrammar (intText n) ∧ ∀ c ∈ intText n, c ≠ '.' ∧ c ≠ 'e' := by
  obtain ⟨n1, n2, -⟩ := natText_digits n.natAbs
  have key : ∃ int frac exp, (if d.point ≤ -4 ∨ 16 < d.point then exponentText d.digits d.point else fixedText d.digits d.point) = int ++ (frac ++ exp) ∧
      int ≠ [] ∧ AllDigits int ∧ (frac = [] ∨ ∃ ds, frac = '.' :: ds ∧ ds ≠ [] ∧ AllDigits ds) ∧
      (exp = [] ∨ ∃ e ds, exp = 'e' :: e :: ds ∧ (e = '+' ∨ e = '-') ∧ 2 ≤ ds.length ∧ AllDigits ds) ∧ ('.' ∈ frac ∨ 'e' ∈ exp) := by
    split_ifs
    · obtain ⟨int, frac, e, es, h1, h2, h3, h4, h5, h6, h7⟩ := exponent_grammar d.digits h d.point
      exact ⟨int, frac, 'e' :: e :: es, h1, h2, h3, h4, .inr ⟨e, es, rfl, h5, h6, h7⟩, .inr (by simp)⟩
    · obtain ⟨int, frac, h1, h2, h3, h4, h5⟩ := fixed_grammar d.digits h d.point
      exact ⟨int, '.' :: frac, [], by rw [h1, List.append_nil], h2, h4, .inr ⟨frac, rfl, h3, h5⟩, .inl rfl, .inl (by simp)⟩
  obtain ⟨int, frac, exp, e, k1, k2, k3, k4, k5⟩ := key
  have hr : reprText d = (if d.neg then ['-'] else []) ++ (int ++ (frac ++ exp)) := by
    unfold reprText
    simp only [e]
    split_ifs <;> rfl
  have hi : intText n = (if n < 0 then ['-'] else []) ++ (natText n.natAbs ++ ([] ++ [])) := by
    unfold intText
    split_ifs <;> simp
  refine ⟨⟨_, int, frac, exp, hr, by split_ifs <;> simp, k1, k2, k3, k4⟩, ?_, ⟨_, natText n.natAbs, [], [], hi, by split_ifs <;> simp, n2, n1, .inl rfl, .inl rfl⟩, ?_⟩
  · rw [hr]
    simp only [List.mem_append]
    tauto
  · intro c hc
    rw [hi] at hc
    simp only [List.append_nil, List.mem_append] at hc
    rcases hc with hc | hc
    · split_ifs at hc
      · simp at hc; subst hc; decide
      · simp at hc
    · have := n1 c hc
      constructor
      · rintro rfl; simp at this
      · rintro rfl; simp at this

namespace NumberText

theorem number_append_digit (ds : List (Fin 10)) (d : Fin 10) : number (ds ++ [d]) = 10 * number ds + d := by
  unfold number
  rw [List.foldl_append]; rfl

theorem number_lt (ds : List (Fin 10)) : number ds < 10 ^ ds.length := by
  induction ds using List.reverseRecOn with
  | nil => decide
  | append_singleton ds d ih =>
    rw [number_append_digit, List.length_append, List.length_singleton, pow_succ]
    have := d.isLt
    omega

/-- Every number below `10 ^ k` is written with `k` digits. -/
theorem exists_digits (k m : ℕ) (h : m < 10 ^ k) : ∃ ds : List (Fin 10), ds.length = k ∧ number ds = m := by
  induction k generalizing m with
  | zero => exact ⟨[], rfl, by simp at h; subst h; rfl⟩
  | succ k ih =>
    obtain ⟨ds, h1, h2⟩ := ih (m / 10) (by rw [pow_succ] at h; omega)
    refine ⟨ds ++ [⟨m % 10, Nat.mod_lt _ (by norm_num)⟩], by simp [h1], ?_⟩
    rw [number_append_digit, h2]
    simp only
    omega

theorem exists_decimal (k : ℕ) (m e : ℤ) (h : m.natAbs < 10 ^ k) :
    ∃ d : Decimal, d.digits.length = k ∧ d.value = m * 10 ^ e := by
  obtain ⟨ds, h1, h2⟩ := exists_digits k m.natAbs h
  refine ⟨⟨decide (m < 0), ds, e + k⟩, h1, ?_⟩
  rw [abs_value]
  simp only [h1, h2, add_sub_cancel_right, decide_eq_true_eq, Nat.cast_natAbs]
  split_ifs with hm
  · rw [abs_of_neg hm]; push_cast; ring
  · rw [abs_of_nonneg (not_lt.mp hm)]

/-- The digits with their sign. -/
def signed (d : Decimal) : ℤ := if d.neg then -(number d.digits : ℤ) else number d.digits

theorem signed_value (d : Decimal) : d.value = signed d * 10 ^ (d.point - d.digits.length) := by
  rw [abs_value]; unfold signed
  split_ifs <;> push_cast <;> ring

theorem signed_lt (d : Decimal) : |signed d| < 10 ^ d.digits.length := by
  have h : (number d.digits : ℤ) < 10 ^ d.digits.length := by exact_mod_cast number_lt d.digits
  unfold signed
  split_ifs
  · rw [abs_neg, abs_of_nonneg (by positivity)]; exact h
  · rw [abs_of_nonneg (by positivity)]; exact h

end NumberText

/-- C122: two decimals with at most 15 digits that round to the same floating point number are equal. -/
theorem C122_unique (a b : Decimal) (ha : a.digits.length ≤ 15) (hb : b.digits.length ≤ 15)
    (h : (binary 52).rnd (a.value : ℝ) = (binary 52).rnd (b.value : ℝ)) : a.value = b.value := by
  have key : ∀ a b : Decimal, a.digits.length ≤ 15 → a.point - a.digits.length ≤ b.point - b.digits.length →
      (binary 52).rnd (a.value : ℝ) = (binary 52).rnd (b.value : ℝ) → a.value = b.value := by
    intro a b ha hab h
    obtain ⟨k, hk⟩ := Int.eq_ofNat_of_zero_le (sub_nonneg.mpr hab)
    set e := a.point - a.digits.length
    have hA : a.value = signed a * 10 ^ e := signed_value a
    have hB : b.value = ((signed b * 10 ^ k : ℤ) : ℚ) * 10 ^ e := by
      rw [signed_value b, show b.point - b.digits.length = (k : ℤ) + e by omega, zpow_add₀ (by norm_num), zpow_natCast]
      push_cast; ring
    have hlt : |signed a| < 10 ^ 15 := lt_of_lt_of_le (signed_lt a) (pow_le_pow_right₀ (by norm_num) ha)
    generalize signed a = A at hA hlt
    generalize signed b * 10 ^ k = B at hB
    have e1 := (binary 52).error (a.value : ℝ)
    have e2 := (binary 52).error (b.value : ℝ)
    rw [h] at e1
    have hu : (binary 52).u = (2:ℝ) ^ (-(53:ℤ)) := rfl
    have e3 : |(a.value : ℝ) - b.value| ≤ 2 ^ (-(53:ℤ)) * (|(a.value : ℝ)| + |(b.value : ℝ)|) := by
      rw [hu] at e1 e2
      have := abs_sub_le (a.value : ℝ) ((binary 52).rnd (b.value : ℝ)) b.value
      rw [abs_sub_comm (a.value : ℝ) ((binary 52).rnd _)] at this
      linarith
    have hpos : (0:ℝ) < 10 ^ e := by positivity
    have e4 : |((A - B : ℤ) : ℝ)| ≤ 2 ^ (-(53:ℤ)) * (|(A : ℝ)| + |(B : ℝ)|) := by
      rw [hA, hB] at e3
      push_cast at e3 ⊢
      rw [← sub_mul, abs_mul, abs_mul, abs_mul, abs_of_pos hpos, ← add_mul, ← mul_assoc] at e3
      exact le_of_mul_le_mul_right e3 hpos
    have e5 : |(B : ℝ)| ≤ |(A : ℝ)| + |((A - B : ℤ) : ℝ)| := by
      have := abs_sub_abs_le_abs_sub (B : ℝ) A
      rw [abs_sub_comm] at this
      push_cast; linarith
    have e6 : |(A : ℝ)| < 10 ^ 15 := by exact_mod_cast hlt
    have e7 : |((A - B : ℤ) : ℝ)| < 1 := by
      norm_num at e4 e6 ⊢
      norm_num at e5
      linarith
    have e8 : |A - B| < 1 := by exact_mod_cast e7
    rw [Int.abs_lt_one_iff] at e8
    rw [hA, hB, show A = B by omega]
  rcases le_total (a.point - a.digits.length) (b.point - b.digits.length) with hl | hl
  · exact key a b ha hl h
  · exact (key b a hb hl h.symm).symm

/-- With 16 digits this fails: 2^53 and 2^53 + 1. -/
example : (binary 52).rnd (((⟨false, [9, 0, 0, 7, 1, 9, 9, 2, 5, 4, 7, 4, 0, 9, 9, 2], 16⟩ : Decimal).value : ℚ) : ℝ) =
      (binary 52).rnd (((⟨false, [9, 0, 0, 7, 1, 9, 9, 2, 5, 4, 7, 4, 0, 9, 9, 3], 16⟩ : Decimal).value : ℚ) : ℝ) ∧
    (⟨false, [9, 0, 0, 7, 1, 9, 9, 2, 5, 4, 7, 4, 0, 9, 9, 2], 16⟩ : Decimal).value ≠
      (⟨false, [9, 0, 0, 7, 1, 9, 9, 2, 5, 4, 7, 4, 0, 9, 9, 3], 16⟩ : Decimal).value := by
  rw [float_rnd, float_rnd]
  refine ⟨congrArg _ ?_, ?_⟩ <;> decide +kernel

/-- C122: a number that has at most 15 digits is printed exactly, so that it is read correctly also without rounding. -/
theorem C122_exact (repr : ℝ → Decimal) (h : Shortest (binary 52).toRounding repr) (d : Decimal) (hd : d.digits ≠ [])
    (hl : d.digits.length ≤ 15) (hr : (binary 52).rnd (d.value : ℝ) = d.value) :
    readNumber (reprText (repr d.value)) = some d.value := by
  rw [(C122_text _ (h.nonempty _ hr)).1]
  congr 1
  apply C122_unique
  · exact (h.fewest _ hr d hd hr).trans hl
  · exact hl
  · rw [hr]; exact h.rounds _ hr

/-- C122: this holds for the coordinates of fonts: multiples of 1/1024 up to 32768. -/
theorem C122_font (repr : ℝ → Decimal) (h : Shortest (binary 52).toRounding repr) (n : ℤ) (hn : |n| ≤ 2 ^ 25) :
    readNumber (reprText (repr ((n / 1024 : ℚ) : ℝ))) = some (n / 1024 : ℚ) := by
  have hn' := abs_le.mp hn
  obtain ⟨d, hd, hv⟩ := exists_decimal 15 (n * 5 ^ 10) (-10) (by rw [Int.natAbs_mul]; norm_num; omega)
  have hv' : d.value = (n / 1024 : ℚ) := by
    rw [hv]; push_cast
    rw [zpow_neg]
    norm_num
    ring
  have hr : (binary 52).rnd (d.value : ℝ) = d.value := by
    have := roundBits_repr 53 (by norm_num) n (-10) (by omega)
    rw [hv']
    push_cast
    rw [show (n : ℝ) / 1024 = n * 2 ^ (-10 : ℤ) by rw [zpow_neg]; norm_num; ring]
    exact this
  rw [← hv']
  exact C122_exact repr h d (by rintro e; rw [e] at hd; simp at hd) hd.le hr

/-- C122: with `repr` as Python documents it, every floating point number is printed in a form that reads back. -/
theorem C122_printable (R : Rounding) (repr : ℝ → Decimal) (h : Shortest R repr) (x : ℝ) (hx : R.rnd x = x) :
    Printable (fun x => reprText (repr x)) (readRounded R) x := by
  obtain ⟨h1, h2, h3, -⟩ := C122_text (repr x) (h.nonempty x hx)
  refine ⟨?_, h2, h3⟩
  simp only [readRounded, h1, Option.map_some, h.rounds x hx]

/-- C122: so the path data of every connected contour of lines, quadratics and cubics with floating point coordinates draws its
curves. -/
theorem C122_contour (R : Rounding) (repr : ℝ → Decimal) (h : Shortest R repr) (c : Contour ℝ) (bc : BContour)
    (hb : BContour.new c = .ok bc) (hc : Connected c) (hlen : ∀ s ∈ c, s.length ≤ 4)
    (hf : ∀ s ∈ c, ∀ p ∈ s, R.rnd p.1 = p.1 ∧ R.rnd p.2 = p.2) :
    interpret (readRounded R) (BContour.d (fun x => reprText (repr x)) bc) =
      some (Event.move bc.start :: (c.filter fun s => !isDot s).map Event.draw) :=
  C56_roundtrip c bc hb hc hlen _ _ fun s hs p hp =>
    ⟨C122_printable R repr h _ (hf s hs p hp).1, C122_printable R repr h _ (hf s hs p hp).2⟩

/-- C122: when a glyph can be drawn by a pen and its contours have floating point coordinates, the path data of the contour objects of
its outline draws these contours, in order. -/
theorem C122_glyph (R : Rounding) (repr : ℝ → Decimal) (h : Shortest R repr) (gs : GlyphSet ℝ)
    (hgs : ∀ name calls, gs name = some calls → ∀ c ∈ calls, PathLib.Spec.Ordinary c)
    (depth : Nat) (name : String) (cs : List (Contour ℝ)) (hd : SegmentPen.drawGlyph depth gs name = .ok cs)
    (hf : ∀ c ∈ cs, ∀ s ∈ c, ∀ p ∈ s, R.rnd p.1 = p.1 ∧ R.rnd p.2 = p.2) :
    ∃ o, BOutline.new cs = .ok o ∧ List.Forall₂ (fun bc c => bc.start = bc.stop ∧
      interpret (readRounded R) (BContour.d (fun x => reprText (repr x)) bc) =
        some (Event.move bc.start :: (c.filter fun s => !isDot s).map Event.draw)) o.bContours cs := by
  obtain ⟨o, h1, h2, -⟩ := C76_outline Unit gs hgs depth name cs hd
  refine ⟨o, h1, ?_⟩
  rw [List.forall₂_iff_get] at h2 ⊢
  refine ⟨h2.1, fun i k1 k2 => ?_⟩
  obtain ⟨m1, m2⟩ := h2.2 i k1 k2
  exact ⟨m1, (m2 _ _ fun s hs p hp => ⟨C122_printable R repr h _ (hf _ (List.get_mem _ _) s hs p hp).1,
    C122_printable R repr h _ (hf _ (List.get_mem _ _) s hs p hp).2⟩).1⟩

/-- C122: and an XML reader followed by a reader of path data finds in the text written by `drawContours` the contours. -/
theorem C122_plot {C : Type} (R : Rounding) (repr : ℝ → Decimal) (h : Shortest R repr)
    (attributes : StrokeAttributes ℝ C → List (List Char × List Char)) (text : StrokeAttributes ℝ C → List Char)
    (ht : StrokeText attributes text) (cs : List (Contour ℝ)) (hne : ∀ c ∈ cs, c ≠ [] ∧ Connected c)
    (hlen : ∀ c ∈ cs, ∀ s ∈ c, 2 ≤ s.length ∧ s.length ≤ 4) (hf : ∀ c ∈ cs, ∀ s ∈ c, ∀ p ∈ s, R.rnd p.1 = p.1 ∧ R.rnd p.2 = p.2)
    (color : Option C) (close : Bool) (s : ContourPlotter ℝ C) (hm : s.poly = false) :
    ∃ s' d, ContourPlotter.drawContours (fun x => reprText (repr x)) cs color false close s = (.ok (), s') ∧
      s'.content = s.content ++ [.path d { s.stroke with color := color.getD s.stroke.color }] ∧
      Xml.read (ContourPlotter.contoursText text d { s.stroke with color := color.getD s.stroke.color }) =
        some ("path".toList, ("d".toList, d) :: ("fill".toList, "none".toList) ::
          attributes { s.stroke with color := color.getD s.stroke.color }) ∧
      interpret (readRounded R) d = some (cs.flatMap (contourEvents close)) :=
  C105_drawContours _ (fun x => reprText_plain (repr x)) _ attributes text ht cs
    (fun c hc => ⟨(hne c hc).1, (hne c hc).2, hlen c hc, fun s hs p hp =>
      ⟨C122_printable R repr h _ (hf c hc s hs p hp).1, C122_printable R repr h _ (hf c hc s hs p hp).2⟩⟩) color close s (.inl hm)

/-- C122: such a function exists: every floating point number is a decimal. -/
theorem C122_exists (p : ℕ) : ∃ repr, Shortest (binary p).toRounding repr := by
  classical
  have hex : ∀ x, (binary p).rnd x = x → ∃ n : ℕ, ∃ d : Decimal, d.digits.length = n ∧ d.digits ≠ [] ∧
      (binary p).rnd (d.value : ℝ) = x := by
    intro x hx
    have hm : ∃ m e : ℤ, x = ((m * 10 ^ e : ℚ) : ℝ) := by
      have hx' : roundBits (p + 1) x = x := hx
      unfold roundBits ulp at hx'
      generalize Transform.roundHalfEven _ = m at hx'
      generalize Int.log 2 |x| + 1 - ((p + 1 : ℕ) : ℤ) = k at hx'
      rcases le_total 0 k with hk | hk
      · obtain ⟨k, rfl⟩ := Int.eq_ofNat_of_zero_le hk
        refine ⟨m * 2 ^ k, 0, ?_⟩
        rw [← hx']; push_cast; simp
      · obtain ⟨j, hj⟩ := Int.eq_ofNat_of_zero_le (neg_nonneg.mpr hk)
        obtain rfl : k = -(j : ℤ) := by omega
        refine ⟨m * 5 ^ j, -j, ?_⟩
        rw [← hx']; push_cast
        rw [zpow_neg, zpow_neg, zpow_natCast, zpow_natCast, show (10:ℝ) = 5 * 2 by norm_num, mul_pow]
        field_simp
    obtain ⟨m, e, rfl⟩ := hm
    obtain ⟨d, h1, h2⟩ := exists_decimal (m.natAbs + 1) m e
      (lt_of_lt_of_le (Nat.lt_pow_self (by norm_num)) (Nat.pow_le_pow_right (by norm_num) (Nat.le_succ _)))
    exact ⟨_, d, rfl, by rintro e; rw [e] at h1; simp at h1, by rw [h2]; exact hx⟩
  have hch : ∀ x, ∃ d : Decimal, (binary p).rnd x = x → d.digits ≠ [] ∧ (binary p).rnd (d.value : ℝ) = x ∧
      ∀ d' : Decimal, d'.digits ≠ [] → (binary p).rnd (d'.value : ℝ) = x → d.digits.length ≤ d'.digits.length := by
    intro x
    by_cases hx : (binary p).rnd x = x
    · obtain ⟨d, h1, h2, h3⟩ := Nat.find_spec (hex x hx)
      exact ⟨d, fun _ => ⟨h2, h3, fun d' k1 k2 => by rw [h1]; exact Nat.find_min' (hex x hx) ⟨d', rfl, k1, k2⟩⟩⟩
    · exact ⟨⟨false, [], 0⟩, fun h => absurd h hx⟩
  choose repr hrepr using hch
  exact ⟨repr, fun x hx => (hrepr x hx).1, fun x hx => (hrepr x hx).2.1, fun x hx => (hrepr x hx).2.2⟩

/-- The texts that Python prints for 0.5, 0.0001, 1e-07, 123.456, -3.0, 1.5e+16, 1e+22 and 1e-100. -/
example : reprText ⟨false, [5], 0⟩ = "0.5".toList ∧ reprText ⟨false, [1], -3⟩ = "0.0001".toList ∧
    reprText ⟨false, [1], -6⟩ = "1e-07".toList ∧ reprText ⟨false, [1, 2, 3, 4, 5, 6], 3⟩ = "123.456".toList ∧
    reprText ⟨true, [3], 1⟩ = "-3.0".toList ∧ reprText ⟨false, [1, 5], 17⟩ = "1.5e+16".toList ∧
    reprText ⟨false, [1, 5], 16⟩ = "1500000000000000.0".toList ∧
    reprText ⟨false, [1], 23⟩ = "1e+22".toList ∧ reprText ⟨false, [1], -99⟩ = "1e-100".toList ∧ intText (-120) = "-120".toList := by
  simp only [reprText, fixedText, exponentText, natText, intText]
  norm_num [digitChar]
  decide

end PathLib
